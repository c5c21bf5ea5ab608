/- Every word prints, in columns, as the specification says (for C60). -/
import Verif.Props.Dis2
import Verif.Spec.Columns

namespace Mips
open Isa Listing Syntax

theorem signedHex_off (v : BitVec 16) : signedHex v = offText v := by
  unfold offText
  by_cases h : v = 0x7FFF#16
  · subst h; decide
  · rw [if_neg h, signedHex_eq v h]

theorem colText_plain {sym : Word → Option Str} {base w : Word} {mn : Str} {args : List Arg}
    (hd : decoding w = some (mn, args)) (h0 : c0Arg args = none) (hj : mn ≠ c!"jalr")
    (hc : ∀ v, args ≠ [.code v]) (hne : args ≠ []) :
    colText sym base w = mn ++ gap mn ++ c!", ".intercalate (args.map (argCol sym base)) := by
  unfold colText
  rw [hd]
  simp only [h0]
  have hs : shown mn args = args := by
    unfold shown
    rw [if_neg (hc 0)]
    split <;> simp [hj]
  unfold colInst
  rw [hs, if_neg hne]

theorem colText_bare {sym : Word → Option Str} {base w : Word} {mn : Str}
    (hd : decoding w = some (mn, [])) : colText sym base w = mn := by
  unfold colText
  rw [hd]
  simp [c0Arg, colInst, shown]

theorem colWord_eq (w : Word) : op11 c!".word" ++ c!"0x" ++ zeroPad 8 (hexLower w.toNat) = colWord w := by
  unfold colWord
  rw [← hex8_eq, List.append_assoc]
  rfl

theorem col_bytes {sym : Word → Option Str} {base w : Word} (hd : decoding w = none) (hh : ¬ CopHole w) :
    Instruction.display (.bytes w) = some (colText sym base w) := by
  show some (op11 c!".word" ++ c!"0x" ++ zeroPad 8 (hexLower w.toNat)) = _
  rw [colWord_eq]
  unfold colText
  rw [hd]
  simp only
  split
  · next h =>
    split
    · next mn v e =>
      refine absurd ⟨h.1, h.2, hd, ?_⟩ hh
      have := List.find?_some e
      rw [List.mem_map]
      exact ⟨_, List.mem_of_find?_eq_some e, by simpa using this⟩
    · rfl
  · rfl

theorem not_hole {w : Word} (h : fOp w ≠ copOp 0) : ¬ CopHole w := fun h' => h h'.1

section shapes
variable {sym : Word → Option Str} {base w : Word} {c : Code} {mn : Str}

/-- An instruction whose operands are printed in full. -/
theorem col_plain {i : Instruction} {syn : Syn} (X : Str) (hc : codeOf w = c) (hr : rowAt c = some ⟨mn, syn, c⟩)
    (hd : i.display = some (mn ++ gap mn ++ X))
    (hj : mn ≠ c!"jalr") (h0 : c0Arg (argsOf w syn) = none) (hk : ∀ v, argsOf w syn ≠ [.code v])
    (hne : argsOf w syn ≠ []) (hX : X = c!", ".intercalate ((argsOf w syn).map (argCol sym base))) :
    i.display = some (colText sym base w) := by
  have hdec : decoding w = some (mn, argsOf w syn) := by rw [decoding_at hc, hr]; rfl
  rw [colText_plain hdec h0 hj hk hne, ← hX, hd]

theorem col_bare {i : Instruction} (hc : codeOf w = c) (hr : rowAt c = some ⟨mn, .none, c⟩)
    (hd : i.display = some mn) : i.display = some (colText sym base w) := by
  have hdec : decoding w = some (mn, []) := by rw [decoding_at hc, hr]; rfl
  rw [colText_bare hdec, hd]

/-- The operands start in the usual column. -/
def Inline (mn : Str) : Bool := decide (op11 mn = mn ++ gap mn) && decide (mn ≠ c!"jalr")

theorem col_op {i : Instruction} {syn : Syn} (X : Str) (hc : codeOf w = c) (hr : rowAt c = some ⟨mn, syn, c⟩)
    (hd : i.display = some (op11 mn ++ X)) (hm : Inline mn = true)
    (h0 : c0Arg (argsOf w syn) = none) (hk : ∀ v, argsOf w syn ≠ [.code v])
    (hne : argsOf w syn ≠ []) (hX : X = c!", ".intercalate ((argsOf w syn).map (argCol sym base))) :
    i.display = some (colText sym base w) := by
  simp only [Inline, Bool.and_eq_true, decide_eq_true_eq] at hm
  exact col_plain X hc hr (by rw [hd, hm.1]) hm.2 h0 hk hne hX

variable {op : RTypeOp} {io : ITypeOp}

theorem col_rdRsRt (hc : codeOf w = c) (hr : rowAt c = some ⟨op.name, .rdRsRt, c⟩) (hm : Inline op.name = true)
    (hd : ∀ rs rt rd sa b, displayR op rs rt rd sa b = some (op11 op.name ++ dr rd ++ sep ++ dr rs ++ sep ++ dr rt))
    (sa : Word) (b : List Word) :
    Instruction.display (.reg op (fields w).rs (fields w).rt (fields w).rd sa b) = some (colText sym base w) := by
  refine col_op (syn := .rdRsRt) _ hc hr ((hd ..).trans (by simp only [List.append_assoc]; rfl)) hm rfl
    (by simp [argsOf]) (by simp [argsOf]) ?_
  rw [fields_rs, fields_rt, fields_rd]
  simp [argsOf, argCol, argText, dr_eq, sep, List.intercalate]

theorem col_rdRtSa (hc : codeOf w = c) (hr : rowAt c = some ⟨op.name, .rdRtSa, c⟩) (hm : Inline op.name = true)
    (hd : ∀ rs rt rd sa b, displayR op rs rt rd sa b =
      some (op11 op.name ++ dr rd ++ sep ++ dr rt ++ sep ++ uhex sa.toNat)) (rs : Register) (b : List Word) :
    Instruction.display (.reg op rs (fields w).rt (fields w).rd (fields w).sa32 b) = some (colText sym base w) := by
  refine col_op (syn := .rdRtSa) _ hc hr ((hd ..).trans (by simp only [List.append_assoc]; rfl)) hm rfl
    (by simp [argsOf]) (by simp [argsOf]) ?_
  rw [fields_sa32, fields_rt, fields_rd]
  simp [argsOf, argCol, argText, dr_eq, uhex_eq, sep, List.intercalate]

theorem col_rdRtRs (hc : codeOf w = c) (hr : rowAt c = some ⟨op.name, .rdRtRs, c⟩) (hm : Inline op.name = true)
    (hd : ∀ rs rt rd sa b, displayR op rs rt rd sa b =
      some (op11 op.name ++ dr rd ++ sep ++ dr rt ++ sep ++ dr rs)) (sa : Word) (b : List Word) :
    Instruction.display (.reg op (fields w).rs (fields w).rt (fields w).rd sa b) = some (colText sym base w) := by
  refine col_op (syn := .rdRtRs) _ hc hr ((hd ..).trans (by simp only [List.append_assoc]; rfl)) hm rfl
    (by simp [argsOf]) (by simp [argsOf]) ?_
  rw [fields_rs, fields_rt, fields_rd]
  simp [argsOf, argCol, argText, dr_eq, sep, List.intercalate]

theorem col_rsRt (hc : codeOf w = c) (hr : rowAt c = some ⟨op.name, .rsRt, c⟩) (hm : Inline op.name = true)
    (hd : ∀ rs rt rd sa b, displayR op rs rt rd sa b = some (op11 op.name ++ dr rs ++ sep ++ dr rt))
    (rd : Register) (sa : Word) (b : List Word) :
    Instruction.display (.reg op (fields w).rs (fields w).rt rd sa b) = some (colText sym base w) := by
  refine col_op (syn := .rsRt) _ hc hr ((hd ..).trans (by simp only [List.append_assoc]; rfl)) hm rfl
    (by simp [argsOf]) (by simp [argsOf]) ?_
  rw [fields_rs, fields_rt]
  simp [argsOf, argCol, argText, dr_eq, sep, List.intercalate]

theorem col_rs (hc : codeOf w = c) (hr : rowAt c = some ⟨op.name, .rs, c⟩) (hm : Inline op.name = true)
    (hd : ∀ rs rt rd sa b, displayR op rs rt rd sa b = some (op11 op.name ++ dr rs)) (rt rd : Register) (sa : Word)
    (b : List Word) : Instruction.display (.reg op (fields w).rs rt rd sa b) = some (colText sym base w) := by
  refine col_op (syn := .rs) _ hc hr (hd ..) hm rfl
    (by simp [argsOf]) (by simp [argsOf]) ?_
  rw [fields_rs]
  simp [argsOf, argCol, argText, dr_eq, List.intercalate]

theorem col_rd (hc : codeOf w = c) (hr : rowAt c = some ⟨op.name, .rd, c⟩) (hm : Inline op.name = true)
    (hd : ∀ rs rt rd sa b, displayR op rs rt rd sa b = some (op11 op.name ++ dr rd)) (rs rt : Register) (sa : Word)
    (b : List Word) : Instruction.display (.reg op rs rt (fields w).rd sa b) = some (colText sym base w) := by
  refine col_op (syn := .rd) _ hc hr (hd ..) hm rfl
    (by simp [argsOf]) (by simp [argsOf]) ?_
  rw [fields_rd]
  simp [argsOf, argCol, argText, dr_eq, List.intercalate]

theorem col_rtFs (hc : codeOf w = c) (hr : rowAt c = some ⟨op.name, .rtFs, c⟩) (hm : Inline op.name = true)
    (hd : ∀ rs rt rd sa b, displayR op rs rt rd sa b = some (op11 op.name ++ dr rt ++ sep ++ df rd)) (rs : Register)
    (sa : Word) (b : List Word) : Instruction.display (.reg op rs (fields w).rt (fields w).rd sa b) = some (colText sym base w) := by
  refine col_op (syn := .rtFs) _ hc hr ((hd ..).trans (by simp only [List.append_assoc]; rfl)) hm rfl
    (by simp [argsOf]) (by simp [argsOf]) ?_
  rw [fields_rt, fields_rd]
  simp [argsOf, argCol, argText, dr_eq, df_eq, sep, List.intercalate]

theorem col_fdFsFt (hc : codeOf w = c) (hr : rowAt c = some ⟨dotted op.name, .fdFsFt, c⟩)
    (hm : Inline (dotted op.name) = true)
    (hd : ∀ rs rt rd sa b, displayR op rs rt rd sa b =
      some (op11 (dotted op.name) ++ df rd ++ sep ++ df rs ++ sep ++ df rt)) (sa : Word) (b : List Word) :
    Instruction.display (.reg op (fields w).rd (fields w).rt (fields w).sa sa b) = some (colText sym base w) := by
  refine col_op (syn := .fdFsFt) _ hc hr ((hd ..).trans (by simp only [List.append_assoc]; rfl)) hm rfl
    (by simp [argsOf]) (by simp [argsOf]) ?_
  rw [fields_rt, fields_rd, fields_sa]
  simp [argsOf, argCol, argText, df_eq, sep, List.intercalate]

theorem col_fdFs (p : Str) (hc : codeOf w = c) (hr : rowAt c = some ⟨dotted op.name, .fdFs, c⟩)
    (hp : gap (dotted op.name) = p) (hj : dotted op.name ≠ c!"jalr")
    (hd : ∀ rs rt rd sa b, displayR op rs rt rd sa b = some (dotted op.name ++ p ++ df rd ++ sep ++ df rs))
    (rt : Register) (sa : Word) (b : List Word) :
    Instruction.display (.reg op (fields w).rd rt (fields w).sa sa b) = some (colText sym base w) := by
  subst hp
  refine col_plain (syn := .fdFs) _ hc hr ((hd ..).trans (by rw [List.append_assoc _ sep, List.append_assoc _ (df _)])) hj rfl
    (by simp [argsOf]) (by simp [argsOf]) ?_
  rw [fields_rd, fields_sa]
  simp [argsOf, argCol, argText, df_eq, sep, List.intercalate]

theorem col_fsFt (hc : codeOf w = c) (hr : rowAt c = some ⟨mn, .fsFt, c⟩) (hj : mn ≠ c!"jalr") (sa : Word)
    (hd : ∀ rs rt rd b, displayR op rs rt rd sa b = some (mn ++ gap mn ++ df rs ++ sep ++ df rt))
    (rd : Register) (b : List Word) :
    Instruction.display (.reg op (fields w).rd (fields w).rt rd sa b) = some (colText sym base w) := by
  refine col_plain (syn := .fsFt) _ hc hr ((hd ..).trans (by rw [List.append_assoc _ sep, List.append_assoc _ (df _)])) hj rfl
    (by simp [argsOf]) (by simp [argsOf]) ?_
  rw [fields_rd, fields_rt]
  simp [argsOf, argCol, argText, df_eq, sep, List.intercalate]

theorem col_jalr (h : fOp w = 0#6) (hf : fFn w = 9#6) (rt : Register) (sa : Word) (b : List Word) :
    Instruction.display (.reg .Jalr (fields w).rs rt (fields w).rd sa b) = some (colText sym base w) := by
  have hdec : decoding w = some (c!"jalr", [.gpr (fRd w), .gpr (fRs w)]) := by
    rw [decoding_at (code_special h), hf, show rowAt (.special 9#6) = some ⟨c!"jalr", .rdRs, .special 9#6⟩ by decide +kernel]
    rfl
  have hra : ((fRd w).toFin = Register.ra) ↔ fRd w = 31#5 := by
    generalize fRd w = r
    revert r; decide
  unfold colText
  rw [hdec]
  show _ = some (colInst sym base c!"jalr" [.gpr (fRd w), .gpr (fRs w)])
  show some (if (fields w).rd = Register.ra then _ else _) = some _
  rw [fields_rd, fields_rs]
  by_cases hr : fRd w = 31#5
  · rw [if_pos (hra.mpr hr), hr, dr_eq]
    have : shown c!"jalr" [.gpr 31#5, .gpr (fRs w)] = [.gpr (fRs w)] := by
      unfold shown
      rw [if_neg (by simp)]
      rfl
    unfold colInst
    rw [this, if_neg (by simp), show op11 (RTypeOp.name .Jalr) = c!"jalr" ++ gap c!"jalr" by decide]
    simp [List.intercalate, argCol, argText]
  · rw [if_neg (fun h => hr (hra.mp h)), dr_eq, dr_eq]
    have hs : shown c!"jalr" [.gpr (fRd w), .gpr (fRs w)] = [.gpr (fRd w), .gpr (fRs w)] := by
      unfold shown
      rw [if_neg (by simp)]
      split
      · next heq => simp at heq; exact absurd heq.1 hr
      · rfl
    unfold colInst
    rw [hs, if_neg (by simp), show op11 (RTypeOp.name .Jalr) = c!"jalr" ++ gap c!"jalr" by decide]
    simp [argCol, argText, sep, List.intercalate]

theorem col_code (hc : codeOf w = c) (hr : rowAt c = some ⟨op.name, .code, c⟩) (hm : Inline op.name = true)
    (hd : ∀ rs rt rd sa b, displayR op rs rt rd sa b =
      some (if sa = 0#32 then op.name else op11 op.name ++ uhex sa.toNat)) (rs rt rd : Register) (b : List Word) :
    Instruction.display (.reg op rs rt rd (fields w).code b) = some (colText sym base w) := by
  have hdec : decoding w = some (op.name, [.code (fCode w)]) := by rw [decoding_at hc, hr]; rfl
  have h0 : ((fields w).code = 0#32) ↔ fCode w = 0#20 := by
    have := fields_code w
    constructor <;> intro h
    · apply BitVec.eq_of_toNat_eq; rw [← this, h]; rfl
    · apply BitVec.eq_of_toNat_eq; rw [this, h]; rfl
  unfold colText
  rw [hdec]
  show _ = some (colInst sym base op.name [.code (fCode w)])
  refine (hd ..).trans ?_
  rw [fields_code]
  by_cases hz : fCode w = 0#20
  · rw [if_pos (h0.mpr hz), hz]; rfl
  · rw [if_neg (fun h => hz (h0.mp h))]
    simp only [Inline, Bool.and_eq_true, decide_eq_true_eq] at hm
    rw [hm.1, uhex_eq]
    have hs : shown op.name [.code (fCode w)] = [.code (fCode w)] := by
      unfold shown
      rw [if_neg (by simpa using hz)]
    unfold colInst
    rw [hs, if_neg (by simp)]
    simp [List.intercalate, argCol, argText]

theorem col_rtC0 (hc : codeOf w = c) (hr : rowAt c = some ⟨op.name, .rtC0, c⟩) (hm : Inline op.name = true)
    (hd : ∀ rs rt rd sa b, displayR op rs rt rd sa b = c0Disp op.name rt rd b) (rs : Register) (sa : Word) :
    Instruction.display (.reg op rs (fields w).rt (fields w).rd sa [w]) = some (colText sym base w) := by
  have hdec : decoding w = some (op.name, [.gpr (fRt w), .c0 (fRd w)]) := by rw [decoding_at hc, hr]; rfl
  simp only [Inline, Bool.and_eq_true, decide_eq_true_eq] at hm
  have hs : shown op.name [.gpr (fRt w), .c0 (fRd w)] = [.gpr (fRt w), .c0 (fRd w)] := by
    unfold shown
    rw [if_neg (by simp)]
    split <;> simp_all
  unfold colText
  rw [hdec]
  simp only [c0Arg]
  rw [fields_rt, fields_rd]
  show displayR _ _ _ _ _ _ = some _
  rw [hd]
  unfold c0Disp
  rw [c0_eq]
  cases hn : c0Names.lookup (fRd w).toNat with
  | some n =>
    simp only [Option.isSome_some, if_true]
    rw [hm.1, dr_eq]
    unfold colInst
    rw [hs, if_neg (by simp)]
    simp [argCol, argText, sep, List.intercalate, hn]
  | none =>
    simp only [Option.isSome_none, if_false, Bool.false_eq_true, List.head?_cons, Option.map_some]
    have e2 : zeroPad 2 (hexLower (fRd w).toFin.val) = [Nat.digitChar ((fRd w).toNat / 16), Nat.digitChar ((fRd w).toNat % 16)] := by
      rw [zeroPad_hex 2 _ (by have := (fRd w).isLt; simp; omega) (by omega)]
      have := (fRd w).isLt
      simp [fixedHex, Nat.mod_eq_of_lt (show (fRd w).toNat / 16 < 16 by omega)]
    rw [e2, dr_eq, hm.1, colWord_eq]
    simp [sep, List.append_assoc]

theorem col_rtRsSimm (hc : codeOf w = c) (hr : rowAt c = some ⟨io.name, .rtRsSimm, c⟩) (hm : Inline io.name = true)
    (hd : ∀ rs rt v, displayI io rs rt v = some (op11 io.name ++ dr rt ++ sep ++ dr rs ++ sep ++ signedHex v)) (b : List Word) :
    Instruction.display (.imm io (fields w).rs (fields w).rt (.short (fields w).imm) b) = some (colText sym base w) := by
  refine col_op (syn := .rtRsSimm) _ hc hr ((hd ..).trans (by simp only [List.append_assoc]; rfl)) hm rfl
    (by simp [argsOf]) (by simp [argsOf]) ?_
  simp only [fields_imm, fields_rs, fields_rt]
  simp [argsOf, argCol, argText, dr_eq, df_eq, uhex_eq, sep, List.intercalate, signedHex_off]

theorem col_rtRsUimm (hc : codeOf w = c) (hr : rowAt c = some ⟨io.name, .rtRsUimm, c⟩) (hm : Inline io.name = true)
    (hd : ∀ rs rt v, displayI io rs rt v = some (op11 io.name ++ dr rt ++ sep ++ dr rs ++ sep ++ uhex v.toNat)) (b : List Word) :
    Instruction.display (.imm io (fields w).rs (fields w).rt (.short (fields w).imm) b) = some (colText sym base w) := by
  refine col_op (syn := .rtRsUimm) _ hc hr ((hd ..).trans (by simp only [List.append_assoc]; rfl)) hm rfl
    (by simp [argsOf]) (by simp [argsOf]) ?_
  simp only [fields_imm, fields_rs, fields_rt]
  simp [argsOf, argCol, argText, dr_eq, df_eq, uhex_eq, sep, List.intercalate]

theorem col_rtUimm (hc : codeOf w = c) (hr : rowAt c = some ⟨io.name, .rtUimm, c⟩) (hm : Inline io.name = true)
    (hd : ∀ rs rt v, displayI io rs rt v = some (op11 io.name ++ dr rt ++ sep ++ uhex v.toNat)) (rs : Register) (b : List Word) :
    Instruction.display (.imm io rs (fields w).rt (.short (fields w).imm) b) = some (colText sym base w) := by
  refine col_op (syn := .rtUimm) _ hc hr ((hd ..).trans (by simp only [List.append_assoc]; rfl)) hm rfl
    (by simp [argsOf]) (by simp [argsOf]) ?_
  simp only [fields_imm, fields_rs, fields_rt]
  simp [argsOf, argCol, argText, dr_eq, df_eq, uhex_eq, sep, List.intercalate]

theorem col_rtMem (hc : codeOf w = c) (hr : rowAt c = some ⟨io.name, .rtMem, c⟩) (hm : Inline io.name = true)
    (hd : ∀ rs rt v, displayI io rs rt v = some (op11 io.name ++ dr rt ++ sep ++ signedHex v ++ c!"(" ++ dr rs ++ c!")")) (b : List Word) :
    Instruction.display (.imm io (fields w).rs (fields w).rt (.short (fields w).imm) b) = some (colText sym base w) := by
  refine col_op (syn := .rtMem) _ hc hr ((hd ..).trans (by simp only [List.append_assoc]; rfl)) hm rfl
    (by simp [argsOf]) (by simp [argsOf]) ?_
  simp only [fields_imm, fields_rs, fields_rt]
  simp [argsOf, argCol, argText, dr_eq, df_eq, uhex_eq, sep, List.intercalate, signedHex_off]

theorem col_ftMem (hc : codeOf w = c) (hr : rowAt c = some ⟨io.name, .ftMem, c⟩) (hm : Inline io.name = true)
    (hd : ∀ rs rt v, displayI io rs rt v = some (op11 io.name ++ df rt ++ sep ++ signedHex v ++ c!"(" ++ dr rs ++ c!")")) (b : List Word) :
    Instruction.display (.imm io (fields w).rs (fields w).rt (.short (fields w).imm) b) = some (colText sym base w) := by
  refine col_op (syn := .ftMem) _ hc hr ((hd ..).trans (by simp only [List.append_assoc]; rfl)) hm rfl
    (by simp [argsOf]) (by simp [argsOf]) ?_
  simp only [fields_imm, fields_rs, fields_rt]
  simp [argsOf, argCol, argText, dr_eq, df_eq, uhex_eq, sep, List.intercalate, signedHex_off]

theorem col_copMem (hc : codeOf w = c) (hr : rowAt c = some ⟨io.name, .copMem, c⟩) (hm : Inline io.name = true)
    (hd : ∀ rs rt v, displayI io rs rt v = some (op11 io.name ++ uhex rt.val ++ sep ++ signedHex v ++ c!"(" ++ dr rs ++ c!")")) (b : List Word) :
    Instruction.display (.imm io (fields w).rs (fields w).rt (.short (fields w).imm) b) = some (colText sym base w) := by
  refine col_op (syn := .copMem) _ hc hr ((hd ..).trans (by simp only [List.append_assoc]; rfl)) hm rfl
    (by simp [argsOf]) (by simp [argsOf]) ?_
  simp only [fields_imm, fields_rs, fields_rt]
  simp [argsOf, argCol, argText, dr_eq, df_eq, uhex_eq, sep, List.intercalate, signedHex_off]

theorem col_rsRtOff (hc : codeOf w = c) (hr : rowAt c = some ⟨io.name, .rsRtOff, c⟩) (hm : Inline io.name = true)
    (hd : ∀ rs rt v, displayI io rs rt v = some (op11 io.name ++ dr rs ++ sep ++ dr rt ++ sep ++ signedHex v)) (b : List Word) :
    Instruction.display (.imm io (fields w).rs (fields w).rt (.short (fields w).imm) b) = some (colText sym base w) := by
  refine col_op (syn := .rsRtOff) _ hc hr ((hd ..).trans (by simp only [List.append_assoc]; rfl)) hm rfl
    (by simp [argsOf]) (by simp [argsOf]) ?_
  simp only [fields_imm, fields_rs, fields_rt]
  simp [argsOf, argCol, argText, dr_eq, df_eq, uhex_eq, sep, List.intercalate, signedHex_off]

theorem col_rsOff (hc : codeOf w = c) (hr : rowAt c = some ⟨io.name, .rsOff, c⟩) (hm : Inline io.name = true)
    (hd : ∀ rs rt v, displayI io rs rt v = some (op11 io.name ++ dr rs ++ sep ++ signedHex v)) (rt : Register) (b : List Word) :
    Instruction.display (.imm io (fields w).rs rt (.short (fields w).imm) b) = some (colText sym base w) := by
  refine col_op (syn := .rsOff) _ hc hr ((hd ..).trans (by simp only [List.append_assoc]; rfl)) hm rfl
    (by simp [argsOf]) (by simp [argsOf]) ?_
  simp only [fields_imm, fields_rs, fields_rt]
  simp [argsOf, argCol, argText, dr_eq, df_eq, uhex_eq, sep, List.intercalate, signedHex_off]

theorem col_rsSimm (hc : codeOf w = c) (hr : rowAt c = some ⟨io.name, .rsSimm, c⟩) (hm : Inline io.name = true)
    (hd : ∀ rs rt v, displayI io rs rt v = some (op11 io.name ++ dr rs ++ sep ++ signedHex v)) (rt : Register) (b : List Word) :
    Instruction.display (.imm io (fields w).rs rt (.short (fields w).imm) b) = some (colText sym base w) := by
  refine col_op (syn := .rsSimm) _ hc hr ((hd ..).trans (by simp only [List.append_assoc]; rfl)) hm rfl
    (by simp [argsOf]) (by simp [argsOf]) ?_
  simp only [fields_imm, fields_rs, fields_rt]
  simp [argsOf, argCol, argText, dr_eq, df_eq, uhex_eq, sep, List.intercalate, signedHex_off]

theorem col_off (hc : codeOf w = c) (hr : rowAt c = some ⟨io.name, .off, c⟩) (hm : Inline io.name = true)
    (hd : ∀ rs rt v, displayI io rs rt v = some (op11 io.name ++ signedHex v)) (rs rt : Register) (b : List Word) :
    Instruction.display (.imm io rs rt (.short (fields w).imm) b) = some (colText sym base w) := by
  refine col_op (syn := .off) _ hc hr (hd ..) hm rfl
    (by simp [argsOf]) (by simp [argsOf]) ?_
  simp only [fields_imm, fields_rs, fields_rt]
  simp [argsOf, argCol, argText, dr_eq, df_eq, uhex_eq, sep, List.intercalate, signedHex_off]

end shapes

variable {sym : Word → Option Str} {base w : Word}

/-- Close one case of the decoder for an R-type instruction. -/
macro "row_r" hc:term : tactic => `(tactic| first
  | exact col_rdRsRt $hc (by decide +kernel) (by decide) (fun _ _ _ _ _ => rfl) _ _
  | exact col_rdRtSa $hc (by decide +kernel) (by decide) (fun _ _ _ _ _ => rfl) _ _
  | exact col_rdRtRs $hc (by decide +kernel) (by decide) (fun _ _ _ _ _ => rfl) _ _
  | exact col_rsRt $hc (by decide +kernel) (by decide) (fun _ _ _ _ _ => rfl) _ _ _
  | exact col_rs $hc (by decide +kernel) (by decide) (fun _ _ _ _ _ => rfl) _ _ _ _
  | exact col_rd $hc (by decide +kernel) (by decide) (fun _ _ _ _ _ => rfl) _ _ _ _
  | exact col_code $hc (by decide +kernel) (by decide) (fun _ _ _ _ _ => rfl) _ _ _ _
  | exact col_bare $hc (by decide +kernel) rfl)

/-- Close one case of the decoder for an I-type instruction. -/
macro "row_i" hc:term : tactic => `(tactic| first
  | exact col_rtMem $hc (by decide +kernel) (by decide) (fun _ _ _ => rfl) _
  | exact col_rtRsSimm $hc (by decide +kernel) (by decide) (fun _ _ _ => rfl) _
  | exact col_rsOff $hc (by decide +kernel) (by decide) (fun _ _ _ => rfl) _ _
  | exact col_rsRtOff $hc (by decide +kernel) (by decide) (fun _ _ _ => rfl) _
  | exact col_rsSimm $hc (by decide +kernel) (by decide) (fun _ _ _ => rfl) _ _
  | exact col_ftMem $hc (by decide +kernel) (by decide) (fun _ _ _ => rfl) _
  | exact col_rtRsUimm $hc (by decide +kernel) (by decide) (fun _ _ _ => rfl) _
  | exact col_rtUimm $hc (by decide +kernel) (by decide) (fun _ _ _ => rfl) _ _
  | exact col_off $hc (by decide +kernel) (by decide) (fun _ _ _ => rfl) _ _ _
  | exact col_copMem $hc (by decide +kernel) (by decide) (fun _ _ _ => rfl) _)

set_option synthInstance.maxSize 2000 in
set_option synthInstance.maxHeartbeats 400000 in
theorem special_col (ho : fOp w = 0#6) : Instruction.display (decodeSpecial w (fields w)) = some (colText sym base w) := by
  unfold decodeSpecial
  rw [fields_funct]
  split
  case h_53 =>
    refine col_bytes ?_ (not_hole (by rw [ho]; decide))
    apply none_special ho
    clear ho
    revert sym base
    intro _ _
    generalize fFn w = o at *
    clear w
    revert o
    decide +kernel
  all_goals first
    | (row_r (c_special ho ‹_›))
    | exact col_jalr ho (bv_of ‹_›) _ _ _

theorem regimm_col (ho : fOp w = 1#6) :
    Instruction.display (decodeRegimm w (fields w)) = some (colText sym base w) := by
  unfold decodeRegimm
  rw [show (fields w).rt.val = (fRt w).toNat by rw [fields_rt]; rfl]
  split
  case h_15 =>
    refine col_bytes ?_ (not_hole (by rw [ho]; decide))
    rw [decoding_at (code_regimm ho)]
    clear ho
    revert sym base
    intro _ _
    generalize argsOf w = g
    generalize fRt w = o at *
    rw [Option.map_eq_none_iff]
    clear w g
    revert o
    decide +kernel
  all_goals row_i (c_regimm ho ‹_›)

theorem cop0co_col (ho : fOp w = copOp 0) (hh : ¬ CopHole w)
    (hn : fRs w < 16#5 → decoding w = none) : Instruction.display (decodeCop0Co w (fields w)) = some (colText sym base w) := by
  unfold decodeCop0Co
  rw [fields_funct]
  by_cases h16 : fRs w < 16#5
  · have hd := hn h16
    have hf : (fFn w).toNat ∉ cp0Map.map (·.2) := fun hm => hh ⟨ho, h16, hd, hm⟩
    simp only [cp0Map, List.map_cons, List.map_nil, List.mem_cons, List.not_mem_nil, or_false, not_or] at hf
    split
    case h_6 => exact col_bytes hd hh
    all_goals omega
  · split
    case h_6 =>
      refine col_bytes ?_ hh
      rw [decoding_at (c_co ho h16 rfl), Option.map_eq_none_iff]
      rw [BitVec.ofNat_toNat, BitVec.setWidth_eq]
      clear ho hh hn h16
      revert sym base
      intro _ _
      generalize fFn w = o at *
      clear w
      revert o
      decide +kernel
    all_goals exact col_bare (c_co ho h16 ‹_›) (by decide +kernel) rfl

theorem cop0_col (ho : fOp w = copOp 0) (hh : ¬ CopHole w) :
    Instruction.display (decodeCop0 w (fields w)) = some (colText sym base w) := by
  unfold decodeCop0
  rw [show (fields w).rt.val = (fRt w).toNat by rw [fields_rt]; rfl,
    show (fields w).rs.val = (fRs w).toNat by rw [fields_rs]; rfl]
  split
  case h_11 h0 h1 h2 h4 h5 h6 b0 b1 b2 b3 =>
    apply cop0co_col ho hh
    intro h16
    unfold decoding
    rw [Option.map_eq_none_iff, code_cop0 ho]
    by_cases h8 : fRs w = 8#5
    · rw [if_pos h8]
      have : ∀ r : BitVec 5, 4 ≤ r.toNat → rowAt (.bc 0 r) = none := by decide +kernel
      apply this
      rw [h8] at b0 b1 b2 b3
      have b0 : (fRt w).toNat ≠ 0 := b0 rfl
      have b1 : (fRt w).toNat ≠ 1 := b1 rfl
      have b2 : (fRt w).toNat ≠ 2 := b2 rfl
      have b3 : (fRt w).toNat ≠ 3 := b3 rfl
      omega
    · rw [if_neg h8, if_pos h16]
      have : ∀ r : BitVec 5, r.toNat ∉ [0, 1, 2, 4, 5, 6] → rowAt (.cop 0 r) = none := by decide +kernel
      apply this
      intro hm
      simp only [List.mem_cons, List.not_mem_nil, or_false] at hm
      rcases hm with h | h | h | h | h | h
      · exact h0 h
      · exact h1 h
      · exact h2 h
      · exact h4 h
      · exact h5 h
      · exact h6 h
  all_goals first
    | exact col_rtC0 (c_cop (.inl rfl) ho ‹_› (by decide) (by decide)) (by decide +kernel) (by decide) (fun _ _ _ _ _ => rfl) _ _
    | exact col_off (c_bc (.inl rfl) ho ‹_› ‹_›) (by decide +kernel) (by decide) (fun _ _ _ => rfl) _ _ _

theorem col_c {m n : Nat} {fmt : Char} {op : RTypeOp} (hop : ∀ rs rt rd sa b, displayR op rs rt rd sa b = displayC fmt rs rt sa)
    (ho : fOp w = copOp 1) (hm : (fRs w).toNat = m) (h16 : 16 ≤ m)
    (hrow : ∀ k : Fin 16, rowAt (.fp (BitVec.ofNat 5 m) (BitVec.ofNat 6 (48 + k.val))) =
      some ⟨c!"c." ++ floatConds[k.val]'k.isLt ++ ['.', fmt], .fsFt, .fp (BitVec.ofNat 5 m) (BitVec.ofNat 6 (48 + k.val))⟩)
    (hgap : ∀ k : Fin 16, gap (c!"c." ++ floatConds[k.val]'k.isLt ++ ['.', fmt]) = (if BitVec.ofNat 32 k.val = 9#32 then [] else ['\t']) ++ c!"    ")
    (h : (fFn w).toNat = n) (h1 : 48 ≤ n) (h2 : n < 64) (b : List Word) :
    Instruction.display (.reg op (fields w).rd (fields w).rt 0 ((fields w).funct &&& 0xF#32) b) = some (colText sym base w) := by
  obtain ⟨k, hk, rfl⟩ : ∃ k, k < 16 ∧ n = 48 + k := ⟨n - 48, by omega, by omega⟩
  have hs : ((fields w).funct &&& 0xF#32) = BitVec.ofNat 32 k := by
    rw [bv_of (v := (fields w).funct) (k := 48 + k) (by rw [fields_funct]; exact h)]
    have : ∀ j : Fin 16, (BitVec.ofNat 32 (48 + j.val) &&& 0xF#32) = BitVec.ofNat 32 j.val := by decide
    exact this ⟨k, hk⟩
  rw [hs]
  refine col_fsFt (c_fp ho hm h16 h) (hrow ⟨k, hk⟩) (by simp) _ ?_ _ _
  intro rs rt rd b
  rw [hop]
  unfold displayC
  have hz : (floatConds[(BitVec.ofNat 32 k).toNat]?) = some (floatConds[k]'hk) := by
    have : ∀ j : Fin 16, floatConds[(BitVec.ofNat 32 j.val).toNat]? = some (floatConds[j.val]'j.isLt) := by decide
    exact this ⟨k, hk⟩
  rw [hz]
  have hg := hgap ⟨k, hk⟩
  simp only at hg
  rw [hg]
  simp

/-- Close one case of the decoder for a coprocessor 1 arithmetic instruction. -/
macro "row_f" hc:term : tactic => `(tactic| first
  | exact col_fdFsFt $hc (by decide +kernel) (by decide) (fun _ _ _ _ _ => rfl) _ _
  | exact col_fdFs (List.replicate 6 ' ') $hc (by decide +kernel) (by decide) (by decide) (fun _ _ _ _ _ => rfl) _ _ _
  | exact col_fdFs (List.replicate 5 ' ') $hc (by decide +kernel) (by decide) (by decide) (fun _ _ _ _ _ => rfl) _ _ _
  | exact col_fdFs (List.replicate 4 ' ') $hc (by decide +kernel) (by decide) (by decide) (fun _ _ _ _ _ => rfl) _ _ _
  | exact col_fdFs (List.replicate 3 ' ') $hc (by decide +kernel) (by decide) (by decide) (fun _ _ _ _ _ => rfl) _ _ _)

set_option synthInstance.maxSize 2000 in
set_option synthInstance.maxHeartbeats 400000 in
theorem cop1s_col (ho : fOp w = copOp 1) (hm : (fRs w).toNat = 16) :
    Instruction.display (decodeCop1S w (fields w)) = some (colText sym base w) := by
  unfold decodeCop1S
  rw [fields_funct]
  split
  case h_36 =>
    refine col_bytes ?_ (not_hole (by rw [ho]; decide))
    apply none_fp ho hm (by decide)
    clear ho hm
    revert sym base
    intro _ _
    generalize fFn w = o at *
    clear w
    revert o
    decide +kernel
  all_goals first
    | row_f (c_fp ho hm (by decide) ‹_›)
    | exact col_c (fmt := 's') (fun _ _ _ _ _ => rfl) ho hm (by decide) (by decide +kernel) (by decide) ‹_› (by decide) (by decide) _

set_option synthInstance.maxSize 2000 in
set_option synthInstance.maxHeartbeats 400000 in
theorem cop1d_col (ho : fOp w = copOp 1) (hm : (fRs w).toNat = 17) :
    Instruction.display (decodeCop1D w (fields w)) = some (colText sym base w) := by
  unfold decodeCop1D
  rw [fields_funct]
  split
  case h_36 =>
    refine col_bytes ?_ (not_hole (by rw [ho]; decide))
    apply none_fp ho hm (by decide)
    clear ho hm
    revert sym base
    intro _ _
    generalize fFn w = o at *
    clear w
    revert o
    decide +kernel
  all_goals first
    | row_f (c_fp ho hm (by decide) ‹_›)
    | exact col_c (fmt := 'd') (fun _ _ _ _ _ => rfl) ho hm (by decide) (by decide +kernel) (by decide) ‹_› (by decide) (by decide) _

theorem cop1w_col (ho : fOp w = copOp 1) (hm : (fRs w).toNat = 20) :
    Instruction.display (decodeCop1W w (fields w)) = some (colText sym base w) := by
  unfold decodeCop1W
  rw [fields_funct]
  split
  case h_3 =>
    refine col_bytes ?_ (not_hole (by rw [ho]; decide))
    apply none_fp ho hm (by decide)
    clear ho hm
    revert sym base
    intro _ _
    generalize fFn w = o at *
    clear w
    revert o
    decide +kernel
  all_goals row_f (c_fp ho hm (by decide) ‹_›)

theorem cop1l_col (ho : fOp w = copOp 1) (hm : (fRs w).toNat = 21) :
    Instruction.display (decodeCop1L w (fields w)) = some (colText sym base w) := by
  unfold decodeCop1L
  rw [fields_funct]
  split
  case h_3 =>
    refine col_bytes ?_ (not_hole (by rw [ho]; decide))
    apply none_fp ho hm (by decide)
    clear ho hm
    revert sym base
    intro _ _
    generalize fFn w = o at *
    clear w
    revert o
    decide +kernel
  all_goals row_f (c_fp ho hm (by decide) ‹_›)

theorem cop1_col (ho : fOp w = copOp 1) :
    Instruction.display (decodeCop1 w (fields w)) = some (colText sym base w) := by
  unfold decodeCop1
  rw [show (fields w).rt.val = (fRt w).toNat by rw [fields_rt]; rfl,
    show (fields w).rs.val = (fRs w).toNat by rw [fields_rs]; rfl]
  split
  case h_15 h0 h1 h2 h4 h5 h6 g16 g17 g20 g21 b0 b1 b2 b3 =>
    refine col_bytes ?_ (not_hole (by rw [ho]; decide))
    unfold decoding
    rw [Option.map_eq_none_iff, code_cop1 ho]
    by_cases h8 : fRs w = 8#5
    · rw [if_pos h8]
      have : ∀ r : BitVec 5, 4 ≤ r.toNat → rowAt (.bc 1 r) = none := by decide +kernel
      apply this
      rw [h8] at b0 b1 b2 b3
      have b0 : (fRt w).toNat ≠ 0 := b0 rfl
      have b1 : (fRt w).toNat ≠ 1 := b1 rfl
      have b2 : (fRt w).toNat ≠ 2 := b2 rfl
      have b3 : (fRt w).toNat ≠ 3 := b3 rfl
      omega
    · rw [if_neg h8]
      split
      · have : ∀ r : BitVec 5, r.toNat ∉ [0, 1, 2, 4, 5, 6] → rowAt (.cop 1 r) = none := by decide +kernel
        apply this
        intro hm
        simp only [List.mem_cons, List.not_mem_nil, or_false] at hm
        rcases hm with h | h | h | h | h | h
        · exact h0 h
        · exact h1 h
        · exact h2 h
        · exact h4 h
        · exact h5 h
        · exact h6 h
      · have : ∀ r ∈ table, (∀ m f, r.code = .fp m f → m.toNat ∈ [16, 17, 20, 21]) := by
          have h : ∀ r ∈ table, (match r.code with | .fp m _ => decide (m.toNat ∈ [16, 17, 20, 21]) | _ => true) = true := by
            decide +kernel
          intro r hr m f e
          have := h r hr
          rw [e] at this
          simpa using this
        rw [List.find?_eq_none]
        intro r hr hc
        have hm := this r hr _ _ (of_decide_eq_true hc)
        simp only [List.mem_cons, List.not_mem_nil, or_false] at hm
        rcases hm with h | h | h | h
        · exact g16 h
        · exact g17 h
        · exact g20 h
        · exact g21 h
  all_goals first
    | exact col_rtFs (c_cop (.inr rfl) ho ‹_› (by decide) (by decide)) (by decide +kernel) (by decide) (fun _ _ _ _ _ => rfl) _ _ _
    | exact col_off (c_bc (.inr rfl) ho ‹_› ‹_›) (by decide +kernel) (by decide) (fun _ _ _ => rfl) _ _ _
    | exact cop1s_col ho ‹_›
    | exact cop1d_col ho ‹_›
    | exact cop1w_col ho ‹_›
    | exact cop1l_col ho ‹_›

theorem col_jump {jo : JTypeOp} {k : Nat} (syms : List (Word × Str)) (h : (fOp w).toNat = k)
    (hr : rowAt (.main (BitVec.ofNat 6 k)) = some ⟨jo.name, .target, .main (BitVec.ofNat 6 k)⟩)
    (hm : Inline jo.name = true) (hk : k = 2 ∨ k = 3) (b : List Word) :
    Instruction.display (matchSym syms (.jump jo (.address (jumpTarget base w)) b)) = some (colText (symAt syms) base w) := by
  have hc : codeOf w = .main (BitVec.ofNat 6 k) := by
    rcases hk with rfl | rfl
    · exact c_main h (by decide) (by decide) (by decide) (by decide)
    · exact c_main h (by decide) (by decide) (by decide) (by decide)
  rw [jumpTarget_eq]
  unfold matchSym
  cases hs : symAt syms (jumpAddr base (fTarget w)) with
  | none =>
    simp only [hs]
    refine col_op (syn := .target) _ hc hr (by simp only [Instruction.display, List.append_assoc]; rfl) hm rfl (by simp [argsOf]) (by simp [argsOf]) ?_
    simp [argsOf, argCol, argText, hs, hexUpper_eq, hexTextU, List.intercalate]
  | some n =>
    simp only [hs]
    refine col_op (syn := .target) _ hc hr rfl hm rfl (by simp [argsOf]) (by simp [argsOf]) ?_
    simp [argsOf, argCol, argText, hs, List.intercalate]

set_option synthInstance.maxSize 2000 in
set_option synthInstance.maxHeartbeats 400000 in
theorem decode_col (syms : List (Word × Str)) (base w : Word) (hh : ¬ CopHole w) :
    Instruction.display (matchSym syms (decode base w)) = some (colText (symAt syms) base w) := by
  unfold decode
  dsimp only
  rw [fields_op]
  split
  case h_1 h => rw [matchSym_notJump _ _ (special_notJump ..)]; exact special_col (bv_of h)
  case h_2 h => rw [matchSym_notJump _ _ (regimm_notJump ..)]; exact regimm_col (bv_of h)
  case h_3 h => exact col_jump syms h (by decide +kernel) (by decide) (.inl rfl) _
  case h_4 h => exact col_jump syms h (by decide +kernel) (by decide) (.inr rfl) _
  case h_17 h => rw [matchSym_notJump _ _ (cop0_notJump ..)]; exact cop0_col (bv_of h) hh
  case h_18 h => rw [matchSym_notJump _ _ (cop1_notJump ..)]; exact cop1_col (bv_of h)
  case h_53 =>
    rw [matchSym_notJump _ _ rfl]
    refine col_bytes ?_ hh
    have hz : fOp w ≠ 0#6 ∧ fOp w ≠ 1#6 ∧ fOp w ≠ copOp 0 ∧ fOp w ≠ copOp 1 := by
      clear hh
      generalize fOp w = o at *
      refine ⟨?_, ?_, ?_, ?_⟩ <;> (rintro rfl; contradiction)
    rw [decoding_at (code_main rfl hz.1 hz.2.1 hz.2.2.1 hz.2.2.2), Option.map_eq_none_iff]
    clear hh hz
    generalize fOp w = o at *
    clear w base syms
    revert o
    decide +kernel
  all_goals
    rw [matchSym_notJump _ _ rfl]
    row_i (c_main ‹_› (by decide) (by decide) (by decide) (by decide))

end Mips
