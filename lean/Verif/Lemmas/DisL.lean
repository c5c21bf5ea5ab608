/- Decoding a word and printing it, compared with the opcode maps. -/
import Verif.Lemmas.SqL
import Verif.Lemmas.Bits

namespace Mips
open Isa Listing Syntax

/-! ### fields -/

theorem shr_toNat (w : Word) (k n : Nat) (h : k + n ≤ 32) (m : Word) (hm : m = BitVec.ofNat 32 (2 ^ n - 1)) :
    ((w >>> k) &&& m).toNat = (w.extractLsb' k n).toNat := by
  subst hm
  rw [BitVec.toNat_and, BitVec.toNat_ushiftRight, BitVec.extractLsb'_toNat, BitVec.toNat_ofNat]
  rw [Nat.mod_eq_of_lt (a := 2 ^ n - 1)]
  · exact Nat.and_two_pow_sub_one_eq_mod _ _
  · have : 2 ^ n ≤ 2 ^ 32 := Nat.pow_le_pow_right (by omega) (by omega)
    have := Nat.two_pow_pos n
    omega

theorem fields_op (w : Word) : (fields w).op.toNat = (fOp w).toNat := by
  show (w >>> 26).toNat = (w.extractLsb' 26 6).toNat
  rw [BitVec.toNat_ushiftRight, BitVec.extractLsb'_toNat, Nat.mod_eq_of_lt]
  have := w.isLt
  rw [Nat.shiftRight_eq_div_pow]; omega

theorem fld_eq (w : Word) (k : Nat) (h : k + 5 ≤ 32) : fld w k = (w.extractLsb' k 5).toFin := by
  apply Fin.ext
  exact shr_toNat w k 5 h _ rfl

theorem fields_rs (w : Word) : (fields w).rs = (fRs w).toFin := fld_eq w 21 (by omega)
theorem fields_rt (w : Word) : (fields w).rt = (fRt w).toFin := fld_eq w 16 (by omega)
theorem fields_rd (w : Word) : (fields w).rd = (fRd w).toFin := fld_eq w 11 (by omega)
theorem fields_sa (w : Word) : (fields w).sa = (fSa w).toFin := fld_eq w 6 (by omega)
theorem fields_sa32 (w : Word) : (fields w).sa32.toNat = (fSa w).toNat := shr_toNat w 6 5 (by omega) _ rfl
theorem fields_code (w : Word) : (fields w).code.toNat = (fCode w).toNat := shr_toNat w 6 20 (by omega) _ rfl
theorem fields_funct (w : Word) : (fields w).funct.toNat = (fFn w).toNat := by
  have h := shr_toNat w 0 6 (by omega) 0x3F#32 rfl
  rw [show w >>> 0 = w from BitVec.ushiftRight_zero w] at h
  exact h
theorem fields_imm (w : Word) : (fields w).imm = fImm w := by
  show (w &&& 0xFFFF#32).setWidth 16 = w.extractLsb' 0 16
  apply BitVec.eq_of_getLsbD_eq
  intro i hi
  have : ∀ j : Fin 16, (0xFFFF#32).getLsbD j.val = true := by decide
  have := this ⟨i, hi⟩
  simp only at this
  simp only [BitVec.getLsbD_setWidth, BitVec.getLsbD_and, BitVec.getLsbD_extractLsb', this, hi]
  simp

theorem jumpTarget_eq (base w : Word) : jumpTarget base w = jumpAddr base (fTarget w) := by
  unfold jumpTarget jumpAddr fTarget
  have h1 : ∀ j : Fin 32, (0x3FFFFFF#32).getLsbD j.val = decide (j.val < 26) := by decide
  have h2 : ∀ j : Fin 32, (~~~ 0xFFFFFFF#32).getLsbD j.val = decide (28 ≤ j.val) := by decide
  apply BitVec.eq_of_getLsbD_eq
  intro i hi
  have h2 := h2 ⟨i, hi⟩
  simp only [BitVec.getLsbD_or, BitVec.getLsbD_and, BitVec.getLsbD_shiftLeft, BitVec.getLsbD_append,
    BitVec.getLsbD_extractLsb', h2]
  by_cases hi2 : i < 2
  · have : ¬ 28 ≤ i := by omega
    simp [hi2, this]
  · have h1 := h1 ⟨i - 2, by omega⟩
    simp only at h1
    by_cases hi28 : i < 28
    · have h3 : i - 2 < 26 := by omega
      have h4 : ¬ 28 ≤ i := by omega
      simp [hi2, h3, h1, h4, hi]
    · have h3 : ¬ (i - 2 < 26) := by omega
      have h5 : 28 ≤ i := by omega
      have h6 : 28 + (i - 2 - 26) = i := by omega
      have h7 : i - 2 - 26 < 4 := by omega
      simp [hi2, h3, h6, h5, h1, h7, hi]

/-! ### operand texts -/

theorem dr_eq (r : BitVec 5) : dr r.toFin = gprText r := by revert r; decide
theorem df_eq (r : BitVec 5) : df r.toFin = fprText r := by revert r; decide
theorem c0_eq (r : BitVec 5) : Cop0Register.nameOf r.toFin = c0Names.lookup r.toNat := by revert r; decide
theorem uhex_eq (n : Nat) : uhex n = hexText n := by unfold uhex hexText; rw [hexLower_eq]

theorem signedHex_eq (v : BitVec 16) (h : v ≠ 0x7FFF#16) : signedHex v = intText v.toInt := by
  have h1 : v.toNat ≠ 0x7fff := fun e => h (BitVec.eq_of_toNat_eq e)
  unfold signedHex intText hexText
  dsimp only
  rw [if_neg h1, hexLower_eq, List.append_assoc]
  congr 1
  have := v.isLt
  by_cases h2 : v.toNat < 0x7fff
  · rw [if_pos h2, if_neg (by rw [BitVec.toInt_eq_toNat_cond]; split <;> omega)]
  · rw [if_neg h2, if_pos (by rw [BitVec.toInt_eq_toNat_cond]; split <;> omega)]

theorem squash_pad (mn p X : Str) (hm : NoWs mn) (hp : p ≠ []) (hw : ∀ c ∈ p, isWs c = true) :
    squash (mn ++ p ++ X) = squash (mn ++ c!" " ++ X) := by
  rw [List.append_assoc, List.append_assoc, squash_no _ _ hm, squash_no _ _ hm]
  congr 1
  cases p with
  | nil => exact absurd rfl hp
  | cons c p =>
    have hd : ∀ c ∈ p, isWs c = true := fun c hc => hw c (by simp [hc])
    rw [List.cons_append, squash_ws _ _ (hw c (by simp)), show [' '] ++ X = ' ' :: X from rfl,
      squash_ws ' ' _ (by decide)]
    rw [show (p ++ X).dropWhile isWs = X.dropWhile isWs from trimStart_append_blank p X hd]

/-! ### decoding -/

/-- The row of the instruction table at a map position. -/
def rowAt (c : Code) : Option Row := table.find? fun r => decide (r.code = c)

theorem decoding_at {w : Word} {c : Code} (h : codeOf w = c) :
    decoding w = (rowAt c).map fun r => (r.mn, argsOf w r.syn) := by
  unfold decoding rowAt; rw [h]

theorem code_special {w : Word} (h : fOp w = 0#6) : codeOf w = .special (fFn w) := by
  unfold codeOf; rw [if_pos h]
theorem code_regimm {w : Word} (h : fOp w = 1#6) : codeOf w = .regimm (fRt w) := by
  unfold codeOf; rw [h]; rfl
theorem code_main {w : Word} {o : BitVec 6} (h : fOp w = o) (h0 : o ≠ 0#6) (h1 : o ≠ 1#6) (h2 : o ≠ copOp 0)
    (h3 : o ≠ copOp 1) : codeOf w = .main o := by
  unfold codeOf; rw [h, if_neg h0, if_neg h1, if_neg h2, if_neg h3]
theorem code_cop0 {w : Word} (h : fOp w = copOp 0) : codeOf w =
    if fRs w = 8#5 then .bc 0 (fRt w) else if fRs w < 16#5 then .cop 0 (fRs w) else .co (fFn w) := by
  unfold codeOf; rw [h]; rfl
theorem code_cop1 {w : Word} (h : fOp w = copOp 1) : codeOf w =
    if fRs w = 8#5 then .bc 1 (fRt w) else if fRs w < 16#5 then .cop 1 (fRs w) else .fp (fRs w) (fFn w) := by
  unfold codeOf; rw [h]; rfl

/-! ### text of an instruction value -/

/-- The text of `i` is `t`, up to the amount of white space. -/
def TextOf (i : Instruction) (t : Str) : Prop := ∃ u, i.display = some u ∧ squash u = squash t

/-- Printed as `mn`, white space, `X`. -/
theorem textOf_pad {i : Instruction} (mn p X : Str) (hd : i.display = some (mn ++ p ++ X)) (hm : NoWs mn)
    (hp : p ≠ []) (hw : ∀ c ∈ p, isWs c = true) : TextOf i (mn ++ c!" " ++ X) :=
  ⟨_, hd, squash_pad mn p X hm hp hw⟩

theorem lineText_plain {sym : Word → Option Str} {base w : Word} {mn : Str} {args : List Arg}
    (hd : decoding w = some (mn, args)) (h0 : c0Arg args = none) (hj : mn ≠ c!"jalr")
    (hc : ∀ v, args ≠ [.code v]) (hne : args ≠ []) :
    lineText sym base w = mn ++ c!" " ++ c!", ".intercalate (args.map (argText sym base)) := by
  unfold lineText
  rw [hd]
  simp only [h0]
  have hs : shown mn args = args := by
    unfold shown
    rw [if_neg (hc 0)]
    split <;> simp [hj]
  unfold instText
  rw [hs, if_neg hne]

theorem lineText_bare {sym : Word → Option Str} {base w : Word} {mn : Str}
    (hd : decoding w = some (mn, [])) : lineText sym base w = mn := by
  unfold lineText
  rw [hd]
  simp [c0Arg, instText, shown]

theorem lineText_none {sym : Word → Option Str} {base w : Word} (hd : decoding w = none) :
    lineText sym base w = wordText w := by
  unfold lineText; rw [hd]

theorem text_bytes {sym : Word → Option Str} {base w : Word} (hd : decoding w = none) :
    TextOf (.bytes w) (lineText sym base w) := by
  rw [lineText_none hd]
  refine ⟨_, rfl, ?_⟩
  rw [show op11 c!".word" ++ c!"0x" ++ zeroPad 8 (hexLower w.toNat) =
    c!".word" ++ List.replicate 6 ' ' ++ (c!"0x" ++ zeroPad 8 (hexLower w.toNat)) by simp [op11, padRight], hex8_eq,
    squash_pad _ _ _ (by unfold NoWs; decide) (by decide) (by decide)]
  rfl

/-! ### the operand shapes -/

section shapes
variable {sym : Word → Option Str} {base w : Word} {c : Code} {mn : Str}

/-- An instruction whose operands are printed in full. -/
theorem text_plain {i : Instruction} {syn : Syn} (p X : Str) (hc : codeOf w = c) (hr : rowAt c = some ⟨mn, syn, c⟩)
    (hd : i.display = some (mn ++ p ++ X)) (hm : NoWs mn) (hp : p ≠ []) (hw : ∀ c ∈ p, isWs c = true)
    (hj : mn ≠ c!"jalr") (h0 : c0Arg (argsOf w syn) = none) (hk : ∀ v, argsOf w syn ≠ [.code v])
    (hne : argsOf w syn ≠ []) (hX : X = c!", ".intercalate ((argsOf w syn).map (argText sym base))) :
    TextOf i (lineText sym base w) := by
  have hdec : decoding w = some (mn, argsOf w syn) := by rw [decoding_at hc, hr]; rfl
  rw [lineText_plain hdec h0 hj hk hne, ← hX]
  exact textOf_pad mn p X hd hm hp hw

theorem text_bare {i : Instruction} (hc : codeOf w = c) (hr : rowAt c = some ⟨mn, .none, c⟩)
    (hd : i.display = some mn) : TextOf i (lineText sym base w) := by
  have hdec : decoding w = some (mn, []) := by rw [decoding_at hc, hr]; rfl
  rw [lineText_bare hdec]
  exact ⟨_, hd, rfl⟩

theorem op11_pad (mn : Str) (h : mn.length < 11) : ∃ p, op11 mn = mn ++ p ∧ p ≠ [] ∧ ∀ c ∈ p, isWs c = true :=
  ⟨_, rfl, by intro h'; have := congrArg List.length h'; simp at this; omega, by
    intro c hc; rw [List.eq_of_mem_replicate hc]; decide⟩

/-- The conditions on a mnemonic that make it printable in front of operands. -/
def Printable (mn : Str) : Bool := decide (mn.length < 11) && mn.all (fun c => !isWs c) && decide (mn ≠ c!"jalr")

theorem text_op {i : Instruction} {syn : Syn} (X : Str) (hc : codeOf w = c) (hr : rowAt c = some ⟨mn, syn, c⟩)
    (hd : i.display = some (op11 mn ++ X)) (hm : Printable mn = true)
    (h0 : c0Arg (argsOf w syn) = none) (hk : ∀ v, argsOf w syn ≠ [.code v])
    (hne : argsOf w syn ≠ []) (hX : X = c!", ".intercalate ((argsOf w syn).map (argText sym base))) :
    TextOf i (lineText sym base w) := by
  simp only [Printable, Bool.and_eq_true, decide_eq_true_eq, List.all_eq_true, Bool.not_eq_true'] at hm
  obtain ⟨p, h1, h2, h3⟩ := op11_pad mn hm.1.1
  exact text_plain p X hc hr (by rw [hd, h1]) hm.1.2 h2 h3 hm.2 h0 hk hne hX

variable {op : RTypeOp} {io : ITypeOp}

theorem text_rdRsRt (hc : codeOf w = c) (hr : rowAt c = some ⟨op.name, .rdRsRt, c⟩) (hm : Printable op.name = true)
    (hd : ∀ rs rt rd sa b, displayR op rs rt rd sa b = some (op11 op.name ++ dr rd ++ sep ++ dr rs ++ sep ++ dr rt))
    (sa : Word) (b : List Word) :
    TextOf (.reg op (fields w).rs (fields w).rt (fields w).rd sa b) (lineText sym base w) := by
  refine text_op (syn := .rdRsRt) _ hc hr ((hd ..).trans (by simp only [List.append_assoc]; rfl)) hm rfl
    (by simp [argsOf]) (by simp [argsOf]) ?_
  rw [fields_rs, fields_rt, fields_rd]
  simp [argsOf, argText, dr_eq, sep, List.intercalate]

theorem text_rdRtSa (hc : codeOf w = c) (hr : rowAt c = some ⟨op.name, .rdRtSa, c⟩) (hm : Printable op.name = true)
    (hd : ∀ rs rt rd sa b, displayR op rs rt rd sa b =
      some (op11 op.name ++ dr rd ++ sep ++ dr rt ++ sep ++ uhex sa.toNat)) (rs : Register) (b : List Word) :
    TextOf (.reg op rs (fields w).rt (fields w).rd (fields w).sa32 b) (lineText sym base w) := by
  refine text_op (syn := .rdRtSa) _ hc hr ((hd ..).trans (by simp only [List.append_assoc]; rfl)) hm rfl
    (by simp [argsOf]) (by simp [argsOf]) ?_
  rw [fields_sa32, fields_rt, fields_rd]
  simp [argsOf, argText, dr_eq, uhex_eq, sep, List.intercalate]

theorem text_rdRtRs (hc : codeOf w = c) (hr : rowAt c = some ⟨op.name, .rdRtRs, c⟩) (hm : Printable op.name = true)
    (hd : ∀ rs rt rd sa b, displayR op rs rt rd sa b =
      some (op11 op.name ++ dr rd ++ sep ++ dr rt ++ sep ++ dr rs)) (sa : Word) (b : List Word) :
    TextOf (.reg op (fields w).rs (fields w).rt (fields w).rd sa b) (lineText sym base w) := by
  refine text_op (syn := .rdRtRs) _ hc hr ((hd ..).trans (by simp only [List.append_assoc]; rfl)) hm rfl
    (by simp [argsOf]) (by simp [argsOf]) ?_
  rw [fields_rs, fields_rt, fields_rd]
  simp [argsOf, argText, dr_eq, sep, List.intercalate]

theorem text_rsRt (hc : codeOf w = c) (hr : rowAt c = some ⟨op.name, .rsRt, c⟩) (hm : Printable op.name = true)
    (hd : ∀ rs rt rd sa b, displayR op rs rt rd sa b = some (op11 op.name ++ dr rs ++ sep ++ dr rt))
    (rd : Register) (sa : Word) (b : List Word) :
    TextOf (.reg op (fields w).rs (fields w).rt rd sa b) (lineText sym base w) := by
  refine text_op (syn := .rsRt) _ hc hr ((hd ..).trans (by simp only [List.append_assoc]; rfl)) hm rfl
    (by simp [argsOf]) (by simp [argsOf]) ?_
  rw [fields_rs, fields_rt]
  simp [argsOf, argText, dr_eq, sep, List.intercalate]

theorem text_rs (hc : codeOf w = c) (hr : rowAt c = some ⟨op.name, .rs, c⟩) (hm : Printable op.name = true)
    (hd : ∀ rs rt rd sa b, displayR op rs rt rd sa b = some (op11 op.name ++ dr rs)) (rt rd : Register) (sa : Word)
    (b : List Word) : TextOf (.reg op (fields w).rs rt rd sa b) (lineText sym base w) := by
  refine text_op (syn := .rs) _ hc hr (hd ..) hm rfl
    (by simp [argsOf]) (by simp [argsOf]) ?_
  rw [fields_rs]
  simp [argsOf, argText, dr_eq, List.intercalate]

theorem text_rd (hc : codeOf w = c) (hr : rowAt c = some ⟨op.name, .rd, c⟩) (hm : Printable op.name = true)
    (hd : ∀ rs rt rd sa b, displayR op rs rt rd sa b = some (op11 op.name ++ dr rd)) (rs rt : Register) (sa : Word)
    (b : List Word) : TextOf (.reg op rs rt (fields w).rd sa b) (lineText sym base w) := by
  refine text_op (syn := .rd) _ hc hr (hd ..) hm rfl
    (by simp [argsOf]) (by simp [argsOf]) ?_
  rw [fields_rd]
  simp [argsOf, argText, dr_eq, List.intercalate]

theorem text_rtFs (hc : codeOf w = c) (hr : rowAt c = some ⟨op.name, .rtFs, c⟩) (hm : Printable op.name = true)
    (hd : ∀ rs rt rd sa b, displayR op rs rt rd sa b = some (op11 op.name ++ dr rt ++ sep ++ df rd)) (rs : Register)
    (sa : Word) (b : List Word) : TextOf (.reg op rs (fields w).rt (fields w).rd sa b) (lineText sym base w) := by
  refine text_op (syn := .rtFs) _ hc hr ((hd ..).trans (by simp only [List.append_assoc]; rfl)) hm rfl
    (by simp [argsOf]) (by simp [argsOf]) ?_
  rw [fields_rt, fields_rd]
  simp [argsOf, argText, dr_eq, df_eq, sep, List.intercalate]

theorem text_fdFsFt (hc : codeOf w = c) (hr : rowAt c = some ⟨dotted op.name, .fdFsFt, c⟩)
    (hm : Printable (dotted op.name) = true)
    (hd : ∀ rs rt rd sa b, displayR op rs rt rd sa b =
      some (op11 (dotted op.name) ++ df rd ++ sep ++ df rs ++ sep ++ df rt)) (sa : Word) (b : List Word) :
    TextOf (.reg op (fields w).rd (fields w).rt (fields w).sa sa b) (lineText sym base w) := by
  refine text_op (syn := .fdFsFt) _ hc hr ((hd ..).trans (by simp only [List.append_assoc]; rfl)) hm rfl
    (by simp [argsOf]) (by simp [argsOf]) ?_
  rw [fields_rt, fields_rd, fields_sa]
  simp [argsOf, argText, df_eq, sep, List.intercalate]

theorem text_fdFs (p : Str) (hp : p ≠ []) (hw : ∀ c ∈ p, isWs c = true)
    (hc : codeOf w = c) (hr : rowAt c = some ⟨dotted op.name, .fdFs, c⟩)
    (hm : Printable (dotted op.name) = true)
    (hd : ∀ rs rt rd sa b, displayR op rs rt rd sa b = some (dotted op.name ++ p ++ df rd ++ sep ++ df rs))
    (rt : Register) (sa : Word) (b : List Word) :
    TextOf (.reg op (fields w).rd rt (fields w).sa sa b) (lineText sym base w) := by
  simp only [Printable, Bool.and_eq_true, decide_eq_true_eq, List.all_eq_true, Bool.not_eq_true'] at hm
  refine text_plain (syn := .fdFs) p _ hc hr ((hd ..).trans (by rw [List.append_assoc _ sep, List.append_assoc _ (df _)])) hm.1.2 hp hw hm.2 rfl
    (by simp [argsOf]) (by simp [argsOf]) ?_
  rw [fields_rd, fields_sa]
  simp [argsOf, argText, df_eq, sep, List.intercalate]

theorem text_fsFt (p : Str) (hp : p ≠ []) (hw : ∀ c ∈ p, isWs c = true)
    (hc : codeOf w = c) (hr : rowAt c = some ⟨mn, .fsFt, c⟩) (hm : Printable mn = true) (sa : Word) 
    (hd : ∀ rs rt rd b, displayR op rs rt rd sa b = some (mn ++ p ++ df rs ++ sep ++ df rt))
    (rd : Register) (b : List Word) :
    TextOf (.reg op (fields w).rd (fields w).rt rd sa b) (lineText sym base w) := by
  simp only [Printable, Bool.and_eq_true, decide_eq_true_eq, List.all_eq_true, Bool.not_eq_true'] at hm
  refine text_plain (syn := .fsFt) p _ hc hr ((hd ..).trans (by rw [List.append_assoc _ sep, List.append_assoc _ (df _)])) hm.1.2 hp hw hm.2 rfl
    (by simp [argsOf]) (by simp [argsOf]) ?_
  rw [fields_rd, fields_rt]
  simp [argsOf, argText, df_eq, sep, List.intercalate]

theorem text_jalr (h : fOp w = 0#6) (hf : fFn w = 9#6) (rt : Register) (sa : Word) (b : List Word) :
    TextOf (.reg .Jalr (fields w).rs rt (fields w).rd sa b) (lineText sym base w) := by
  have hdec : decoding w = some (c!"jalr", [.gpr (fRd w), .gpr (fRs w)]) := by
    rw [decoding_at (code_special h), hf, show rowAt (.special 9#6) = some ⟨c!"jalr", .rdRs, .special 9#6⟩ by decide +kernel]
    rfl
  have hra : ((fRd w).toFin = Register.ra) ↔ fRd w = 31#5 := by
    generalize fRd w = r
    revert r; decide
  unfold lineText
  rw [hdec]
  show TextOf _ (instText sym base c!"jalr" [.gpr (fRd w), .gpr (fRs w)])
  unfold TextOf
  show ∃ u, some (if (fields w).rd = Register.ra then _ else _) = some u ∧ _
  rw [fields_rd, fields_rs]
  refine ⟨_, rfl, ?_⟩
  by_cases hr : fRd w = 31#5
  · rw [if_pos (hra.mpr hr), hr, dr_eq]
    rw [show op11 (RTypeOp.name .Jalr) = c!"jalr" ++ List.replicate 7 ' ' from rfl,
      squash_pad _ _ _ (by unfold NoWs; decide) (by decide) (by decide)]
    have : shown c!"jalr" [.gpr 31#5, .gpr (fRs w)] = [.gpr (fRs w)] := by
      unfold shown
      rw [if_neg (by simp)]
      rfl
    unfold instText
    rw [this, if_neg (by simp)]
    simp [List.intercalate, argText]
  · rw [if_neg (fun h => hr (hra.mp h)), dr_eq, dr_eq]
    rw [show op11 (RTypeOp.name .Jalr) = c!"jalr" ++ List.replicate 7 ' ' from rfl, List.append_assoc _ (gprText _),
      List.append_assoc _ (gprText _ ++ sep), 
      squash_pad _ _ _ (by unfold NoWs; decide) (by decide) (by decide)]
    have hs : shown c!"jalr" [.gpr (fRd w), .gpr (fRs w)] = [.gpr (fRd w), .gpr (fRs w)] := by
      unfold shown
      rw [if_neg (by simp)]
      split
      · next heq => simp at heq; exact absurd heq.1 hr
      · rfl
    unfold instText
    rw [hs, if_neg (by simp)]
    simp [argText, sep, List.intercalate]

theorem text_code (hc : codeOf w = c) (hr : rowAt c = some ⟨op.name, .code, c⟩) (hm : Printable op.name = true)
    (hd : ∀ rs rt rd sa b, displayR op rs rt rd sa b =
      some (if sa = 0#32 then op.name else op11 op.name ++ uhex sa.toNat)) (rs rt rd : Register) (b : List Word) :
    TextOf (.reg op rs rt rd (fields w).code b) (lineText sym base w) := by
  have hdec : decoding w = some (op.name, [.code (fCode w)]) := by rw [decoding_at hc, hr]; rfl
  have h0 : ((fields w).code = 0#32) ↔ fCode w = 0#20 := by
    have := fields_code w
    constructor <;> intro h
    · apply BitVec.eq_of_toNat_eq; rw [← this, h]; rfl
    · apply BitVec.eq_of_toNat_eq; rw [this, h]; rfl
  unfold lineText
  rw [hdec]
  show TextOf _ (instText sym base op.name [.code (fCode w)])
  refine ⟨_, hd .., ?_⟩
  rw [fields_code]
  by_cases hz : fCode w = 0#20
  · rw [if_pos (h0.mpr hz), hz]; rfl
  · rw [if_neg (fun h => hz (h0.mp h))]
    simp only [Printable, Bool.and_eq_true, decide_eq_true_eq, List.all_eq_true, Bool.not_eq_true'] at hm
    obtain ⟨p, h1, h2, h3⟩ := op11_pad op.name hm.1.1
    rw [h1, squash_pad _ _ _ hm.1.2 h2 h3, uhex_eq]
    have hs : shown op.name [.code (fCode w)] = [.code (fCode w)] := by
      unfold shown
      rw [if_neg (by simpa using hz)]
    unfold instText
    rw [hs, if_neg (by simp)]
    simp [List.intercalate, argText]

/-- The texts of the coprocessor 0 moves. -/
def c0Disp (name : Str) (rt rd : Register) (b : List Word) : Option Str :=
  match Cop0Register.nameOf rd with
  | some n => some (op11 name ++ dr rt ++ sep ++ n)
  | none => b.head?.map fun w =>
    op11 c!".word" ++ c!"0x" ++ zeroPad 8 (hexLower w.toNat) ++ c!" " ++ c!"         #" ++ c!" " ++
      op11 name ++ dr rt ++ sep ++ c!"0x" ++ zeroPad 2 (hexLower rd.val)

theorem text_rtC0 (hc : codeOf w = c) (hr : rowAt c = some ⟨op.name, .rtC0, c⟩) (hm : Printable op.name = true)
    (hd : ∀ rs rt rd sa b, displayR op rs rt rd sa b = c0Disp op.name rt rd b) (rs : Register) (sa : Word) :
    TextOf (.reg op rs (fields w).rt (fields w).rd sa [w]) (lineText sym base w) := by
  have hdec : decoding w = some (op.name, [.gpr (fRt w), .c0 (fRd w)]) := by rw [decoding_at hc, hr]; rfl
  simp only [Printable, Bool.and_eq_true, decide_eq_true_eq, List.all_eq_true, Bool.not_eq_true'] at hm
  obtain ⟨p, h1, h2, h3⟩ := op11_pad op.name hm.1.1
  have hs : shown op.name [.gpr (fRt w), .c0 (fRd w)] = [.gpr (fRt w), .c0 (fRd w)] := by
    unfold shown
    rw [if_neg (by simp)]
    split <;> simp_all
  unfold lineText
  rw [hdec]
  simp only [c0Arg]
  rw [fields_rt, fields_rd]
  unfold TextOf
  show ∃ u, displayR _ _ _ _ _ _ = some u ∧ _
  rw [hd]
  unfold c0Disp
  rw [c0_eq]
  cases hn : c0Names.lookup (fRd w).toNat with
  | some n =>
    refine ⟨_, rfl, ?_⟩
    simp only [Option.isSome_some, if_true]
    rw [h1, dr_eq, List.append_assoc _ (gprText _), List.append_assoc _ (gprText _ ++ sep),
      squash_pad _ _ _ hm.1.2 h2 h3]
    unfold instText
    rw [hs, if_neg (by simp)]
    simp [argText, sep, List.intercalate, hn]
  | none =>
    refine ⟨_, rfl, ?_⟩
    simp only [Option.isSome_none, if_false, Bool.false_eq_true]
    rw [dr_eq, h1]
    have e8 := hex8_eq w
    have e2 : zeroPad 2 (hexLower (fRd w).toFin.val) = [Nat.digitChar ((fRd w).toNat / 16), Nat.digitChar ((fRd w).toNat % 16)] := by
      rw [zeroPad_hex 2 _ (by have := (fRd w).isLt; simp; omega) (by omega)]
      have := (fRd w).isLt
      simp [fixedHex, Nat.mod_eq_of_lt (show (fRd w).toNat / 16 < 16 by omega)]
    rw [e2]
    have e8' : ∀ X, c!"0x" ++ (zeroPad 8 (hexLower w.toNat) ++ X) = hex8 w ++ X := by
      intro X; rw [← e8, List.append_assoc]
    unfold wordText
    have hx : NoWs (hex8 w) := by
      unfold hex8 NoWs
      intro c hc
      rw [List.mem_append] at hc
      rcases hc with hc | hc
      · revert c; decide
      · rw [List.mem_map] at hc
        obtain ⟨k, -, rfl⟩ := hc
        have : ∀ v : BitVec 4, isWs (Nat.digitChar v.toNat) = false := by decide
        exact this _
    have hwd : NoWs c!".word" := by unfold NoWs; decide
    rw [show op11 c!".word" = c!".word" ++ List.replicate 6 ' ' from rfl]
    simp only [List.append_assoc]
    rw [e8']
    rw [← List.append_assoc, squash_pad _ _ _ hwd (by decide) (by decide)]
    rw [List.append_assoc, squash_no _ _ hwd, show c!".word " = c!".word" ++ c!" " from rfl, List.append_assoc, squash_no _ _ hwd]
    congr 1
    have sp1 : ∀ X : Str, squash (c!" " ++ X) = ' ' :: squash (X.dropWhile isWs) := fun X => squash_ws ' ' X (by decide)
    rw [sp1, sp1]
    congr 1
    have hd0 : ∀ X : Str, (hex8 w ++ X).dropWhile isWs = hex8 w ++ X := by
      intro X
      apply trimStart_tight
      intro c hc
      rw [show hex8 w = '0' :: ('x' :: _) from rfl] at hc
      simp at hc; rw [← hc]; decide
    rw [hd0, hd0, squash_no _ _ hx, squash_no _ _ hx]
    congr 1
    have e3 : ∀ X, squash (' ' :: (c!"         #" ++ (c!" " ++ (op.name ++ (p ++ X))))) = squash (c!" # " ++ (op.name ++ (c!" " ++ X))) := by
      intro X
      have : squash (op.name ++ (p ++ X)) = squash (op.name ++ (c!" " ++ X)) := by
        have := squash_pad op.name p X hm.1.2 h2 h3
        simpa only [List.append_assoc] using this
      have hne : op.name ≠ [] := by
        intro h
        have : ∀ o : RTypeOp, o.name ≠ [] := by intro o; cases o <;> decide
        exact this op h
      have h4 : ∀ Y, squash (' ' :: (op.name ++ Y)) = ' ' :: squash (op.name ++ Y) := by
        intro Y
        apply squash_space
        intro c hc
        apply hm.1.2 c
        cases hop : op.name with
        | nil => exact absurd hop hne
        | cons d t => rw [hop] at hc; simp at hc; simp [hc]
      show squash (List.replicate (9 + 1) ' ' ++ ('#' :: (' ' :: (op.name ++ (p ++ X))))) = _
      rw [squash_blank 9 _ (by simp; decide)]
      show _ = squash (' ' :: ('#' :: (' ' :: (op.name ++ (c!" " ++ X)))))
      rw [squash_space _ (by simp; decide)]
      congr 1
      show squash (c!"#" ++ _) = squash (c!"#" ++ _)
      rw [squash_no _ _ (by decide), squash_no _ _ (by decide)]
      congr 1
      rw [h4, h4, this]
    exact e3 _

theorem text_rtRsSimm (hc : codeOf w = c) (hr : rowAt c = some ⟨io.name, .rtRsSimm, c⟩) (hm : Printable io.name = true)
    (hd : ∀ rs rt v, displayI io rs rt v = some (op11 io.name ++ dr rt ++ sep ++ dr rs ++ sep ++ signedHex v)) (ht : ¬ TopImm w) (b : List Word) :
    TextOf (.imm io (fields w).rs (fields w).rt (.short (fields w).imm) b) (lineText sym base w) := by
  have hv : fImm w ≠ 0x7FFF#16 := fun e => ht ⟨_, _, by rw [decoding_at hc, hr]; rfl, .simm (fImm w), by simp [argsOf], by simp [topArg, e]⟩
  refine text_op (syn := .rtRsSimm) _ hc hr ((hd ..).trans (by simp only [List.append_assoc]; rfl)) hm rfl
    (by simp [argsOf]) (by simp [argsOf]) ?_
  simp only [fields_imm, fields_rs, fields_rt]
  simp [argsOf, argText, dr_eq, df_eq, uhex_eq, sep, List.intercalate, signedHex_eq _ hv]

theorem text_rtRsUimm (hc : codeOf w = c) (hr : rowAt c = some ⟨io.name, .rtRsUimm, c⟩) (hm : Printable io.name = true)
    (hd : ∀ rs rt v, displayI io rs rt v = some (op11 io.name ++ dr rt ++ sep ++ dr rs ++ sep ++ uhex v.toNat)) (b : List Word) :
    TextOf (.imm io (fields w).rs (fields w).rt (.short (fields w).imm) b) (lineText sym base w) := by
  refine text_op (syn := .rtRsUimm) _ hc hr ((hd ..).trans (by simp only [List.append_assoc]; rfl)) hm rfl
    (by simp [argsOf]) (by simp [argsOf]) ?_
  simp only [fields_imm, fields_rs, fields_rt]
  simp [argsOf, argText, dr_eq, df_eq, uhex_eq, sep, List.intercalate]

theorem text_rtUimm (hc : codeOf w = c) (hr : rowAt c = some ⟨io.name, .rtUimm, c⟩) (hm : Printable io.name = true)
    (hd : ∀ rs rt v, displayI io rs rt v = some (op11 io.name ++ dr rt ++ sep ++ uhex v.toNat)) (rs : Register) (b : List Word) :
    TextOf (.imm io rs (fields w).rt (.short (fields w).imm) b) (lineText sym base w) := by
  refine text_op (syn := .rtUimm) _ hc hr ((hd ..).trans (by simp only [List.append_assoc]; rfl)) hm rfl
    (by simp [argsOf]) (by simp [argsOf]) ?_
  simp only [fields_imm, fields_rs, fields_rt]
  simp [argsOf, argText, dr_eq, df_eq, uhex_eq, sep, List.intercalate]

theorem text_rtMem (hc : codeOf w = c) (hr : rowAt c = some ⟨io.name, .rtMem, c⟩) (hm : Printable io.name = true)
    (hd : ∀ rs rt v, displayI io rs rt v = some (op11 io.name ++ dr rt ++ sep ++ signedHex v ++ c!"(" ++ dr rs ++ c!")")) (ht : ¬ TopImm w) (b : List Word) :
    TextOf (.imm io (fields w).rs (fields w).rt (.short (fields w).imm) b) (lineText sym base w) := by
  have hv : fImm w ≠ 0x7FFF#16 := fun e => ht ⟨_, _, by rw [decoding_at hc, hr]; rfl, .mem (fImm w) (fRs w), by simp [argsOf], by simp [topArg, e]⟩
  refine text_op (syn := .rtMem) _ hc hr ((hd ..).trans (by simp only [List.append_assoc]; rfl)) hm rfl
    (by simp [argsOf]) (by simp [argsOf]) ?_
  simp only [fields_imm, fields_rs, fields_rt]
  simp [argsOf, argText, dr_eq, df_eq, uhex_eq, sep, List.intercalate, signedHex_eq _ hv]

theorem text_ftMem (hc : codeOf w = c) (hr : rowAt c = some ⟨io.name, .ftMem, c⟩) (hm : Printable io.name = true)
    (hd : ∀ rs rt v, displayI io rs rt v = some (op11 io.name ++ df rt ++ sep ++ signedHex v ++ c!"(" ++ dr rs ++ c!")")) (ht : ¬ TopImm w) (b : List Word) :
    TextOf (.imm io (fields w).rs (fields w).rt (.short (fields w).imm) b) (lineText sym base w) := by
  have hv : fImm w ≠ 0x7FFF#16 := fun e => ht ⟨_, _, by rw [decoding_at hc, hr]; rfl, .mem (fImm w) (fRs w), by simp [argsOf], by simp [topArg, e]⟩
  refine text_op (syn := .ftMem) _ hc hr ((hd ..).trans (by simp only [List.append_assoc]; rfl)) hm rfl
    (by simp [argsOf]) (by simp [argsOf]) ?_
  simp only [fields_imm, fields_rs, fields_rt]
  simp [argsOf, argText, dr_eq, df_eq, uhex_eq, sep, List.intercalate, signedHex_eq _ hv]

theorem text_copMem (hc : codeOf w = c) (hr : rowAt c = some ⟨io.name, .copMem, c⟩) (hm : Printable io.name = true)
    (hd : ∀ rs rt v, displayI io rs rt v = some (op11 io.name ++ uhex rt.val ++ sep ++ signedHex v ++ c!"(" ++ dr rs ++ c!")")) (ht : ¬ TopImm w) (b : List Word) :
    TextOf (.imm io (fields w).rs (fields w).rt (.short (fields w).imm) b) (lineText sym base w) := by
  have hv : fImm w ≠ 0x7FFF#16 := fun e => ht ⟨_, _, by rw [decoding_at hc, hr]; rfl, .mem (fImm w) (fRs w), by simp [argsOf], by simp [topArg, e]⟩
  refine text_op (syn := .copMem) _ hc hr ((hd ..).trans (by simp only [List.append_assoc]; rfl)) hm rfl
    (by simp [argsOf]) (by simp [argsOf]) ?_
  simp only [fields_imm, fields_rs, fields_rt]
  simp [argsOf, argText, dr_eq, df_eq, uhex_eq, sep, List.intercalate, signedHex_eq _ hv]

theorem text_rsRtOff (hc : codeOf w = c) (hr : rowAt c = some ⟨io.name, .rsRtOff, c⟩) (hm : Printable io.name = true)
    (hd : ∀ rs rt v, displayI io rs rt v = some (op11 io.name ++ dr rs ++ sep ++ dr rt ++ sep ++ signedHex v)) (ht : ¬ TopImm w) (b : List Word) :
    TextOf (.imm io (fields w).rs (fields w).rt (.short (fields w).imm) b) (lineText sym base w) := by
  have hv : fImm w ≠ 0x7FFF#16 := fun e => ht ⟨_, _, by rw [decoding_at hc, hr]; rfl, .off (fImm w), by simp [argsOf], by simp [topArg, e]⟩
  refine text_op (syn := .rsRtOff) _ hc hr ((hd ..).trans (by simp only [List.append_assoc]; rfl)) hm rfl
    (by simp [argsOf]) (by simp [argsOf]) ?_
  simp only [fields_imm, fields_rs, fields_rt]
  simp [argsOf, argText, dr_eq, df_eq, uhex_eq, sep, List.intercalate, signedHex_eq _ hv]

theorem text_rsOff (hc : codeOf w = c) (hr : rowAt c = some ⟨io.name, .rsOff, c⟩) (hm : Printable io.name = true)
    (hd : ∀ rs rt v, displayI io rs rt v = some (op11 io.name ++ dr rs ++ sep ++ signedHex v)) (ht : ¬ TopImm w) (rt : Register) (b : List Word) :
    TextOf (.imm io (fields w).rs rt (.short (fields w).imm) b) (lineText sym base w) := by
  have hv : fImm w ≠ 0x7FFF#16 := fun e => ht ⟨_, _, by rw [decoding_at hc, hr]; rfl, .off (fImm w), by simp [argsOf], by simp [topArg, e]⟩
  refine text_op (syn := .rsOff) _ hc hr ((hd ..).trans (by simp only [List.append_assoc]; rfl)) hm rfl
    (by simp [argsOf]) (by simp [argsOf]) ?_
  simp only [fields_imm, fields_rs, fields_rt]
  simp [argsOf, argText, dr_eq, df_eq, uhex_eq, sep, List.intercalate, signedHex_eq _ hv]

theorem text_rsSimm (hc : codeOf w = c) (hr : rowAt c = some ⟨io.name, .rsSimm, c⟩) (hm : Printable io.name = true)
    (hd : ∀ rs rt v, displayI io rs rt v = some (op11 io.name ++ dr rs ++ sep ++ signedHex v)) (ht : ¬ TopImm w) (rt : Register) (b : List Word) :
    TextOf (.imm io (fields w).rs rt (.short (fields w).imm) b) (lineText sym base w) := by
  have hv : fImm w ≠ 0x7FFF#16 := fun e => ht ⟨_, _, by rw [decoding_at hc, hr]; rfl, .simm (fImm w), by simp [argsOf], by simp [topArg, e]⟩
  refine text_op (syn := .rsSimm) _ hc hr ((hd ..).trans (by simp only [List.append_assoc]; rfl)) hm rfl
    (by simp [argsOf]) (by simp [argsOf]) ?_
  simp only [fields_imm, fields_rs, fields_rt]
  simp [argsOf, argText, dr_eq, df_eq, uhex_eq, sep, List.intercalate, signedHex_eq _ hv]

theorem text_off (hc : codeOf w = c) (hr : rowAt c = some ⟨io.name, .off, c⟩) (hm : Printable io.name = true)
    (hd : ∀ rs rt v, displayI io rs rt v = some (op11 io.name ++ signedHex v)) (ht : ¬ TopImm w) (rs rt : Register) (b : List Word) :
    TextOf (.imm io rs rt (.short (fields w).imm) b) (lineText sym base w) := by
  have hv : fImm w ≠ 0x7FFF#16 := fun e => ht ⟨_, _, by rw [decoding_at hc, hr]; rfl, .off (fImm w), by simp [argsOf], by simp [topArg, e]⟩
  refine text_op (syn := .off) _ hc hr (hd ..) hm rfl
    (by simp [argsOf]) (by simp [argsOf]) ?_
  simp only [fields_imm, fields_rs, fields_rt]
  simp [argsOf, argText, dr_eq, df_eq, uhex_eq, sep, List.intercalate, signedHex_eq _ hv]

end shapes

end Mips
