/- C31: operand counts. -/
import Verif.Spec.Mnemonics
import Verif.Props.CaseP
import Verif.Props.ByLine
import Verif.Lemmas.RejectL

namespace Mips
open Source Branch

theorem split_length (ch : Char) : ∀ s : Str, (split ch s).length = s.count ch + 1 := by
  intro s
  induction s with
  | nil => rfl
  | cons c s ih =>
    simp only [split]
    by_cases h : c = ch
    · subst h; simp [ih]
    · rw [if_neg h]
      cases hs : split ch s with
      | nil => rw [hs] at ih; simp at ih
      | cons a l => rw [hs] at ih; simp [List.count_cons_of_ne h] at ih ⊢; omega

/-- counts accepted by a class of mnemonics and the count its error mentions -/
def clsCount : Cls → Option (List Nat × Nat)
  | .mem | .lui | .trapi | .br1 | .reg2 | .pseudo2 | .li | .liu | .dli | .cop0 | .cop1 | .fmem => some ([2], 2)
  | .arith | .br2 | .reg3 | .shift | .shiftv => some ([3], 3)
  | .jump | .code | .b | .bc | .rs1 | .rd1 => some ([1], 1)
  | .jalr => some ([1, 2], 2)
  | .div => some ([2, 3], 3)
  | _ => none

theorem arm_count [Unicode] (x : Ctx) {cls : Cls} {ns : List Nat} {n : Nat} (h : clsCount cls = some (ns, n)) (op arg : Str)
    (hn : (split ',' arg).length ∉ ns) : parseArm x cls op arg = badCount x arg n (split ',' arg).length := by
  unfold parseArm
  revert hn
  generalize split ',' arg = args
  intro hn
  cases cls <;> simp only [clsCount, Option.some.injEq, Prod.mk.injEq, reduceCtorEq] at h <;> obtain ⟨rfl, rfl⟩ := h <;>
    simp only [parseBranch0, parseLi]
  all_goals
    split <;> first
      | rfl
      | (exfalso; simp at hn)

/-- counts accepted by a floating-point stem -/
def stemCount (e : Str) : Option Nat :=
  if [c!"add", c!"sub", c!"mul", c!"div"].contains e then some 3
  else if [c!"abs", c!"ceil.l", c!"ceil.w", c!"cvt.d", c!"cvt.l", c!"cvt.s", c!"cvt.w",
        c!"floor.l", c!"floor.w", c!"mov", c!"neg", c!"round.l", c!"round.w", c!"sqrt", c!"trunc.l",
        c!"trunc.w"].contains e then some 2
  else if startsWith c!"c." e then some 2 else none

theorem float_count [Unicode] (x : Ctx) {op mn : Str} (hm : Mn op mn) (h2 : 2 ≤ mn.length) {n : Nat}
    (h : stemCount (mn.take (mn.length - 2)) = some n) (arg : Str)
    (hn : (split ',' arg).length ≠ n) : parseArm x .other op arg = badCount x arg n (split ',' arg).length := by
  have ha : ∀ c ∈ mn, isAscii c = true := fun c hc => ((mn_all hm.ok).2.1 c hc).1
  have ha' : ∀ c ∈ op, isAscii c = true := sameName_ascii hm.same ha
  have hl : op.length = mn.length := by rw [← hm.same, List.length_map]
  unfold parseArm parseFloat
  simp only [hm.lower, byteLen_ascii op ha', hl, if_neg (Nat.not_lt.2 h2), takeBytes_ascii mn ha _ (Nat.sub_le _ _)]
  revert h
  generalize mn.take (mn.length - 2) = e
  revert hn
  generalize split ',' arg = args
  unfold stemCount
  intro hn h
  by_cases c1 : ([c!"add", c!"sub", c!"mul", c!"div"].contains e) = true
  · rw [if_pos c1] at h ⊢
    cases h
    split
    · exact absurd rfl hn
    · rfl
  · rw [if_neg c1] at h ⊢
    split at h
    · rename_i c2
      rw [if_pos c2]
      cases h
      split
      · exact absurd rfl hn
      · rfl
    · rename_i c2
      rw [if_neg c2]
      split at h
      · rename_i c3
        rw [if_pos c3]
        cases h
        split
        · exact absurd rfl hn
        · rfl
      · cases h

/-- what the model does with the counts of a mnemonic -/
def modelCount (mn : Str) : Option (List Nat × Nat) :=
  match classify mn with
  | .other => (stemCount (mn.take (mn.length - 2))).map fun n => ([n], n)
  | c => clsCount c

theorem arities_ok : ∀ e ∈ Names.arities, mnOk e.1 = true ∧ modelCount e.1 = some e.2 ∧ (classify e.1 = .other → 2 ≤ e.1.length) := by
  decide +kernel

theorem parse_count [Unicode] (x : Ctx) {s mn : Str} (hs : s ≠ []) (hc : Names.Calls s mn) {ns : List Nat} {n : Nat}
    (ha : (mn, ns, n) ∈ Names.arities) (hn : Names.count s ∉ ns) :
    parseInst x s = badCount x (operandText s) n (Names.count s) := by
  obtain ⟨hok, hm, h2⟩ := arities_ok _ ha
  simp only at hok hm h2
  have hmn : Mn (firstWord s) mn := ⟨hc, hok⟩
  rw [parseInst_eq x hs]
  have hk : mnemonic s = mn := hmn.key
  rw [hk]
  have hlen : Names.count s = (split ',' (operandText s)).length := (split_length _ _).symm
  rw [hlen] at hn ⊢
  unfold modelCount at hm
  split at hm
  · rename_i hcl
    cases hst : stemCount (mn.take (mn.length - 2)) with
    | none => rw [hst] at hm; cases hm
    | some v =>
      rw [hst] at hm
      cases hm
      rw [hcl]
      exact float_count x hmn (h2 hcl) hst _ (by simpa using hn)
  · exact arm_count x hm _ _ hn

/-- **C31** (everything but the mnemonics without operands, and blank operand lists).  A line that names a mnemonic of
the language, in any letter case, and whose number of comma-separated operands is not one the mnemonic takes, is
reported with `InvalidOperandCount`: the line, the number expected, the number found and the operands. -/
theorem C31_count_partial [Unicode] (rt : Rt) (m : Mipsasm) (text : Str) {k : Nat} {raw : Str} (hk : (lines text)[k]? = some raw)
    (hc : kind raw = .code) {mn : Str} {ns : List Nat} {n : Nat} (hmn : Names.Calls (body raw) mn)
    (ha : (mn, ns, n) ∈ Names.arities) (hn : Names.count (body raw) ∉ ns) :
    Names.Reports (assemble rt m text)
      (.invalidOperandCount ⟨k + 1, raw⟩ n (Names.count (body raw)) (operandText (body raw))) := by
  refine line_reported hk hc fun x hx => ?_
  rw [parse_count x (kind_code_ne hc) hmn ha hn]
  show Res.err (ParserError.invalidOperandCount x.line _ _ _) = _
  rw [hx.line]

/-- The same for a file of a single line, where the call certainly returns. -/
theorem C31_count_alone [Unicode] (rt : Rt) (m : Mipsasm) {text raw : Str} (hl : lines text = [raw])
    (hc : kind raw = .code) {mn : Str} {ns : List Nat} {n : Nat} (hmn : Names.Calls (body raw) mn)
    (ha : (mn, ns, n) ∈ Names.arities) (hn : Names.count (body raw) ∉ ns) :
    assemble rt m text =
      .err [.invalidOperandCount ⟨1, raw⟩ n (Names.count (body raw)) (operandText (body raw))] [] := by
  refine alone_reported hl hc fun x hx _ _ => ?_
  rw [parse_count x (kind_code_ne hc) hmn ha hn]
  show (⟨[], Res.err (ParserError.invalidOperandCount x.line _ _ _)⟩ : W _) = _
  rw [hx.line]

/-- The hypotheses are met: `SW` with three operands, in the second line. -/
example [Unicode] (rt : Rt) (m : Mipsasm) : Names.Reports (assemble rt m c!"nop\n SW $a0, 4($sp), 7 ; x")
    (.invalidOperandCount ⟨2, c!" SW $a0, 4($sp), 7 ; x"⟩ 2 3 c!"$a0, 4($sp), 7 ") :=
  C31_count_partial rt m _ (k := 1) (mn := c!"sw") (ns := [2]) rfl (by decide) (by unfold Names.Calls; decide) (by decide +kernel) (by decide)

theorem none_ok : ∀ e ∈ Names.noneWords, mnOk e.1 = true ∧ (classify e.1 = .bare ∨ classify e.1 = .tlb) ∧
    (RTypeOp.fromStr e.1).map (fun o => encode true (.reg o Register.null Register.null Register.null 0#32 [])) = some (some [e.2]) := by
  decide +kernel

/-- **C31, the mnemonics without operands**: whatever stands behind them is ignored, so a line `nop 1, 2` is accepted
where the property demands an error. -/
theorem C31_none_exact [Unicode] (rt : Rt) (m : Mipsasm) {text raw : Str} (hl : lines text = [raw])
    (hc : kind raw = .code) {mn : Str} {w : Word} (hmn : Names.Calls (body raw) mn) (ha : (mn, w) ∈ Names.noneWords) :
    (assemble rt m text).words = some [w] := by
  obtain ⟨hok, hcls, henc⟩ := none_ok _ ha
  simp only at hok hcls henc
  cases ho : RTypeOp.fromStr mn with
  | none => rw [ho] at henc; cases henc
  | some o =>
    rw [ho] at henc
    simp only [Option.map_some, Option.some.injEq] at henc
    have hm : Mn (firstWord (body raw)) mn := ⟨hmn, hok⟩
    have hE : LineEmits rt m raw [w] := by
      intro x _ _ _
      refine ⟨.reg o Register.null Register.null Register.null 0#32 [], ?_, rfl, henc⟩
      rw [parseInst_eq x (kind_code_ne hc), show mnemonic (body raw) = mn from hm.key]
      rcases hcls with h | h <;> rw [h] <;> simp only [parseArm, mkR, hm.opR ho] <;> rfl
    have := byLine_ok rt m text (by rw [hl]; intro r hr l; rw [List.mem_singleton.1 hr, hc]; simp) (fun _ => [w])
      (by rw [hl]; intro r hr _; rw [List.mem_singleton.1 hr]; exact hE)
    rw [this, hl]
    simp [isCode, hc]

example [Unicode] (rt : Rt) (m : Mipsasm) : (assemble rt m c!"TLBwi 1, 2").words = some [0x42000002#32] :=
  C31_none_exact rt m (raw := c!"TLBwi 1, 2") (mn := c!"tlbwi") rfl (by decide) (by unfold Names.Calls; decide) (by decide)

/-- **C31, counterexample**: `nop 1, 2` is accepted although `nop` takes no operand; `jr` without its operand is reported
with another error, and `j` without its operand makes the call panic. -/
theorem C31_wrong :
    (@assemble asciiUnicode (idRt true) Mipsasm.new c!"nop 1, 2").words = some [0#32] ∧
    @assemble asciiUnicode (idRt true) Mipsasm.new c!"jr" = .err [.invalidRegister ⟨1, c!"jr"⟩ []] [] ∧
    @assemble asciiUnicode (idRt true) Mipsasm.new c!"j" = .panic := by
  refine ⟨?_, ?_, ?_⟩ <;> decide +kernel

/-- **C31, accepted programs**: in a program that is accepted, every line that names a mnemonic with operands has one of
the numbers of operands it takes. -/
theorem C31_accepted [Unicode] {rt : Rt} {m : Mipsasm} {text : Str} {is : List Instruction} {ws : List ParserWarning}
    (h : assemble rt m text = .ok is ws) {k : Nat} {raw : Str} (hk : (lines text)[k]? = some raw)
    (hc : kind raw = .code) {mn : Str} {ns : List Nat} {n : Nat} (hmn : Names.Calls (body raw) mn)
    (ha : (mn, ns, n) ∈ Names.arities) : Names.count (body raw) ∈ ns := by
  rcases Classical.em (Names.count (body raw) ∈ ns) with hn | hn
  · exact hn
  · have := C31_count_partial rt m text hk hc hmn ha hn [] (by rw [h]; rfl)
    cases this

example : ∃ is ws, @assemble asciiUnicode (idRt true) Mipsasm.new c!"Addiu $a0, $a0, 1" = .ok is ws ∧
    Names.Calls (body c!"Addiu $a0, $a0, 1") c!"addiu" ∧ (c!"addiu", [3], 3) ∈ Names.arities :=
  ⟨[.imm .Addiu 4 4 (.short 1) [0x24840001#32]], [], by decide +kernel, by unfold Names.Calls; decide, by decide +kernel⟩

end Mips
