/- C35: alignment warnings. -/
import Verif.Props.Warn
import Verif.Props.Jumps
import Verif.Props.Base

namespace Mips
open Source Branch Syntax

/-- the alignment warnings among some warnings -/
def aligns (ws : List ParserWarning) : List ParserWarning := ws.filter (·.isAlign)

theorem aligns_append (a b : List ParserWarning) : aligns (a ++ b) = aligns a ++ aligns b := List.filter_append ..

theorem aligns_none {ws : List ParserWarning} (h : ∀ w ∈ ws, w.isAlign = false) : aligns ws = [] := by
  unfold aligns
  rw [List.filter_eq_nil_iff]
  intro w hw
  rw [h w hw]; simp

/-- the warning of a value at `t` -/
def alignOf (w : Option Word) (v : ParserWarning) : List ParserWarning :=
  match w with
  | none => []
  | some a => if a.toNat % 4 ≠ 0 then [v] else []

theorem aligns_check (x : Ctx) (i : Immediate) (t : Str) : aligns (alignCheck x i t).warns = alignOf i.asU32 (.unalignedBranch x.line t) := by
  unfold alignCheck alignOf
  cases i.asU32 with
  | none => rfl
  | some a => simp only; split <;> rfl

/-- bind with a first part that prints no alignment warning -/
theorem aligns_skip {α β} {w : W α} {f : α → W β} {b : β} (h : (w >>= f).res = .ok b) (h1 : WPost w (fun v => v.isAlign = false)) :
    ∃ a, w.res = .ok a ∧ (f a).res = .ok b ∧ aligns (w >>= f).warns = aligns (f a).warns := by
  obtain ⟨a, h2, h3, h4⟩ := bind_ok h
  refine ⟨a, h2, h3, ?_⟩
  rw [h4, aligns_append, aligns_none h1, List.nil_append]

theorem aligns_last {α β} {w : W α} {f : α → W β} {b : β} (h : (w >>= f).res = .ok b) (h1 : ∀ a, WPost (f a) (fun v => v.isAlign = false)) :
    aligns (w >>= f).warns = aligns w.warns := by
  obtain ⟨a, h2, h3, h4⟩ := bind_ok h
  rw [h4, aligns_append, aligns_none (h1 a), List.append_nil]

theorem mkI_noAlign {op : Str} {a b : Register} {i : Immediate} : WPost (mkI op a b (pure i)) (fun v => v.isAlign = false) :=
  wpost_mkI wpost_pure

set_option maxHeartbeats 4000000 in
theorem arm_aligns [Unicode] (x : Ctx) (cls : Cls) (op arg : Str) {p : Instruction} (h : (parseArm x cls op arg).res = .ok p) :
    (isBrCls cls = true → ∃ t i, (split ',' arg).getLast? = some t ∧ parseImm x .u32 t = .ok i ∧
      aligns (parseArm x cls op arg).warns = alignOf i.asU32 (.unalignedBranch x.line t)) ∧
    (cls = .jump → ∃ t q, split ',' arg = [t] ∧ parseTarget x (trim t) = .ok q ∧
      aligns (parseArm x cls op arg).warns = alignOf q.asU32 (.unalignedJump x.line (trim t))) ∧
    (isBrCls cls = false → cls ≠ .jump → aligns (parseArm x cls op arg).warns = []) := by
  unfold parseArm at h ⊢
  revert h
  generalize split ',' arg = args
  have hd : WPost (delayCheck x) (fun v => v.isAlign = false) := wpost_delay rfl
  cases cls
  case jump =>
    intro h
    simp only at h ⊢
    refine ⟨fun h => (by cases h), fun _ => ?_, fun _ h => absurd rfl h⟩
    split at h
    · rename_i t
      obtain ⟨_, _, h2, e2⟩ := aligns_skip h hd
      obtain ⟨q, hq, h3, e3⟩ := aligns_skip h2 wpost_lift
      have e4 := aligns_last h3 (fun _ => wpost_bind wpost_opJ fun _ => wpost_pure)
      refine ⟨t, q, rfl, hq, ?_⟩
      rw [e2, e3, e4]
      unfold alignOf
      cases q.asU32 with
      | none => rfl
      | some a => simp only; split <;> rfl
    · cases h
  case br1 =>
    intro h
    simp only at h ⊢
    refine ⟨fun _ => ?_, fun h => (by cases h), fun h => (by cases h)⟩
    split at h
    · rename_i a t
      obtain ⟨_, _, h2, e2⟩ := aligns_skip h hd
      obtain ⟨_, _, h3, e3⟩ := aligns_skip h2 wpost_reg
      obtain ⟨i, hi, h4, e4⟩ := aligns_skip h3 wpost_lift
      have e5 := aligns_last h4 (fun _ => mkI_noAlign)
      exact ⟨t, i, rfl, hi, by rw [e2, e3, e4, e5, aligns_check]⟩
    · cases h
  case br2 =>
    intro h
    simp only at h ⊢
    refine ⟨fun _ => ?_, fun h => (by cases h), fun h => (by cases h)⟩
    split at h
    · rename_i a b t
      obtain ⟨_, _, h2, e2⟩ := aligns_skip h hd
      obtain ⟨_, _, h3, e3⟩ := aligns_skip h2 wpost_reg
      obtain ⟨_, _, h3', e3'⟩ := aligns_skip h3 wpost_reg
      obtain ⟨i, hi, h4, e4⟩ := aligns_skip h3' wpost_lift
      have e5 := aligns_last h4 (fun _ => mkI_noAlign)
      exact ⟨t, i, rfl, hi, by rw [e2, e3, e3', e4, e5, aligns_check]⟩
    · cases h
  case b | bc =>
    intro h
    simp only [parseBranch0] at h ⊢
    refine ⟨fun _ => ?_, fun h => (by cases h), fun h => (by cases h)⟩
    split at h
    · rename_i t
      obtain ⟨_, _, h2, e2⟩ := aligns_skip h hd
      obtain ⟨i, hi, h4, e4⟩ := aligns_skip h2 wpost_lift
      have e5 := aligns_last h4 (fun _ => mkI_noAlign)
      exact ⟨t, i, rfl, hi, by rw [e2, e4, e5, aligns_check]⟩
    · cases h
  all_goals
    intro h
    refine ⟨fun h => (by cases h), fun h => (by cases h), fun _ _ => aligns_none ?_⟩
    change WPost _ (fun w => w.isAlign = false)
    simp only [parseLi, parseFloat]
    repeat' first
      | with_reducible exact wpost_lift | with_reducible exact wpost_pure | with_reducible exact wpost_fail
      | with_reducible exact wpost_panic | with_reducible exact wpost_bad | with_reducible exact wpost_reg
      | with_reducible exact wpost_freg | with_reducible exact wpost_creg | with_reducible exact wpost_opR
      | with_reducible exact wpost_mkR | with_reducible apply wpost_mkI | with_reducible exact hd
      | (with_reducible refine wpost_bind ?_ (fun _ => ?_))
      | split

/-- the alignment warnings of an accepted line -/
theorem line_aligns [Unicode] {rt : Rt} {m : Mipsasm} {text : Str} {is : List Instruction} {ws : List ParserWarning}
    (h : assemble rt m text = .ok is ws) {k : Nat} {raw : Str} (hk : (lines text)[k]? = some raw) (hc : kind raw = .code) :
    ∃ x p, AtLine rt m (lines text) k x ∧ x.line = ⟨k + 1, raw⟩ ∧
      (parseArm x (classify (mnemonic (body raw))) (firstWord (body raw)) (operandText (body raw))).res = .ok p ∧
      alignWarnings ws (k + 1) =
        aligns (parseArm x (classify (mnemonic (body raw))) (firstWord (body raw)) (operandText (body raw))).warns := by
  obtain ⟨tr, x, p, hT, he, hx, hat, hline, hres, hw⟩ := line_about h hk hc
  have hne := kind_code_ne hc
  rw [parseInst_eq x hne] at hres hw
  refine ⟨x, p, hat, hline, hres, ?_⟩
  unfold alignWarnings aligns
  rw [← hw, List.filter_filter]
  congr 1
  funext w
  rw [Bool.and_comm]

theorem branch_cls : ∀ n ∈ branchNames, isBrCls (classify n) = true := by decide
theorem jump_cls : ∀ n ∈ jumpOps, classify n = .jump := by decide

/-- **C35, branches.**  In a program that assembles, a branch whose operand is the numeral `t` of value `v` prints the
alignment warning exactly once if `v` is not a multiple of 4, and not at all otherwise. -/
theorem C35_branch [Unicode] {rt : Rt} {m : Mipsasm} {text : Str} {is : List Instruction} {ws : List ParserWarning}
    (h : assemble rt m text = .ok is ws) (hl : NoNumeralLabel (lines text)) {k : Nat} {raw : Str} (hk : (lines text)[k]? = some raw)
    (hc : kind raw = .code) (hb : mnemonic (body raw) ∈ branchNames) {t : Str} {v : Int}
    (ht : (operands (body raw)).getLast? = some t) (hv : PNum t v) :
    alignWarnings ws (k + 1) = if v % 4 = 0 then [] else [.unalignedBranch ⟨k + 1, raw⟩ t] := by
  obtain ⟨x, p, hat, hline, hres, hw⟩ := line_aligns h hk hc
  obtain ⟨t', i, h1, h2, h3⟩ := (arm_aligns x _ _ _ hres).1 (branch_cls _ hb)
  rw [show split ',' (operandText (body raw)) = operands (body raw) from rfl, ht] at h1
  cases h1
  rw [hw, h3, hline]
  have hnl : NoNumLabel x.labels := by
    rw [hat.labels]
    exact fun e he => hl e (globals_take_mem he)
  rw [parseImm_num x .u32 hnl hv] at h2
  split at h2
  · rename_i hr
    cases h2
    show alignOf (some (BitVec.ofInt 32 v)) _ = _
    have e : (BitVec.ofInt 32 v).toNat % 4 ≠ 0 ↔ ¬ v % 4 = 0 := by
      rw [BitVec.toNat_ofInt]
      simp only [IntTy.min, IntTy.max] at hr
      omega
    unfold alignOf
    simp only
    by_cases c : v % 4 = 0
    · rw [if_pos c, if_neg (fun hx => e.1 hx c)]
    · rw [if_neg c, if_pos (e.2 c)]
  · cases h2

/-- **C35, branches to labels** never print it. -/
theorem C35_branch_label [Unicode] {rt : Rt} {m : Mipsasm} {text : Str} {is : List Instruction} {ws : List ParserWarning}
    (h : assemble rt m text = .ok is ws) {k : Nat} {raw : Str} (hk : (lines text)[k]? = some raw)
    (hc : kind raw = .code) (hb : mnemonic (body raw) ∈ branchNames) (ht : ToLabel (lines text) k raw) :
    alignWarnings ws (k + 1) = [] := by
  obtain ⟨x, p, hat, hline, hres, hw⟩ := line_aligns h hk hc
  obtain ⟨t', i, h1, h2, h3⟩ := (arm_aligns x _ _ _ hres).1 (branch_cls _ hb)
  obtain ⟨t, ht, hx⟩ := ht
  rw [show split ',' (operandText (body raw)) = operands (body raw) from rfl, ht] at h1
  cases h1
  rw [hw, h3]
  have : i.asU32 = none := by
    unfold parseImm at h2
    simp only at h2
    split at h2
    · cases h2; rfl
    · rename_i hn
      have hn' : isLocal (trim t') = false := by simpa [isLocal] using hn
      rcases hx with hx | ⟨d, hd, hdef⟩
      · rw [hn'] at hx; cases hx
      · rw [hat.labels, isLocal_defines hn' hdef hd] at h2
        cases h2; rfl
  rw [this]; rfl

/-- **C35, jumps to addresses.**  A jump whose operand is a numeral of value `n` (and not the name of a symbol) prints the
alignment warning exactly once if `n` is not a multiple of 4, and not at all otherwise. -/
theorem C35_jump [Unicode] {rt : Rt} {m : Mipsasm} {text : Str} {is : List Instruction} {ws : List ParserWarning}
    (h : assemble rt m text = .ok is ws) {k : Nat} {raw : Str} (hk : (lines text)[k]? = some raw)
    (hc : kind raw = .code) (hj : mnemonic (body raw) ∈ jumpOps) {t : Str} {n : Nat}
    (ht : operands (body raw) = [t]) (hu : UNum (trim t) n) (hs : ∀ e ∈ m.syms, e.2 ≠ trim t) (hn : n < 2 ^ 32) :
    alignWarnings ws (k + 1) = if n % 4 = 0 then [] else [.unalignedJump ⟨k + 1, raw⟩ (trim t)] := by
  obtain ⟨x, p, hat, hline, hres, hw⟩ := line_aligns h hk hc
  obtain ⟨t', q, h1, h2, h3⟩ := (arm_aligns x _ _ _ hres).2.1 (jump_cls _ hj)
  rw [show split ',' (operandText (body raw)) = operands (body raw) from rfl, ht] at h1
  cases h1
  rw [hw, h3, hline]
  rw [parseTarget_num x hu hn (by rw [hat.syms]; exact findSym_none hs)] at h2
  cases h2
  show alignOf (some (BitVec.ofNat 32 n)) _ = _
  unfold alignOf
  simp only [BitVec.toNat_ofNat, Nat.mod_eq_of_lt hn]
  by_cases c : n % 4 = 0
  · rw [if_pos c, if_neg (fun hx => hx c)]
  · rw [if_neg c, if_pos c]

/-- **C35, jumps to symbols.** -/
theorem C35_symbol [Unicode] {rt : Rt} {m : Mipsasm} {text : Str} {is : List Instruction} {ws : List ParserWarning}
    (h : assemble rt m text = .ok is ws) {k : Nat} {raw : Str} (hk : (lines text)[k]? = some raw)
    (hc : kind raw = .code) (hj : mnemonic (body raw) ∈ jumpOps) {t : Str} {a : Word}
    (ht : operands (body raw) = [t]) (hs : (a, trim t) ∈ m.syms) (hn : (m.syms.map (·.2)).Nodup) :
    alignWarnings ws (k + 1) = if a.toNat % 4 = 0 then [] else [.unalignedJump ⟨k + 1, raw⟩ (trim t)] := by
  obtain ⟨x, p, hat, hline, hres, hw⟩ := line_aligns h hk hc
  obtain ⟨t', q, h1, h2, h3⟩ := (arm_aligns x _ _ _ hres).2.1 (jump_cls _ hj)
  rw [show split ',' (operandText (body raw)) = operands (body raw) from rfl, ht] at h1
  cases h1
  rw [hw, h3, hline]
  unfold parseTarget at h2
  rw [hat.syms, findSym_some hs hn] at h2
  cases h2
  show alignOf (some a) _ = _
  unfold alignOf
  simp only
  by_cases c : a.toNat % 4 = 0
  · rw [if_pos c, if_neg (fun hx => hx c)]
  · rw [if_neg c, if_pos c]

/-- **C35, jumps to labels** never print it. -/
theorem C35_jump_label [Unicode] {rt : Rt} {m : Mipsasm} {text : Str} {is : List Instruction} {ws : List ParserWarning}
    (h : assemble rt m text = .ok is ws) {k : Nat} {raw : Str} (hk : (lines text)[k]? = some raw)
    (hc : kind raw = .code) (hj : mnemonic (body raw) ∈ jumpOps) {t : Str} {c : Char} {r : Str}
    (ht : operands (body raw) = [t]) (hn : trim t = c :: r) (hd : Unicode.isNumeric c = false) (hs : ∀ e ∈ m.syms, e.2 ≠ trim t) :
    alignWarnings ws (k + 1) = [] := by
  obtain ⟨x, p, hat, hline, hres, hw⟩ := line_aligns h hk hc
  obtain ⟨t', q, h1, h2, h3⟩ := (arm_aligns x _ _ _ hres).2.1 (jump_cls _ hj)
  rw [show split ',' (operandText (body raw)) = operands (body raw) from rfl, ht] at h1
  cases h1
  rw [hw, h3, parseTarget_name x hn hd (by rw [hat.syms]; exact findSym_none hs) h2]
  rfl

/-- **C35, other instructions** never print it. -/
theorem C35_others [Unicode] {rt : Rt} {m : Mipsasm} {text : Str} {is : List Instruction} {ws : List ParserWarning}
    (h : assemble rt m text = .ok is ws) {k : Nat} {raw : Str} (hk : (lines text)[k]? = some raw)
    (hc : kind raw = .code) (hb : mnemonic (body raw) ∉ branchNames) (hj : mnemonic (body raw) ∉ jumpOps) :
    alignWarnings ws (k + 1) = [] := by
  obtain ⟨x, p, hat, hline, hres, hw⟩ := line_aligns h hk hc
  rw [hw]
  refine (arm_aligns x _ _ _ hres).2.2 ?_ (fun e => hj (classify_jump e))
  cases hbr : isBrCls (classify (mnemonic (body raw))) with
  | false => rfl
  | true => exact absurd (classify_br hbr) hb

/-- An odd address is reported, an aligned one is not, and the code is the same. -/
example : (@assemble asciiUnicode (idRt true) Mipsasm.new c!"bne $a0, $a1, 5\nJ 0x1002\nj 0x1000").warnings =
      some [.unalignedBranch ⟨1, c!"bne $a0, $a1, 5"⟩ c!" 5",
        .invalidInstructionInDelaySlot ⟨1, c!"bne $a0, $a1, 5"⟩ ⟨2, c!"J 0x1002"⟩, .unalignedJump ⟨2, c!"J 0x1002"⟩ c!"0x1002",
        .invalidInstructionInDelaySlot ⟨2, c!"J 0x1002"⟩ ⟨3, c!"j 0x1000"⟩] ∧
    (@assemble asciiUnicode (idRt true) Mipsasm.new c!"bne $a0, $a1, 5\nJ 0x1002\nj 0x1000").words =
      some [0x14850001#32, 0x08000400#32, 0x08000400#32] ∧
    NoNumeralLabel (lines c!"bne $a0, $a1, 5\nJ 0x1002\nj 0x1000") ∧
    (operands (body c!"bne $a0, $a1, 5")).getLast? = some c!" 5" ∧
    (operands (body c!"J 0x1002")) = [c!"0x1002"] := by
  refine ⟨by decide +kernel, by decide +kernel, ?_, by decide, by decide⟩
  intro e he
  rw [show globals (lines c!"bne $a0, $a1, 5\nJ 0x1002\nj 0x1000") = [] by decide] at he
  cases he

end Mips
