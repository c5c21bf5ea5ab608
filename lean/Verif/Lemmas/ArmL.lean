/- The result of parsing an instruction line, by mnemonic. -/
import Verif.Lemmas.BranchL
import Verif.Lemmas.ErrL
import Verif.Spec.Words

namespace Mips
open Isa Syntax Source Branch

theorem splitOnce_words (s : Str) : (match splitOnce ' ' s with | some p => p | none => (s, [])) = (firstWord s, operandText s) := by
  induction s with
  | nil => rfl
  | cons c s ih =>
    by_cases hc : c = ' '
    · subst hc; simp [splitOnce, firstWord, operandText]
    · simp only [splitOnce, firstWord, operandText, if_neg hc]
      cases hs : splitOnce ' ' s with
      | none => rw [hs] at ih; simp at ih ⊢; exact ⟨ih.1, ih.2⟩
      | some p => rw [hs] at ih; simp at ih ⊢; rw [ih]; exact ⟨rfl, rfl⟩

theorem parseInst_eq [Unicode] (x : Ctx) {s : Str} (h : s ≠ []) :
    parseInst x s = parseArm x (classify (mnemonic s)) (firstWord s) (operandText s) := by
  unfold parseInst
  have := splitOnce_words s
  split
  rename_i op arg he
  have e : (op, arg) = (firstWord s, operandText s) := by
    rw [← this]
    cases hs : splitOnce ' ' s <;> rw [hs] at he <;> exact he.symm
  cases e
  have : s.isEmpty = false := by cases s <;> simp_all
  simp [this, mnemonic]

/-- `RPost w P`: the result of `w`, if any, satisfies `P`. -/
def RPost {α} (w : W α) (P : α → Prop) : Prop := ∀ a, w.res = .ok a → P a

theorem rpost_bind {α β} {w : W α} {f : α → W β} {P : β → Prop} {Q : α → Prop} (h1 : RPost w Q) (h2 : ∀ a, Q a → RPost (f a) P) :
    RPost (w >>= f) P := by
  intro b hb
  obtain ⟨ws, r⟩ := w
  cases r with
  | ok a => exact h2 a (h1 a rfl) b hb
  | err e' => cases hb
  | panic => cases hb
theorem rpost_any {α β} {w : W α} {f : α → W β} {P : β → Prop} (h2 : ∀ a, RPost (f a) P) : RPost (w >>= f) P :=
  rpost_bind (Q := fun _ => True) (fun _ _ => trivial) fun a _ => h2 a
theorem rpost_pure {α} {a : α} {P : α → Prop} (h : P a) : RPost (pure a : W α) P := by intro b hb; cases hb; exact h
theorem rpost_fail {α} {e : ParserError} {P : α → Prop} : RPost (W.fail e : W α) P := by intro e he; cases he
theorem rpost_panic {α} {P : α → Prop} : RPost (W.panic : W α) P := by intro e he; cases he
theorem rpost_bad {α} {x : Ctx} {s : Str} {m n : Nat} {P : α → Prop} : RPost (badCount x s m n : W α) P := rpost_fail

theorem rpost_opI {s : Str} : RPost (opI s) (fun o => ITypeOp.fromStr s = some o) := by
  intro a ha
  unfold opI at ha
  cases h : ITypeOp.fromStr s with
  | none => rw [h] at ha; cases ha
  | some o => rw [h] at ha; cases ha; rfl
theorem rpost_opR {s : Str} : RPost (opR s) (fun o => RTypeOp.fromStr s = some o) := by
  intro a ha
  unfold opR at ha
  cases h : RTypeOp.fromStr s with
  | none => rw [h] at ha; cases ha
  | some o => rw [h] at ha; cases ha; rfl
theorem rpost_opJ {s : Str} : RPost (opJ s) (fun o => JTypeOp.fromStr s = some o) := by
  intro a ha
  unfold opJ at ha
  cases h : JTypeOp.fromStr s with
  | none => rw [h] at ha; cases ha
  | some o => rw [h] at ha; cases ha; rfl

theorem rpost_mkI {s : Str} {a b : Register} {w : W Immediate} {P : Instruction → Prop} {Q : Immediate → Prop} (h : RPost w Q)
    (hP : ∀ o i, ITypeOp.fromStr s = some o → Q i → P (.imm o a b i [])) : RPost (mkI s a b w) P :=
  rpost_bind rpost_opI fun o ho => rpost_bind h fun i hi => rpost_pure (hP o i ho hi)
theorem rpost_mkR {s : Str} {a b c : Register} {P : Instruction → Prop}
    (hP : ∀ o, RTypeOp.fromStr s = some o → P (.reg o a b c 0#32 [])) : RPost (mkR s a b c) P :=
  rpost_bind rpost_opR fun o ho => rpost_pure (hP o ho)

/-- The arms of the branches. -/
def isBrCls (c : Cls) : Bool := c = .br1 || c = .br2 || c = .b || c = .bc

/-- Not an integer that label resolution could take for an address. -/
def NotInt : Immediate → Prop
  | .int _ => False
  | _ => True

theorem parseImm_notInt {x : Ctx} {ty : IntTy} {s : Str} {i : Immediate} (h : parseImm x ty s = .ok i) (ht : ty = .i16 ∨ ty = .u16 ∨ ty = .i64) : NotInt i := by
  unfold parseImm at h
  simp only at h
  split at h
  · cases h; trivial
  split at h
  · cases h; trivial
  split at h
  · rename_i m _
    cases hp : parseTarget x (removeParens m) with
    | ok t =>
      rw [hp] at h
      simp only [Res.bind] at h
      repeat' split at h
      all_goals first
        | cases h; done
        | (cases h; trivial)
    | err e => rw [hp] at h; cases h
    | panic => rw [hp] at h; cases h
  · unfold parseNum at h
    simp only at h
    repeat' split at h
    all_goals first
      | cases h; done
      | (cases h; rcases ht with rfl | rfl | rfl <;> trivial)

/-- What an accepted instruction line was parsed to. -/
def ArmOk (x : Ctx) (cls : Cls) (op arg : Str) (p : Instruction) : Prop :=
  (∃ o rs rt i, p = .imm o rs rt i [] ∧ ITypeOp.fromStr op = some o ∧ cls ≠ .jump ∧
    if isBrCls cls then ∃ t, (split ',' arg).getLast? = some t ∧ parseImm x .u32 t = .ok i else NotInt i) ∨
  (∃ o rs rt rd sa, p = .reg o rs rt rd sa [] ∧ isBrCls cls = false ∧ cls ≠ .jump) ∨
  (cls = .jump ∧ ∃ o t q, split ',' arg = [t] ∧ parseTarget x (trim t) = .ok q ∧ p = .jump o q [] ∧ JTypeOp.fromStr op = some o) ∨
  (cls = .word ∧ ∃ w, p = .bytes w)

theorem rpost_imm {x : Ctx} {ty : IntTy} {s : Str} : RPost (W.lift (parseImm x ty s)) (fun i => parseImm x ty s = .ok i) := fun _ h => h
theorem rpost_tgt {x : Ctx} {s : Str} : RPost (W.lift (parseTarget x s)) (fun i => parseTarget x s = .ok i) := fun _ h => h

set_option maxHeartbeats 4000000 in
theorem parseArm_ok [Unicode] (x : Ctx) (cls : Cls) (op arg : Str) : RPost (parseArm x cls op arg) (ArmOk x cls op arg) := by
  unfold parseArm
  generalize hA : split ',' arg = args at *
  have armI : ∀ {a b : Register} {ty : IntTy} {s : Str}, isBrCls cls = false → cls ≠ .jump → (ty = .i16 ∨ ty = .u16 ∨ ty = .i64) →
      RPost (mkI op a b (W.lift (parseImm x ty s))) (ArmOk x cls op arg) := by
    intro a b ty s h1 h2 h3
    exact rpost_mkI rpost_imm fun o i ho hi => .inl ⟨o, a, b, i, rfl, ho, h2, by rw [h1]; exact parseImm_notInt hi h3⟩
  have armB : ∀ {a b : Register} {i : Immediate} {t : Str}, isBrCls cls = true → cls ≠ .jump → args.getLast? = some t → parseImm x .u32 t = .ok i →
      RPost (mkI op a b (pure i)) (ArmOk x cls op arg) := by
    intro a b i t h1 h2 h3 h4
    exact rpost_mkI (Q := (· = i)) (rpost_pure rfl) fun o i' ho hi => .inl ⟨o, a, b, i', rfl, ho, h2, by rw [h1, hA]; subst hi; exact ⟨t, h3, h4⟩⟩
  have armR : ∀ {a b c : Register}, isBrCls cls = false → cls ≠ .jump → RPost (mkR op a b c) (ArmOk x cls op arg) := by
    intro a b c h1 h2
    exact rpost_mkR fun o ho => .inr (.inl ⟨o, a, b, c, 0, rfl, h1, h2⟩)
  have armP : ∀ {o : RTypeOp} {a b c : Register} {v : Word}, isBrCls cls = false → cls ≠ .jump → RPost (pure (.reg o a b c v []) : W Instruction) (ArmOk x cls op arg) := by
    intro o a b c v h1 h2
    exact rpost_pure (.inr (.inl ⟨o, a, b, c, v, rfl, h1, h2⟩))
  cases cls
  case jump =>
    simp only
    split
    · rename_i t
      refine rpost_any fun _ => rpost_bind rpost_tgt fun q hq => rpost_any fun _ => rpost_bind rpost_opJ fun o ho => rpost_pure ?_
      exact .inr (.inr (.inl ⟨rfl, o, t, q, hA, hq, rfl, ho⟩))
    · exact rpost_bad
  case word =>
    simp only
    refine rpost_any fun i => ?_
    split
    · exact rpost_panic
    · exact rpost_pure (.inr (.inr (.inr ⟨rfl, _, rfl⟩)))
  case br1 =>
    simp only
    split
    · exact rpost_any fun _ => rpost_any fun _ => rpost_bind rpost_imm fun i hi => rpost_any fun _ => armB rfl (by decide) rfl hi
    · exact rpost_bad
  case br2 =>
    simp only
    split
    · exact rpost_any fun _ => rpost_any fun _ => rpost_any fun _ => rpost_bind rpost_imm fun i hi => rpost_any fun _ => armB rfl (by decide) rfl hi
    · exact rpost_bad
  case b =>
    simp only [parseBranch0]
    split
    · exact rpost_any fun _ => rpost_bind rpost_imm fun i hi => rpost_any fun _ => armB rfl (by decide) rfl hi
    · exact rpost_bad
  case bc =>
    simp only [parseBranch0]
    split
    · exact rpost_any fun _ => rpost_bind rpost_imm fun i hi => rpost_any fun _ => armB rfl (by decide) rfl hi
    · exact rpost_bad
  case li =>
    simp only [parseLi]
    split
    · refine rpost_any fun _ => rpost_bind rpost_imm fun i hi => ?_
      split
      · exact rpost_panic
      · split
        · exact rpost_fail
        · exact rpost_mkI (Q := (· = i)) (rpost_pure rfl) fun o i' ho hi' => .inl ⟨o, _, _, i', rfl, ho, by decide, by subst hi'; exact parseImm_notInt hi (by simp)⟩
    · exact rpost_bad
  case liu =>
    simp only [parseLi]
    split
    · refine rpost_any fun _ => rpost_bind rpost_imm fun i hi => ?_
      split
      · exact rpost_panic
      · split
        · exact rpost_fail
        · exact rpost_mkI (Q := (· = i)) (rpost_pure rfl) fun o i' ho hi' => .inl ⟨o, _, _, i', rfl, ho, by decide, by subst hi'; exact parseImm_notInt hi (by simp)⟩
    · exact rpost_bad
  all_goals simp only [parseFloat]
  all_goals repeat' first
    | with_reducible exact rpost_bad
    | with_reducible exact rpost_fail
    | with_reducible exact rpost_panic
    | (with_reducible refine armI rfl ?_ ?_ <;> (simp; done))
    | (with_reducible refine armR rfl ?_; (simp; done))
    | (with_reducible refine armP rfl ?_; (simp; done))
    | with_reducible refine rpost_any (fun _ => ?_)
    | split

end Mips
