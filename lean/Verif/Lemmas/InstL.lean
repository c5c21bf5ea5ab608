/- What the parsed form of an accepted line says about its mnemonic and its number fields. -/
import Verif.Lemmas.ArmL
import Verif.Lemmas.NativeL

namespace Mips
open Isa Syntax Source Branch

theorem nameI_ok (o : ITypeOp) : mnOk o.name = true := by cases o <;> decide
theorem nameR_ok (o : RTypeOp) : mnOk o.name = true := by cases o <;> decide
theorem nameJ_ok (o : JTypeOp) : mnOk o.name = true := by cases o <;> decide

theorem keyI [Unicode] {s : Str} {o : ITypeOp} (h : ITypeOp.fromStr s = some o) : trim (Unicode.lower s) = o.name := by
  have := List.find?_some h
  simp only [eqIgnoreCase, beq_iff_eq, (mn_all (nameI_ok o)).2.2] at this
  exact Mn.key ⟨this, nameI_ok o⟩
theorem keyR [Unicode] {s : Str} {o : RTypeOp} (h : RTypeOp.fromStr s = some o) : trim (Unicode.lower s) = o.name := by
  have := List.find?_some h
  simp only [eqIgnoreCase, beq_iff_eq, (mn_all (nameR_ok o)).2.2] at this
  exact Mn.key ⟨this, nameR_ok o⟩
theorem keyJ [Unicode] {s : Str} {o : JTypeOp} (h : JTypeOp.fromStr s = some o) : trim (Unicode.lower s) = o.name := by
  have := List.find?_some h
  simp only [eqIgnoreCase, beq_iff_eq, (mn_all (nameJ_ok o)).2.2] at this
  exact Mn.key ⟨this, nameJ_ok o⟩

/-- The number an immediate holds fits the type it was parsed for. -/
def Fits (ty : IntTy) : Immediate → Prop
  | .int _ => ty = .u32
  | .long _ => ty = .i64
  | _ => True

theorem parseImm_fits {x : Ctx} {ty : IntTy} {s : Str} {i : Immediate} (h : parseImm x ty s = .ok i)
    (ht : ty = .i16 ∨ ty = .u16 ∨ ty = .i64 ∨ ty = .u32) : Fits ty i := by
  unfold parseImm at h
  simp only at h
  split at h
  · cases h; trivial
  split at h
  · cases h; trivial
  split at h
  · rename_i m _
    cases hp : parseTarget x (removeParens m) with
    | ok t =>
      rw [hp] at h
      simp only [Res.bind] at h
      repeat' split at h
      all_goals first
        | cases h; done
        | (cases h; trivial)
    | err e => rw [hp] at h; cases h
    | panic => rw [hp] at h; cases h
  · unfold parseNum at h
    simp only at h
    repeat' split at h
    all_goals first
      | cases h; done
      | (cases h; rcases ht with rfl | rfl | rfl | rfl <;> first | trivial | rfl)

/-- The type of the immediate in each arm. -/
def clsTy (cls : Cls) (i : Immediate) : Prop :=
  match cls with
  | .br1 | .br2 | .b | .bc => Fits .u32 i
  | .li | .liu | .dli => Fits .i64 i
  | _ => Fits .i16 i

/-- What an accepted line of class `cls` and mnemonic `key` is parsed to. -/
def ParsedAs (cls : Cls) (key : Str) : Instruction → Prop
  | .imm o _ _ i b => b = [] ∧ o.name = key ∧ clsTy cls i
  | .reg o _ _ _ sa b => b = [] ∧ ((o.name = key ∧ (sa = 0#32 ∨ cls = .shift ∨ (cls = .code ∧ sa.toNat < 2 ^ 16))) ∨
      ((o = .Cs ∨ o = .Cd) ∧ sa.toNat < 16 ∧ cls = .other))
  | .jump o _ b => b = [] ∧ o.name = key ∧ cls = .jump
  | .bytes _ => cls = .word

theorem opC {c : Char} {o : RTypeOp} (h : RTypeOp.fromStr (c!"C." ++ [c]) = some o) : o = .Cs ∨ o = .Cd := by
  have := List.find?_some h
  simp only [eqIgnoreCase, beq_iff_eq, (mn_all (nameR_ok o)).2.2] at this
  have h2 : o.name.take 2 = c!"c." ∧ o.name.length = 3 := by
    rw [← this]; exact ⟨rfl, rfl⟩
  clear h this
  revert h2
  cases o <;> decide

theorem cond_lt [Unicode] {x : Ctx} {s : Str} : RPost (W.lift (parseFloatCond x s)) (fun v => v.toNat < 16) := by
  intro v hv
  simp only [W.lift] at hv
  unfold parseFloatCond at hv
  split at hv
  · rename_i e he
    cases hv
    have := List.mem_of_find?_eq_some he
    have hl : ∀ e ∈ floatConds.zipIdx, (BitVec.ofNat 32 e.2).toNat < 16 := by decide
    exact hl _ this
  · cases hv

set_option maxHeartbeats 4000000 in
theorem parseArm_parsed [Unicode] (x : Ctx) (cls : Cls) (op arg : Str) :
    RPost (parseArm x cls op arg) (ParsedAs cls (trim (Unicode.lower op))) := by
  unfold parseArm
  have armI : ∀ {a b : Register} {ty : IntTy} {s : Str}, (∀ i, Fits ty i → clsTy cls i) → (ty = .i16 ∨ ty = .u16 ∨ ty = .i64) →
      RPost (mkI op a b (W.lift (parseImm x ty s))) (ParsedAs cls (trim (Unicode.lower op))) := by
    intro a b ty s h2 h3
    exact rpost_mkI rpost_imm fun o i ho hi => ⟨rfl, (keyI ho).symm, h2 i (parseImm_fits hi (by rcases h3 with rfl | rfl | rfl <;> simp))⟩
  have fits16 : ∀ i, Fits .u16 i → Fits .i16 i := by intro i h; cases i <;> first | trivial | cases h
  have armB : ∀ {a b : Register} {i : Immediate} {t : Str}, (∀ i, Fits .u32 i → clsTy cls i) → parseImm x .u32 t = .ok i →
      RPost (mkI op a b (pure i)) (ParsedAs cls (trim (Unicode.lower op))) := by
    intro a b i t h1 h4
    exact rpost_mkI (Q := (· = i)) (rpost_pure rfl) fun o i' ho hi => ⟨rfl, (keyI ho).symm, by subst hi; exact h1 _ (parseImm_fits h4 (by simp))⟩
  have armR : ∀ {a b c : Register}, RPost (mkR op a b c) (ParsedAs cls (trim (Unicode.lower op))) := by
    intro a b c
    exact rpost_mkR fun o ho => ⟨rfl, .inl ⟨(keyR ho).symm, .inl rfl⟩⟩
  cases cls
  case jump =>
    simp only
    split
    · exact rpost_any fun _ => rpost_bind rpost_tgt fun q hq => rpost_any fun _ => rpost_bind rpost_opJ fun o ho => rpost_pure ⟨rfl, (keyJ ho).symm, rfl⟩
    · exact rpost_bad
  case word =>
    simp only
    refine rpost_any fun i => ?_
    split
    · exact rpost_panic
    · exact rpost_pure rfl
  case br1 =>
    simp only
    split
    · exact rpost_any fun _ => rpost_any fun _ => rpost_bind rpost_imm fun i hi => rpost_any fun _ => armB (fun _ h => h) hi
    · exact rpost_bad
  case br2 =>
    simp only
    split
    · exact rpost_any fun _ => rpost_any fun _ => rpost_any fun _ => rpost_bind rpost_imm fun i hi => rpost_any fun _ => armB (fun _ h => h) hi
    · exact rpost_bad
  case b =>
    simp only [parseBranch0]
    split
    · exact rpost_any fun _ => rpost_bind rpost_imm fun i hi => rpost_any fun _ => armB (fun _ h => h) hi
    · exact rpost_bad
  case bc =>
    simp only [parseBranch0]
    split
    · exact rpost_any fun _ => rpost_bind rpost_imm fun i hi => rpost_any fun _ => armB (fun _ h => h) hi
    · exact rpost_bad
  case li =>
    simp only [parseLi]
    split
    · refine rpost_any fun _ => rpost_bind rpost_imm fun i hi => ?_
      split
      · exact rpost_panic
      · split
        · exact rpost_fail
        · exact rpost_mkI (Q := (· = i)) (rpost_pure rfl) fun o i' ho hi' => ⟨rfl, (keyI ho).symm, by subst hi'; exact parseImm_fits hi (by simp)⟩
    · exact rpost_bad
  case liu =>
    simp only [parseLi]
    split
    · refine rpost_any fun _ => rpost_bind rpost_imm fun i hi => ?_
      split
      · exact rpost_panic
      · split
        · exact rpost_fail
        · exact rpost_mkI (Q := (· = i)) (rpost_pure rfl) fun o i' ho hi' => ⟨rfl, (keyI ho).symm, by subst hi'; exact parseImm_fits hi (by simp)⟩
    · exact rpost_bad
  case shift =>
    simp only
    split
    · refine rpost_any fun _ => rpost_any fun _ => rpost_bind rpost_opR fun o ho => ?_
      split
      · exact rpost_panic
      · exact rpost_pure ⟨rfl, .inl ⟨(keyR ho).symm, .inr (.inl rfl)⟩⟩
    · exact rpost_bad
  case code =>
    simp only
    split
    · refine rpost_bind (Q := Fits .u16) ?_ fun i hi => rpost_bind rpost_opR fun o ho => ?_
      · split
        · exact rpost_pure trivial
        · exact fun i hi => parseImm_fits hi (by simp)
      · split
        · exact rpost_panic
        · rename_i v hv
          refine rpost_pure ⟨rfl, .inl ⟨(keyR ho).symm, .inr (.inr ⟨rfl, ?_⟩)⟩⟩
          cases i with
          | short w =>
            simp only [Immediate.asU32, Option.some.injEq] at hv
            subst hv
            rw [BitVec.toNat_setWidth]
            have := w.isLt
            exact Nat.lt_of_le_of_lt (Nat.mod_le _ _) this
          | int w => cases hi
          | long w => cases hi
          | label l => cases hv
          | localLabel l => cases hv
    · exact rpost_bad
  case other =>
    simp only [parseFloat]
    split
    · exact rpost_panic
    split
    · exact rpost_panic
    split
    · split
      · exact rpost_any fun _ => rpost_any fun _ => rpost_any fun _ => armR
      · exact rpost_bad
    split
    · split
      · exact rpost_any fun _ => rpost_any fun _ => armR
      · exact rpost_bad
    split
    · split
      · refine rpost_any fun _ => rpost_any fun _ => ?_
        split
        · exact rpost_panic
        · refine rpost_bind rpost_opR fun o ho => ?_
          split
          · exact rpost_panic
          · exact rpost_bind cond_lt fun v hv => rpost_pure ⟨rfl, .inr ⟨opC ho, hv, rfl⟩⟩
      · exact rpost_bad
    · exact rpost_fail
  all_goals simp only
  all_goals repeat' first
    | with_reducible exact rpost_bad
    | with_reducible exact rpost_fail
    | with_reducible exact rpost_panic
    | with_reducible exact armR
    | (refine armI (fun _ h => h) ?_; simp; done)
    | (refine armI fits16 ?_; simp; done)
    | with_reducible refine rpost_any (fun _ => ?_)
    | split

end Mips
