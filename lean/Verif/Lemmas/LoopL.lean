/- Invariants of the line loop. -/
import Verif.Lemmas.OperandL
import Verif.Model.Lib

namespace Mips

theorem W.bind_res_ok {α β} {w : W α} {f : α → W β} {b : β} :
    (w >>= f).res = .ok b ↔ ∃ a, w.res = .ok a ∧ (f a).res = .ok b := by
  obtain ⟨ws, r⟩ := w
  cases r with
  | ok a => simp [bind]
  | err e => simp [bind]
  | panic => simp [bind]

theorem W.lift_res {α} (r : Res ParserError α) : (W.lift r).res = r := rfl

/-- What the parser guarantees about an instruction it accepted. -/
def Fresh (labels : List (Str × Nat)) : Instruction → Prop
  | .imm _ _ _ im b => b = [] ∧ (∀ l, im = .label l → hasLabel labels l = true) ∧
      (∀ l, im = .localLabel l → startsWith c!"@@" l = true)
  | .jump _ _ b => b = []
  | .reg _ _ _ _ _ b => b = []
  | .bytes _ => True

/-- What the parser guarantees about an immediate. -/
def FreshImm (labels : List (Str × Nat)) (im : Immediate) : Prop :=
  (∀ l, im = .label l → hasLabel labels l = true) ∧ (∀ l, im = .localLabel l → startsWith c!"@@" l = true)

theorem new_fresh (labels : List (Str × Nat)) (ty : IntTy) (v : Int) : FreshImm labels (Immediate.new ty v) := by
  cases ty <;> simp [Immediate.new, FreshImm]

theorem parseNum_fresh (x : Ctx) (ty : IntTy) (s : Str) {im : Immediate} (h : parseNum x ty s = .ok im) :
    FreshImm x.labels im := by
  unfold parseNum at h
  split at h
  · simp only at h
    split at h
    · cases h; exact new_fresh _ _ _
    · cases h
  · split at h
    · cases h; exact new_fresh _ _ _
    · cases h

theorem Res.bind_ok_iff {ε α β} {r : Res ε α} {f : α → Res ε β} {b : β} :
    r.bind f = .ok b ↔ ∃ a, r = .ok a ∧ f a = .ok b := by
  cases r <;> simp [Res.bind]

theorem parseImm_fresh (x : Ctx) (ty : IntTy) (s : Str) {im : Immediate} (h : parseImm x ty s = .ok im) :
    FreshImm x.labels im := by
  unfold parseImm at h
  simp only at h
  split at h
  · cases h; rename_i h1; refine ⟨by simp, ?_⟩; rintro l ⟨⟩; exact h1
  · split at h
    · cases h; rename_i h1; refine ⟨?_, by simp⟩; rintro l ⟨⟩; exact h1
    · split at h
      · rw [Res.bind_ok_iff] at h
        obtain ⟨t, _, h⟩ := h
        have : ∃ v, im = .short v := by
          repeat' split at h
          all_goals first | (cases h; done) | (cases h; exact ⟨_, rfl⟩)
        obtain ⟨v, rfl⟩ := this
        simp [FreshImm]
      · exact parseNum_fresh x ty _ h

/-- Every successful outcome satisfies `P`. -/
def Post {α} (w : W α) (P : α → Prop) : Prop := ∀ a, w.res = .ok a → P a

theorem post_bind {α β} {w : W α} {f : α → W β} {P : β → Prop} (h : ∀ a, w.res = .ok a → Post (f a) P) :
    Post (w >>= f) P := by
  intro b hb
  rw [W.bind_res_ok] at hb
  obtain ⟨a, h1, h2⟩ := hb
  exact h a h1 b h2

theorem post_bind' {α β} {w : W α} {f : α → W β} {P : β → Prop} (h : ∀ a, Post (f a) P) :
    Post (w >>= f) P := post_bind fun a _ => h a

theorem post_fail {α} {e : ParserError} {P : α → Prop} : Post (W.fail e) P := by intro a h; cases h
theorem post_panic {α} {P : α → Prop} : Post (W.panic) P := by intro a h; cases h
theorem post_badCount {α} {x : Ctx} {s : Str} {m n : Nat} {P : α → Prop} : Post (badCount x s m n) P := by
  intro a h; cases h
theorem post_pure {α} {a : α} {P : α → Prop} (h : P a) : Post (pure a) P := by intro b hb; cases hb; exact h
theorem post_imm {x : Ctx} {ty : IntTy} {s : Str} : Post (W.lift (parseImm x ty s)) (FreshImm x.labels) :=
  fun _ h => parseImm_fresh x ty s h
theorem post_bindImm {β} {x : Ctx} {ty : IntTy} {s : Str} {f : Immediate → W β} {P : β → Prop}
    (h : ∀ a, FreshImm x.labels a → Post (f a) P) : Post (W.lift (parseImm x ty s) >>= f) P :=
  post_bind fun a ha => h a (parseImm_fresh x ty s ha)

theorem post_mkI {labels : List (Str × Nat)} {op : Str} {rs rt : Register} {w : W Immediate}
    (hw : Post w (FreshImm labels)) : Post (mkI op rs rt w) (Fresh labels) := by
  unfold mkI
  refine post_bind' fun o => post_bind fun im him => post_pure ⟨rfl, (hw im him).1, (hw im him).2⟩

theorem post_mkR {labels : List (Str × Nat)} {op : Str} {rs rt rd : Register} :
    Post (mkR op rs rt rd) (Fresh labels) := by
  unfold mkR
  exact post_bind' fun o => post_pure rfl

theorem parseArm_post [Unicode] (x : Ctx) (cls : Cls) (op arg : Str) : Post (parseArm x cls op arg) (Fresh x.labels) := by
  cases cls <;> simp only [parseArm, parseBranch0, parseLi, parseFloat]
  all_goals repeat' first
    | with_reducible exact post_fail | with_reducible exact post_panic | with_reducible exact post_badCount
    | with_reducible exact post_mkR | with_reducible exact post_imm
    | (with_reducible apply post_pure; first | with_reducible assumption | simp only [Fresh])
    | with_reducible apply post_mkI
    | (with_reducible refine post_bindImm ?_; intro _ _)
    | (with_reducible refine post_bind' ?_; intro _)
    | split

theorem parseInst_fresh [Unicode] (x : Ctx) (line : Str) : Post (parseInst x line) (Fresh x.labels) := by
  unfold parseInst
  split
  split
  · exact post_fail
  · exact parseArm_post x _ _ _

end Mips
