/- Additional labels. -/
import Verif.Spec.Fresh
import Verif.Lemmas.RenameL2

namespace Mips.Fresh
open Mips.Isa hiding conds
open Mips.Names hiding none
open Mips.Syntax Mips.Source Mips.Branch Mips.Operands
open Mips.Lang Mips.Rename

/-- The second file has labels of `X` instead of some blank lines. -/
inductive Filled (X : Str → Prop) : List Str → List Str → Prop
  | nil : Filled X [] []
  | same (raw : Str) (ls ls' : List Str) : Filled X ls ls' → Filled X (raw :: ls) (raw :: ls')
  | label (raw l : Str) (ls ls' : List Str) : kind raw = .label l → X l → Filled X ls ls' → Filled X ([] :: ls) (raw :: ls')

/-- names that are not in `X` stay -/
abbrev keep (syms : List (BitVec 32 × Str)) (X : Str → Prop) : Str → Str → Prop := fun a b => a = b ∧ Name syms a ∧ ¬ X a

section
variable {syms : List (BitVec 32 × Str)} {X : Str → Prop} {ls ls' : List Str}

theorem keep_renaming : Renaming syms (keep syms X) := by
  refine ⟨?_, ?_, ?_, ?_, ?_⟩
  · rintro a b c ⟨rfl, _⟩ ⟨rfl, _⟩; rfl
  · rintro a b c ⟨rfl, _⟩ ⟨rfl, _⟩; rfl
  · rintro a b ⟨_, h, _⟩; exact h
  · rintro a b ⟨rfl, h, _⟩; exact h
  · rintro a b ⟨rfl, _⟩; rfl

theorem keep_label (hX : ∀ l, X l → Name syms l) {a b : Str} : NewLabel syms (keep syms X) a b ↔ a = b ∧ ¬ X a := by
  constructor
  · rintro (⟨rfl, _, h⟩ | ⟨rfl, h⟩)
    · exact ⟨rfl, h⟩
    · exact ⟨rfl, fun k => h (hX _ k)⟩
  · rintro ⟨rfl, h⟩
    by_cases hn : Name syms a
    · exact .inl ⟨rfl, hn, h⟩
    · exact .inr ⟨rfl, hn⟩

theorem keep_operand {s : Str} (h : ¬ X (trim s)) : NewOperand syms (keep syms X) s s := by
  by_cases hn : Name syms (trim s)
  · exact .inl ⟨rfl, hn, h⟩
  · exact .inr ⟨rfl, hn⟩

theorem keep_loc (hX : ∀ l, X l → Name syms l) {a b : Str} (h : NewLabel syms (keep syms X) a b) : a = b := ((keep_label hX).1 h).1

/-! ### Lines -/

theorem kind_nil : kind [] = .blank := by decide

theorem Filled.line (h : Filled X ls ls') {k : Nat} {raw : Str} (hk : ls[k]? = some raw) :
    ls'[k]? = some raw ∨ (raw = [] ∧ ∃ raw' l, ls'[k]? = some raw' ∧ kind raw' = .label l ∧ X l) := by
  induction h generalizing k with
  | nil => simp at hk
  | same a _ _ _ ih =>
    cases k with
    | zero => simp at hk; subst hk; exact .inl (by simp)
    | succ k => simp at hk; simpa using ih hk
  | label a l _ _ h1 h2 _ ih =>
    cases k with
    | zero => simp at hk; subst hk; exact .inr ⟨rfl, a, l, by simp, h1, h2⟩
    | succ k => simp at hk; simpa using ih hk

theorem Filled.line' (h : Filled X ls ls') {k : Nat} {raw : Str} (hk : ls'[k]? = some raw) :
    ls[k]? = some raw ∨ (ls[k]? = some [] ∧ ∃ l, kind raw = .label l ∧ X l) := by
  induction h generalizing k with
  | nil => simp at hk
  | same a _ _ _ ih =>
    cases k with
    | zero => simp at hk; subst hk; exact .inl (by simp)
    | succ k => simp at hk; simpa using ih hk
  | label a l _ _ h1 h2 _ ih =>
    cases k with
    | zero => simp at hk; subst hk; exact .inr ⟨by simp, l, h1, h2⟩
    | succ k => simp at hk; simpa using ih hk

theorem Filled.length (h : Filled X ls ls') : ls.length = ls'.length := by
  induction h with
  | nil => rfl
  | same _ _ _ _ ih => simp [ih]
  | label _ _ _ _ _ _ _ ih => simp [ih]

theorem Filled.take (h : Filled X ls ls') (k : Nat) : Filled X (ls.take k) (ls'.take k) := by
  induction h generalizing k with
  | nil => simpa using Filled.nil
  | same a _ _ _ ih =>
    cases k with
    | zero => exact .nil
    | succ k => exact .same _ _ _ (ih k)
  | label a l _ _ h1 h2 _ ih =>
    cases k with
    | zero => exact .nil
    | succ k => exact .label _ l _ _ h1 h2 (ih k)

theorem Filled.count (h : Filled X ls ls') : codeCount ls = codeCount ls' := by
  unfold codeCount
  induction h with
  | nil => rfl
  | same a _ _ _ ih => simp only [List.filter_cons]; split <;> simp [ih]
  | label a l _ _ h1 h2 _ ih =>
    have e1 : isCode [] = false := by decide
    have e2 : isCode a = false := by unfold isCode; rw [h1]; rfl
    simp only [List.filter_cons, e1, e2]
    simpa using ih

theorem Filled.globals (hX : ∀ l, X l → isLocal l = true) (h : Filled X ls ls') : ∀ n n', (globalsFrom n ls).length = (globalsFrom n' ls').length := by
  induction h with
  | nil => intros; rfl
  | same a _ _ _ ih =>
    intro n n'
    simp only [globalsFrom]
    split
    · exact ih _ _
    · exact ih _ _
    · split
      · exact ih _ _
      · simp [ih n n']
  | label a l _ _ h1 h2 _ ih =>
    intro n n'
    simp only [globalsFrom, h1, kind_nil, hX l h2]
    exact ih _ _

theorem Filled.scope (hX : ∀ l, X l → isLocal l = true) (h : Filled X ls ls') (k : Nat) : scope ls k = scope ls' k :=
  (h.take k).globals hX 0 0

theorem Filled.def (h : Filled X ls ls') {d : Nat} {l : Str} (hd : Defines ls d l) : Defines ls' d l := by
  obtain ⟨raw, h1, h2⟩ := hd
  rcases h.line h1 with h3 | ⟨rfl, _⟩
  · exact ⟨raw, h3, h2⟩
  · rw [kind_nil] at h2; cases h2

theorem Filled.def' (h : Filled X ls ls') {d : Nat} {l : Str} (hd : Defines ls' d l) : Defines ls d l ∨ X l := by
  obtain ⟨raw, h1, h2⟩ := hd
  rcases h.line' h1 with h3 | ⟨_, l', h4, h5⟩
  · exact .inl ⟨raw, h3, h2⟩
  · rw [h2] at h4; cases h4; exact .inr h5

theorem Filled.visible (hX : ∀ l, X l → isLocal l = true) (h : Filled X ls ls') {k d : Nat} : Visible ls k d ↔ Visible ls' k d := by
  unfold Visible
  rw [h.scope hX, h.scope hX]
  refine or_congr Iff.rfl (and_congr Iff.rfl ⟨fun hv j raw hj hr hc => ?_, fun hv j raw hj hr hc => ?_⟩)
  · rw [← h.scope hX j]
    rcases h.line' hr with h3 | ⟨_, l, h4, _⟩
    · exact hv j raw hj h3 hc
    · rw [hc] at h4; cases h4
  · rw [h.scope hX j]
    rcases h.line hr with h3 | ⟨rfl, _⟩
    · exact hv j raw hj h3 hc
    · rw [kind_nil] at hc; cases hc

theorem Filled.chosen (hX : ∀ l, X l → isLocal l = true) (h : Filled X ls ls') {k d : Nat} {x : Str} (hx : ¬ X x) : Chosen ls k d x ↔ Chosen ls' k d x := by
  have hd : ∀ d, Defines ls d x ↔ Defines ls' d x := fun d => ⟨h.def, fun h1 => (h.def' h1).resolve_right hx⟩
  unfold Chosen
  simp only [hd, h.visible hX, h.scope hX]

theorem Filled.closed (hX : ∀ l, X l → isLocal l = true) (h : Filled X ls ls') (hc : HasClosedScope ls) : HasClosedScope ls' := by
  obtain ⟨d, g, y, h1, h2, h3, h4⟩ := hc
  exact ⟨d, g, y, h.def h1, h2, h3, by rw [← h.scope hX, ← h.scope hX]; exact h4⟩

/-! ### Steps -/

/-- the operand that a step looks at -/
def textOf : Step → Option Str
  | .base _ s | .offset _ s | .const _ s | .number _ s | .code s | .word32 s | .cop s | .target s => some s
  | _ => none

theorem steps_texts (mn w : Str) : ∀ (sig : List Role) (ops : List Str), ∀ st ∈ steps mn w sig ops, ∀ s, textOf st = some s → s ∈ ops := by
  intro sig ops
  fun_induction steps mn w sig ops
  all_goals intro st hst t ht
  all_goals simp only [List.mem_cons, List.not_mem_nil, or_false] at hst
  all_goals repeat' first
    | (obtain rfl | hst := hst)
    | (subst hst)
  all_goals first
    | (cases ht; done)
    | (cases ht; simp; done)
    | (rename_i ih; exact List.mem_cons_of_mem _ (ih _ hst t ht))

theorem step_keep {st : Step} (h : ∀ s, textOf st = some s → ¬ X (trim s) ∧ ∀ o, Offset s o → ∀ b, ¬ X (trim (offsetText b o))) :
    NewStep syms (keep syms X) st st := by
  cases st with
  | gpr | fpr | c0 | shamt | name | fname | format | cond | short => constructor
  | base b s => exact .base b s s fun _ => Iff.rfl
  | offset b s =>
    exact .offset b s s (fun o ho => ⟨o, ho, keep_operand ((h s rfl).2 o ho b)⟩) fun o ho => ⟨o, ho, keep_operand ((h s rfl).2 o ho b)⟩
  | const r s => exact .const _ _ _ (keep_operand (h s rfl).1)
  | number r s => exact .number _ _ _ (keep_operand (h s rfl).1)
  | code s => exact .code _ _ (keep_operand (h s rfl).1)
  | word32 s => exact .word32 _ _ (keep_operand (h s rfl).1)
  | cop s => exact .cop _ _ (keep_operand (h s rfl).1)
  | target s => exact .target _ _ (keep_operand (h s rfl).1)

theorem steps_keep {st : List Step} (h : ∀ x ∈ st, NewStep syms (keep syms X) x x) : NewSteps syms (keep syms X) st st := by
  induction st with
  | nil => exact .nil
  | cons a st ih => exact .cons _ _ _ _ (h a (by simp)) (ih fun x hx => h x (by simp [hx]))

theorem plan_keep [Unicode] {raw : Str} (hc : kind raw = .code) (hm : ∀ l, X l → ¬ Mentions raw l) {st : List Step} (hp : plan (body raw) = some st) :
    NewSteps syms (keep syms X) st st := by
  have ops : ∀ s ∈ operands (body raw), ¬ X (trim s) ∧ ∀ o, Offset s o → ∀ b, ¬ X (trim (offsetText b o)) := by
    intro s hs
    refine ⟨fun k => hm _ k ⟨hc, .inr ⟨s, hs, .inl rfl⟩⟩, fun o ho b k => ?_⟩
    cases b with
    | true => exact hm _ k ⟨hc, .inr ⟨s, hs, .inr ⟨o, ho, .inr rfl⟩⟩⟩
    | false => exact hm _ k ⟨hc, .inr ⟨s, hs, .inr ⟨o, ho, .inl rfl⟩⟩⟩
  unfold plan at hp
  simp only at hp
  split at hp
  · cases hp; exact .cons _ _ _ _ (.name _) .nil
  · split at hp
    · cases hp
      refine .cons _ _ _ _ (.number _ _ _ (keep_operand ?_)) .nil
      exact fun k => hm _ k ⟨hc, .inl rfl⟩
    · split at hp
      · cases hf : intSignatures.find? fun e => e.1 == mnemonic (body raw) && e.2.length == (operands (body raw)).length with
        | none => rw [hf] at hp; cases hp
        | some e =>
          rw [hf] at hp
          cases hp
          refine steps_keep fun x hx => step_keep fun s hs => ops s (steps_texts _ _ _ _ x hx s hs)
      · exact float_same hp

/-! ### Files -/

theorem corr_filled [Unicode] {ovf : Bool} {b : BitVec 32} (h : Filled X ls ls') (hn : New syms X ls) (hh : Harmless X ls) :
    Corr syms (keep syms X) ⟨ovf, b, syms, ls⟩ ⟨ovf, b, syms, ls'⟩ where
  ren := keep_renaming
  ovf := rfl
  base := rfl
  sy := rfl
  sy' := rfl
  len := h.length
  defs d l l' hl := by
    obtain ⟨rfl, hx⟩ := (keep_label hn.name).1 hl
    exact ⟨h.def, fun h1 => (h.def' h1).resolve_right hx⟩
  count k := (h.take k).count
  chosen k d x x' hx hloc := by
    obtain ⟨rfl, hy⟩ := (keep_label hn.name).1 hx
    rcases hh with hh | hh
    · exact h.chosen hh hy
    · constructor
      · intro hc
        have := hh _ _ hc.1
        rw [hloc] at this; cases this
      · intro hc
        have := hh _ _ ((h.def' hc.1).resolve_right hy)
        rw [hloc] at this; cases this
  code k raw h1 h2 := by
    have hk : ls'[k]? = some raw := by
      rcases h.line h1 with h3 | ⟨rfl, _⟩
      · exact h3
      · rw [kind_nil] at h2; cases h2
    exact ⟨raw, hk, h2, rfl, fun st hs => ⟨st, hs, plan_keep h2 (fun l hl => hn.unused l hl raw (List.mem_of_getElem? h1)) hs⟩⟩
  code' k raw h1 h2 := by
    have hk : ls[k]? = some raw := by
      rcases h.line' h1 with h3 | ⟨_, l, h4, _⟩
      · exact h3
      · rw [h2] at h4; cases h4
    exact ⟨raw, hk, h2, rfl, fun st hs => ⟨st, hs, plan_keep h2 (fun l hl => hn.unused l hl raw (List.mem_of_getElem? hk)) hs⟩⟩

theorem filled_iff [Unicode] {ovf : Bool} {b : BitVec 32} (h : Filled X ls ls') (hn : New syms X ls) (ho : Once X ls') (hh : Harmless X ls) :
    (LineEnds ⟨ovf, b, syms, ls⟩ ↔ LineEnds ⟨ovf, b, syms, ls'⟩) ∧ (Overflows ⟨ovf, b, syms, ls⟩ ↔ Overflows ⟨ovf, b, syms, ls'⟩) ∧
    (Lang.AllTaken ⟨ovf, b, syms, ls⟩ ↔ Lang.AllTaken ⟨ovf, b, syms, ls'⟩) ∧ (NoCode ⟨ovf, b, syms, ls⟩ ↔ NoCode ⟨ovf, b, syms, ls'⟩) ∧
    (BadPlace ⟨ovf, b, syms, ls'⟩ → BadPlace ⟨ovf, b, syms, ls⟩) ∧
    (HasClosedScope ls ∨ (∀ d l, Defines ls d l → isLocal l = false) → BadPlace ⟨ovf, b, syms, ls⟩ → BadPlace ⟨ovf, b, syms, ls'⟩) := by
  have hc : Corr syms (keep syms X) ⟨ovf, b, syms, ls⟩ ⟨ovf, b, syms, ls'⟩ := corr_filled h hn hh
  refine ⟨⟨lineEnds_new hc, lineEnds_new hc.symm⟩, ⟨overflows_new hc, overflows_new hc.symm⟩, ⟨allTaken_new hc ?_, allTaken_new hc.symm ?_⟩,
    ⟨noCode_new hc, noCode_new hc.symm⟩, badPlace_new hc.symm ?_, fun hcl => badPlace_new hc ?_⟩
  · intro k l hd
    by_cases hx : X l
    · right
      obtain ⟨c, t, e, h1, h2, _⟩ := (hn.name l hx).head
      refine ⟨⟨c, t, e, by rw [Unicode.isNumeric_ascii c h1]; exact h2⟩, fun hl d hdk hd' => ?_⟩
      have := ho l hx hl d k hd' hd
      omega
    · exact .inl ⟨l, (keep_label hn.name).2 ⟨rfl, hx⟩, (h.def' hd).resolve_right hx⟩
  · intro k l hd
    have hx : ¬ X l := fun hx => hn.undefined l hx k hd
    exact .inl ⟨l, ((keep_label hn.name).2 ⟨rfl, hx⟩).symm, h.def hd⟩
  · intro k d x x' hx hch hloc hcl
    rcases hh with hh | hh
    · exact h.closed hh hcl
    · have := hh _ _ hch.1
      rw [hloc] at this; cases this
  · intro k d x x' hx hch hloc _
    rcases hcl with hcl | hcl
    · exact hcl
    · obtain ⟨rfl, hy⟩ := (keep_label hn.name).1 hx
      have := hcl _ _ ((h.def' hch.1).resolve_right hy)
      rw [hloc] at this; cases this

end
end Mips.Fresh
