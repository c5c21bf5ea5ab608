/- Renamed labels: lines and files. -/
import Verif.Lemmas.RenameL

namespace Mips.Rename
open Mips.Isa hiding conds
open Mips.Names hiding none
open Mips.Syntax Mips.Source Mips.Branch Mips.Operands
open Mips.Lang

/-! ### Signatures -/

theorem sig_unique_aux : ∀ e ∈ signatures, ∀ e' ∈ signatures, e.1 = e'.1 → e.2.length = e'.2.length → e.2 = e'.2 := by decide +kernel

theorem sig_dotted_aux : ∀ e ∈ signatures, '.' ∈ e.1 → ∀ r ∈ e.2, r = .fpr := by decide +kernel

theorem sig_names_aux : ∀ e ∈ signatures, e.1 ∉ Names.none ∧ e.1 ≠ c!".word" := by decide +kernel

section
variable [Unicode] {syms : List (BitVec 32 × Str)} {R : Str → Str → Prop}

omit [Unicode] in
theorem NewTexts.length {sig : List Role} {l l' : List Str} (h : NewTexts syms R sig l l') : sig.length = l.length ∧ sig.length = l'.length := by
  induction h with
  | nil => exact ⟨rfl, rfl⟩
  | cons _ _ _ _ _ _ _ _ ih => simp [ih.1, ← ih.2]

omit [Unicode] in
theorem NewTexts.fpr {sig : List Role} {l l' : List Str} (h : NewTexts syms R sig l l') (hs : ∀ r ∈ sig, r = .fpr) : l = l' := by
  induction h with
  | nil => rfl
  | cons role s s' rs l l' h1 _ ih =>
    cases hs role (by simp)
    rw [show s = s' from h1, ih fun r hr => hs r (by simp [hr])]

theorem mnemonic_word {s s' : Str} (h : firstWord s = firstWord s') : mnemonic s = mnemonic s' := by
  unfold mnemonic; rw [h]

theorem NewOperands.symm {s s' : Str} (hw : firstWord s = firstWord s') (h : NewOperands syms R s s') : NewOperands syms (inv R) s' s := by
  have hm := mnemonic_word hw
  cases h with
  | known sig h1 h2 => exact .known sig (hm ▸ h1) h2.symm
  | word h1 h2 => exact .word (hm ▸ h1) h2.symm
  | other h1 h2 h3 => exact .other (hm ▸ h1) (by rw [← hm, ← h3]; exact h2) h3.symm

theorem NewLine.symm {raw raw' : Str} (h : NewLine syms R raw raw') : NewLine syms (inv R) raw' raw := by
  cases h with
  | blank h1 h2 => exact .blank h2 h1
  | label l l' h1 h2 h3 => exact .label l' l h2 h1 h3.symm
  | code h1 h2 h3 h4 => exact .code h2 h1 h3.symm (h4.symm h3)

theorem NewFile.symm {ls ls' : List Str} (h : NewFile syms R ls ls') : NewFile syms (inv R) ls' ls := by
  induction h with
  | nil => exact .nil
  | cons _ _ _ _ h _ ih => exact .cons _ _ _ _ h.symm ih

theorem NewFile.length {ls ls' : List Str} (h : NewFile syms R ls ls') : ls.length = ls'.length := by
  induction h with
  | nil => rfl
  | cons _ _ _ _ _ _ ih => simp [ih]

theorem NewFile.line {ls ls' : List Str} (h : NewFile syms R ls ls') {k : Nat} {raw : Str} (hk : ls[k]? = some raw) :
    ∃ raw', ls'[k]? = some raw' ∧ NewLine syms R raw raw' := by
  induction h generalizing k with
  | nil => simp at hk
  | cons a b _ _ h _ ih =>
    cases k with
    | zero => simp at hk; subst hk; exact ⟨b, by simp, h⟩
    | succ k => simp at hk; simpa using ih hk

theorem NewFile.take {ls ls' : List Str} (h : NewFile syms R ls ls') (k : Nat) : NewFile syms R (ls.take k) (ls'.take k) := by
  induction h generalizing k with
  | nil => simpa using NewFile.nil
  | cons a b _ _ h _ ih =>
    cases k with
    | zero => exact .nil
    | succ k => exact .cons _ _ _ _ h (ih k)

theorem NewFile.count {ls ls' : List Str} (h : NewFile syms R ls ls') : codeCount ls = codeCount ls' := by
  unfold codeCount
  induction h with
  | nil => rfl
  | cons a b _ _ h _ ih =>
    have : isCode a = isCode b := by
      unfold isCode
      cases h with
      | blank h1 h2 => rw [h1, h2]
      | label l l' h1 h2 => rw [h1, h2]; rfl
      | code h1 h2 => rw [h1, h2]
    simp only [List.filter_cons, this]
    split <;> simp [ih]

theorem NewFile.globals (hR : Renaming syms R) {ls ls' : List Str} (h : NewFile syms R ls ls') :
    ∀ n n', (globalsFrom n ls).length = (globalsFrom n' ls').length := by
  induction h with
  | nil => intros; rfl
  | cons a b _ _ h _ ih =>
    intro n n'
    cases h with
    | blank h1 h2 => simp only [globalsFrom, h1, h2]; exact ih _ _
    | label l l' h1 h2 h3 =>
      simp only [globalsFrom, h1, h2, h3.loc hR]
      split
      · exact ih _ _
      · simp [ih n n']
    | code h1 h2 => simp only [globalsFrom, h1, h2]; exact ih _ _

theorem NewFile.scope (hR : Renaming syms R) {ls ls' : List Str} (h : NewFile syms R ls ls') (k : Nat) : scope ls k = scope ls' k :=
  (h.take k).globals hR 0 0

theorem NewFile.def {ls ls' : List Str} (h : NewFile syms R ls ls') {d : Nat} {l : Str} (hd : Defines ls d l) :
    ∃ l', NewLabel syms R l l' ∧ Defines ls' d l' := by
  obtain ⟨raw, h1, h2⟩ := hd
  obtain ⟨raw', h3, h4⟩ := h.line h1
  cases h4 with
  | blank k1 => rw [h2] at k1; cases k1
  | label a b k1 k2 k3 => rw [h2] at k1; cases k1; exact ⟨b, k3, raw', h3, k2⟩
  | code k1 => rw [h2] at k1; cases k1

theorem NewFile.def_to (hR : Renaming syms R) {ls ls' : List Str} (h : NewFile syms R ls ls') {d : Nat} {l l' : Str} (hl : NewLabel syms R l l')
    (hd : Defines ls d l) : Defines ls' d l' := by
  obtain ⟨l2, h1, h2⟩ := h.def hd
  rw [hl.to hR h1]; exact h2

theorem NewFile.isCode {ls ls' : List Str} (h : NewFile syms R ls ls') {k : Nat} {raw : Str} (hk : ls[k]? = some raw) (hc : kind raw = .code) :
    ∃ raw', ls'[k]? = some raw' ∧ kind raw' = .code := by
  obtain ⟨raw', h3, h4⟩ := h.line hk
  cases h4 with
  | blank k1 => rw [hc] at k1; cases k1
  | label a b k1 => rw [hc] at k1; cases k1
  | code k1 k2 => exact ⟨raw', h3, k2⟩

theorem visible_new (hR : Renaming syms R) {ls ls' : List Str} (h : NewFile syms R ls ls') {k d : Nat} (hv : Visible ls k d) : Visible ls' k d := by
  rcases hv with hv | ⟨h1, h2⟩
  · exact .inl (by rw [← h.scope hR]; exact hv)
  · refine .inr ⟨by rw [← h.scope hR, ← h.scope hR]; exact h1, fun j raw' hj hr hc => ?_⟩
    obtain ⟨raw, k1, k2⟩ := h.symm.isCode hr hc
    rw [← h.scope hR, ← h.scope hR]
    exact h2 j raw hj k1 k2

theorem chosen_new (hR : Renaming syms R) {ls ls' : List Str} (h : NewFile syms R ls ls') {k d : Nat} {x x' : Str} (hx : NewLabel syms R x x')
    (hc : Chosen ls k d x) : Chosen ls' k d x' := by
  obtain ⟨h1, h2, h3, h4⟩ := hc
  refine ⟨h.def_to hR hx h1, visible_new hR h h2, fun d' k1 k2 => ?_, fun d' k1 k2 => ?_⟩
  · rw [← h.scope hR, ← h.scope hR]
    exact h3 d' (h.symm.def_to hR.symm hx.symm k1) (visible_new hR.symm h.symm k2)
  · rw [← h.scope hR, ← h.scope hR]
    exact h4 d' k1 (h.symm.def_to hR.symm hx.symm k2)

theorem closed_new (hR : Renaming syms R) {ls ls' : List Str} (h : NewFile syms R ls ls') (hc : HasClosedScope ls) : HasClosedScope ls' := by
  obtain ⟨d, g, y, h1, h2, h3, h4⟩ := hc
  obtain ⟨y', k1, k2⟩ := h.def h1
  exact ⟨d, g, y', k2, by rw [← k1.loc hR]; exact h2, h3, by rw [← h.scope hR, ← h.scope hR]; exact h4⟩

theorem first_new (hR : Renaming syms R) {ls ls' : List Str} (h : NewFile syms R ls ls') {d : Nat} {x x' : Str} (hx : NewLabel syms R x x')
    (hf : FirstDef ls d x) : FirstDef ls' d x' :=
  ⟨h.def_to hR hx hf.1, hx.glob hR hf.2.1, fun d' k1 k2 => hf.2.2 d' k1 (h.symm.def_to hR.symm hx.symm k2)⟩

/-! ### Instructions -/

theorem float_same {w : Str} {ops : List Str} {st : List Step} (h : floatPlan w ops = some st) : NewSteps syms R st st := by
  have key : ∀ (ops : List Str) (tl : List Step), NewSteps syms R tl tl → NewSteps syms R (ops.map .fpr ++ tl) (ops.map .fpr ++ tl) := by
    intro ops tl ht
    induction ops with
    | nil => exact ht
    | cons a ops ih => exact .cons _ _ _ _ (.fpr _) ih
  unfold floatPlan at h
  split at h
  · cases h; exact .cons _ _ _ _ .short .nil
  · split at h
    · split at h
      · cases h; exact key _ _ (.cons _ _ _ _ (.fname _) .nil)
      · cases h
    · split at h
      · split at h
        · cases h; exact key _ _ (.cons _ _ _ _ (.fname _) .nil)
        · cases h
      · split at h
        · split at h
          · cases h; exact key _ _ (.cons _ _ _ _ (.format _) (.cons _ _ _ _ (.cond _) .nil))
          · cases h
        · cases h

theorem plan_new (hR : Renaming syms R) {s s' : Str} (hw : firstWord s = firstWord s') (h : NewOperands syms R s s') {st : List Step} (hp : plan s = some st) :
    ∃ st', plan s' = some st' ∧ NewSteps syms R st st' := by
  have hm := mnemonic_word hw
  unfold plan at hp ⊢
  simp only [← hw, ← hm] at hp ⊢
  by_cases h1 : mnemonic s ∈ Names.none
  · rw [if_pos h1] at hp ⊢
    cases hp
    exact ⟨_, rfl, .cons _ _ _ _ (.name _) .nil⟩
  · rw [if_neg h1] at hp ⊢
    by_cases h2 : mnemonic s = c!".word"
    · rw [if_pos h2] at hp ⊢
      cases hp
      cases h with
      | known sig k1 => exact absurd h2 (sig_names_aux _ k1).2
      | word _ k => exact ⟨_, rfl, .cons _ _ _ _ (.number _ _ _ k) .nil⟩
      | other k => exact absurd h2 k
    · rw [if_neg h2] at hp ⊢
      have same : operands s = operands s' → ¬ (∃ sig, (mnemonic s, sig) ∈ intSignatures ∧ sig.length = (operands s).length) →
          ∃ st', (if (intSignatures.any fun e => e.1 == mnemonic s) = true then
            (intSignatures.find? fun e => e.1 == mnemonic s && e.2.length == (operands s').length).map fun e => steps (mnemonic s) (firstWord s) e.2 (operands s')
            else floatPlan (firstWord s) (operands s')) = some st' ∧ NewSteps syms R st st' := by
        intro he hno
        rw [← he]
        by_cases h3 : (intSignatures.any fun e => e.1 == mnemonic s) = true
        · rw [if_pos h3] at hp
          cases hf : intSignatures.find? fun e => e.1 == mnemonic s && e.2.length == (operands s).length with
          | none => rw [hf] at hp; cases hp
          | some e =>
            have := List.find?_some hf
            have hmem := List.mem_of_find?_eq_some hf
            simp only [Bool.and_eq_true, beq_iff_eq] at this
            exact absurd ⟨e.2, by rw [← this.1]; exact hmem, this.2⟩ hno
        · rw [if_neg h3] at hp ⊢
          exact ⟨st, hp, float_same hp⟩
      cases h with
      | word k => exact absurd k h2
      | other _ k1 k2 =>
        refine same k2 ?_
        rintro ⟨sig, k3, k4⟩
        exact k1 sig (List.mem_filter.1 k3).1 k4
      | known sig k1 k2 =>
        by_cases hd : '.' ∈ mnemonic s
        · refine same (k2.fpr (sig_dotted_aux _ k1 hd)) ?_
          rintro ⟨sig', k3, _⟩
          have := (List.mem_filter.1 k3).2
          simp only [Bool.not_eq_true', List.contains_eq_mem, decide_eq_false_iff_not] at this
          exact this hd
        · have hin : (mnemonic s, sig) ∈ intSignatures := by
            refine List.mem_filter.2 ⟨k1, ?_⟩
            simp only [Bool.not_eq_true', List.contains_eq_mem, decide_eq_false_iff_not]
            exact hd
          have h3 : (intSignatures.any fun e => e.1 == mnemonic s) = true := List.any_eq_true.2 ⟨_, hin, by simp⟩
          rw [if_pos h3] at hp ⊢
          have hl := k2.length
          have find : ∀ l : List Str, sig.length = l.length →
              intSignatures.find? (fun e => e.1 == mnemonic s && e.2.length == l.length) = some (mnemonic s, sig) := by
            intro l hl
            cases hf : intSignatures.find? fun e => e.1 == mnemonic s && e.2.length == l.length with
            | none =>
              have := List.find?_eq_none.1 hf _ hin
              simp [hl] at this
            | some e =>
              have h5 := List.find?_some hf
              have hmem := List.mem_of_find?_eq_some hf
              simp only [Bool.and_eq_true, beq_iff_eq] at h5
              have := sig_unique_aux e (List.mem_filter.1 hmem).1 _ k1 h5.1 (by rw [h5.2, ← hl])
              obtain ⟨e1, e2⟩ := e
              simp only at this h5
              rw [this, h5.1]
          rw [find _ hl.1] at hp
          rw [find _ hl.2]
          simp only [Option.map_some, Option.some.injEq] at hp
          subst hp
          exact ⟨_, rfl, steps_new hR _ _ k2⟩

/-- Files that correspond. -/
structure Corr (syms : List (BitVec 32 × Str)) (R : Str → Str → Prop) (f f' : File) : Prop where
  ren : Renaming syms R
  ovf : f.ovf = f'.ovf
  base : f.base = f'.base
  sy : f.syms = syms
  sy' : f'.syms = syms
  len : f.ls.length = f'.ls.length
  defs : ∀ d l l', NewLabel syms R l l' → (Defines f.ls d l ↔ Defines f'.ls d l')
  count : ∀ k, codeCount (f.ls.take k) = codeCount (f'.ls.take k)
  chosen : ∀ k d x x', NewLabel syms R x x' → isLocal x = true → (Chosen f.ls k d x ↔ Chosen f'.ls k d x')
  code : ∀ (k : Nat) raw, f.ls[k]? = some raw → kind raw = .code → ∃ raw', f'.ls[k]? = some raw' ∧ kind raw' = .code ∧
    firstWord (body raw) = firstWord (body raw') ∧ ∀ st, plan (body raw) = some st → ∃ st', plan (body raw') = some st' ∧ NewSteps syms R st st'
  code' : ∀ (k : Nat) raw', f'.ls[k]? = some raw' → kind raw' = .code → ∃ raw, f.ls[k]? = some raw ∧ kind raw = .code ∧
    firstWord (body raw) = firstWord (body raw') ∧ ∀ st', plan (body raw') = some st' → ∃ st, plan (body raw) = some st ∧ NewSteps syms R st st'

variable {f f' : File}

theorem Corr.symm (h : Corr syms R f f') : Corr syms (inv R) f' f where
  ren := h.ren.symm
  ovf := h.ovf.symm
  base := h.base.symm
  sy := h.sy'
  sy' := h.sy
  len := h.len.symm
  defs d l l' hl := (h.defs d l' l hl.symm).symm
  count k := (h.count k).symm
  chosen k d x x' hx hl := (h.chosen k d x' x hx.symm (by rw [← hx.loc h.ren.symm]; exact hl)).symm
  code k raw h1 h2 := by
    obtain ⟨r, k1, k2, k3, k4⟩ := h.code' k raw h1 h2
    refine ⟨r, k1, k2, k3.symm, fun st hs => ?_⟩
    obtain ⟨st', g1, g2⟩ := k4 st hs
    exact ⟨st', g1, g2.symm⟩
  code' k raw h1 h2 := by
    obtain ⟨r, k1, k2, k3, k4⟩ := h.code k raw h1 h2
    refine ⟨r, k1, k2, k3.symm, fun st hs => ?_⟩
    obtain ⟨st', g1, g2⟩ := k4 st hs
    exact ⟨st', g1, g2.symm⟩

theorem Corr.place (h : Corr syms R f f') (k : Nat) : SamePlace syms R (f.place k) (f'.place k) :=
  ⟨h.ren, h.ovf, h.sy, h.sy', rfl, h.defs⟩

theorem Corr.total (h : Corr syms R f f') : codeCount f.ls = codeCount f'.ls := by
  have := h.count f.ls.length
  rw [List.take_length, h.len, List.take_length] at this
  exact this

theorem Corr.first (h : Corr syms R f f') {d : Nat} {x x' : Str} (hx : NewLabel syms R x x') (hf : FirstDef f.ls d x) : FirstDef f'.ls d x' :=
  ⟨(h.defs d x x' hx).1 hf.1, hx.glob h.ren hf.2.1, fun d' k1 k2 => hf.2.2 d' k1 ((h.defs d' x x' hx).2 k2)⟩

/-- renamed files -/
theorem corr_of {ovf : Bool} {b : BitVec 32} {ls ls' : List Str} (hR : Renaming syms R) (h : NewFile syms R ls ls') :
    Corr syms R ⟨ovf, b, syms, ls⟩ ⟨ovf, b, syms, ls'⟩ where
  ren := hR
  ovf := rfl
  base := rfl
  sy := rfl
  sy' := rfl
  len := h.length
  defs _ _ _ hl := ⟨h.def_to hR hl, h.symm.def_to hR.symm hl.symm⟩
  count k := (h.take k).count
  chosen _ _ _ _ hx _ := ⟨chosen_new hR h hx, chosen_new hR.symm h.symm hx.symm⟩
  code k raw h1 h2 := by
    obtain ⟨raw', k1, k2⟩ := h.line h1
    cases k2 with
    | blank e => rw [h2] at e; cases e
    | label l l' e => rw [h2] at e; cases e
    | code e1 e2 e3 e4 => exact ⟨raw', k1, e2, e3, fun st hs => plan_new hR e3 e4 hs⟩
  code' k raw h1 h2 := by
    obtain ⟨raw', k1, k2⟩ := h.symm.line h1
    cases k2 with
    | blank e => rw [h2] at e; cases e
    | label l l' e => rw [h2] at e; cases e
    | code e1 e2 e3 e4 =>
      refine ⟨raw', k1, e2, e3.symm, fun st hs => ?_⟩
      obtain ⟨st', g1, g2⟩ := plan_new hR.symm e3 e4 hs
      exact ⟨st', g1, g2.symm⟩

theorem defines_kind {ls : List Str} {k : Nat} {raw l : Str} (h1 : ls[k]? = some raw) (h2 : Defines ls k l) : kind raw = .label l := by
  obtain ⟨r, e1, e2⟩ := h2
  rw [h1] at e1; cases e1; exact e2

theorem lineEnds_new (h : Corr syms R f f') (ho : LineEnds f) : LineEnds f' := by
  obtain ⟨k, raw, h1, h2⟩ := ho
  unfold LineCrashes at h2
  cases hk : kind raw with
  | blank => rw [hk] at h2; cases h2
  | label l =>
    rw [hk] at h2
    have h2 : l = [] := h2
    subst h2
    have hn : NewLabel syms R [] [] := .inr ⟨rfl, fun hN => by obtain ⟨c, t, e, _⟩ := hN.head; cases e⟩
    obtain ⟨raw', e1, e2⟩ := (h.defs k [] [] hn).1 ⟨raw, h1, hk⟩
    exact ⟨k, raw', e1, by unfold LineCrashes; rw [e2]⟩
  | code =>
    rw [hk] at h2
    obtain ⟨st, k1, k2⟩ := h2
    obtain ⟨raw', g1, g2, _, g4⟩ := h.code k raw h1 hk
    obtain ⟨st', g5, g6⟩ := g4 st k1
    exact ⟨k, raw', g1, by unfold LineCrashes; rw [g2]; exact ⟨st', g5, stops_new (h.place k) g6 k2⟩⟩

theorem allTaken_new (h : Corr syms R f f')
    (hl : ∀ k l', Defines f'.ls k l' → (∃ l, NewLabel syms R l l' ∧ Defines f.ls k l) ∨
      ((∃ c t, l' = c :: t ∧ Unicode.isNumeric c = false) ∧ (isLocal l' = false → ∀ d < k, ¬ Defines f'.ls d l')))
    (ho : Lang.AllTaken f) : Lang.AllTaken f' := by
  intro k raw' h1
  unfold LineTaken
  cases hk : kind raw' with
  | blank => trivial
  | label l' =>
    show (∃ c t, l' = c :: t ∧ Unicode.isNumeric c = false) ∧ (isLocal l' = false → ∀ d < k, ¬ Defines f'.ls d l')
    rcases hl k l' ⟨raw', h1, hk⟩ with ⟨l, k1, raw, k2, k3⟩ | h2
    · have := ho k raw k2
      unfold LineTaken at this
      rw [k3] at this
      obtain ⟨j1, j2⟩ := this
      refine ⟨k1.head h.ren j1, fun k4 d k5 k6 => ?_⟩
      exact j2 (by rw [k1.loc h.ren]; exact k4) d k5 ((h.defs d l l' k1).2 k6)
    · exact h2
  | code =>
    obtain ⟨raw, g1, g2, _, g4⟩ := h.code' k raw' h1 hk
    have := ho k raw g1
    unfold LineTaken at this
    rw [g2] at this
    obtain ⟨st, k1, k2⟩ := this
    obtain ⟨raw2, j1, j2, _, j4⟩ := h.code k raw g1 g2
    rw [h1] at j1; cases j1
    obtain ⟨st', g5, g6⟩ := j4 st k1
    exact ⟨st', g5, allReads_new (h.place k) g6 k2⟩

theorem instr_new (h : Corr syms R f f') {k : Nat} {st : List Step} (hi : Instr f k st) : ∃ st', Instr f' k st' ∧ NewSteps syms R st st' := by
  obtain ⟨raw, h1, h2, h3, h4⟩ := hi
  obtain ⟨raw', k1, k2, _, k4⟩ := h.code k raw h1 h2
  obtain ⟨st', g1, g2⟩ := k4 st h3
  exact ⟨st', ⟨raw', k1, k2, g1, allReads_new (h.place k) g2 h4⟩, g2⟩

theorem counted_new (h : Corr syms R f f') {k n : Nat} (hc : Counted f k n) : Counted f' k n := by
  induction hc with
  | none => exact .none
  | inst k n st _ hi ih =>
    obtain ⟨st', h1, _⟩ := instr_new h hi
    exact .inst k n st' ih h1
  | other k n _ hk hi ih =>
    refine .other k n ih (by rw [← h.len]; exact hk) fun st' h1 => ?_
    obtain ⟨st, h2, _⟩ := instr_new h.symm h1
    exact hi st h2

omit [Unicode] in
theorem constant_new {st st' : List Step} (hs : NewSteps syms R st st') {t : Str} (hc : Constant st t) :
    ∃ t', Constant st' t' ∧ NewOperand syms R t t' := by
  rcases hc with ⟨r, hc⟩ | ⟨b, s, o, hc, ho, rfl⟩
  · obtain ⟨y, h1, h2⟩ := hs.mem hc
    cases h2 with
    | const _ _ s' h3 => exact ⟨s', .inl ⟨r, h1⟩, h3⟩
  · obtain ⟨y, h1, h2⟩ := hs.mem hc
    cases h2 with
    | offset _ _ s' h3 _ =>
      obtain ⟨o', k1, k2⟩ := h3 o ho
      exact ⟨_, .inr ⟨b, s', o', h1, k1, rfl⟩, k2⟩

omit [Unicode] in
theorem const_mem {st st' : List Step} (hs : NewSteps syms R st st') {r : Lang.Range} {t : Str} (hc : .const r t ∈ st) :
    ∃ t', .const r t' ∈ st' ∧ NewOperand syms R t t' := by
  obtain ⟨y, h1, h2⟩ := hs.mem hc
  cases h2 with
  | const _ _ s' h3 => exact ⟨s', h1, h3⟩

omit [Unicode] in
theorem target_mem {st st' : List Step} (hs : NewSteps syms R st st') {t : Str} (hc : .target t ∈ st) :
    ∃ t', .target t' ∈ st' ∧ NewOperand syms R t t' := by
  obtain ⟨y, h1, h2⟩ := hs.mem hc
  cases h2 with
  | target _ s' h3 => exact ⟨s', h1, h3⟩

theorem noRoom_new (h : Corr syms R f f') {n : Nat} (hn : NoRoom f n) : NoRoom f' n := by
  unfold NoRoom at *; rw [← h.base]; exact hn

theorem overflows_new (h : Corr syms R f f') (ho : Overflows f) : Overflows f' := by
  obtain ⟨h1, k, st, t, hi, hx⟩ := ho
  obtain ⟨st', hi', hs⟩ := instr_new h hi
  refine ⟨h.ovf ▸ h1, k, st', ?_⟩
  rcases hx with ⟨h2, ⟨v, h3⟩, n, h4, h5⟩ | ⟨h2, h3, d, n, h4, h5, h6⟩
  · obtain ⟨t', g1, g2⟩ := const_mem hs h2
    exact ⟨t', hi', .inl ⟨g1, ⟨v, number_new (h.place k) g2 h3⟩, n, by rw [← h.len]; exact counted_new h h4, noRoom_new h h5⟩⟩
  · obtain ⟨t', g1, g2⟩ := target_mem hs h2
    exact ⟨t', hi', .inr ⟨g1, labelName_new (h.place k) g2 h3, d, n, h.first g2.label h4, counted_new h h5, noRoom_new h h6⟩⟩

theorem badPlace_new (h : Corr syms R f f') (hc : ∀ k d x x', NewLabel syms R x x' → Chosen f'.ls k d x' → isLocal x' = true →
    HasClosedScope f'.ls → HasClosedScope f.ls) (ho : BadPlace f) : BadPlace f' := by
  obtain ⟨k, st, t, hi, hx⟩ := ho
  obtain ⟨st', hi', hs⟩ := instr_new h hi
  rcases hx with ⟨h2, h3, h4⟩ | ⟨h2, h3, h4⟩ | ⟨h2, v, h3, h4⟩
  · obtain ⟨t', g1, g2⟩ := constant_new hs h2
    refine ⟨k, st', t', hi', .inl ⟨g1, by rw [← g2.label.loc h.ren]; exact h3, ?_⟩⟩
    rintro ⟨k1, d, k2⟩
    exact h4 ⟨hc k d _ _ g2.label k2 (by rw [← g2.label.loc h.ren]; exact h3) k1, d, (h.chosen _ _ _ _ g2.label h3).2 k2⟩
  · obtain ⟨t', g1, g2⟩ := target_mem hs h2
    exact ⟨k, st', t', hi', .inr (.inl ⟨g1, labelName_new (h.place k) g2 h3, fun d hd => h4 d (h.symm.first g2.symm.label hd)⟩)⟩
  · obtain ⟨t', g1, g2⟩ := const_mem hs h2
    exact ⟨k, st', t', hi', .inr (.inr ⟨g1, v, number_new (h.place k) g2 h3, by rw [← h.base, ← h.total]; exact h4⟩)⟩

theorem notRefers_new (h : Corr syms R f f') {k : Nat} {t t' : Str} (ht : NewOperand syms R t t') (hn : ¬ RefersTo (f.place k) t) :
    ¬ RefersTo (f'.place k) t' := fun h' => hn ((refers_iff (h.place k) ht).2 h')

theorem group_new (h : Corr syms R f f') {t t' m : Str} (ht : NewOperand syms R t t') (hg : Group t m) : Group t' m := by
  rcases ht with ht | ⟨rfl, _⟩
  · exact absurd hg (name_group (h.ren.name _ _ ht))
  · exact hg

theorem distance_new (h : Corr syms R f f') {k : Nat} {t t' : Str} (ht : NewOperand syms R t t') {o : Int} (hd : Distance f k t o) :
    Distance f' k t' o := by
  cases hd with
  | «local» d h1 h2 =>
    rw [h.count, h.count]
    exact .local d (by rw [← ht.label.loc h.ren]; exact h1) ((h.chosen _ _ _ _ ht.label h1).1 h2)
  | label d h1 h2 =>
    rw [h.count, h.count]
    exact .label d h1 (h.first ht.label h2)
  | number v h1 =>
    rw [h.count]
    exact .number v (number_new (h.place k) ht h1)
  | half m v h1 h2 h3 => exact .half m _ (notRefers_new h ht h1) (group_new h ht h2) (value_new (h.place k) ht h3)

theorem noCode_new (h : Corr syms R f f') (ho : NoCode f) : NoCode f' := by
  obtain ⟨k, raw, h1, h2, h3⟩ := ho
  obtain ⟨raw', k1, e2, e3, _⟩ := h.code k raw h1 h2
  have hm := mnemonic_word e3
  refine ⟨k, raw', k1, e2, ?_⟩
  rw [← hm]
  rcases h3 with h3 | ⟨h3, h4, st, t, o, hi, hc, hd, hz⟩
  · exact .inl h3
  · obtain ⟨st', hi', hs⟩ := instr_new h hi
    obtain ⟨t', g1, g2⟩ := const_mem hs hc
    exact .inr ⟨h.ovf ▸ h3, h4, st', t', o, hi', g1, distance_new h g2 hd, hz⟩

/-! ### Code -/

theorem const_new (h : Corr syms R f f') {k : Nat} {r : Lang.Range} {t t' : Str} (ht : NewOperand syms R t t') {v : Int}
    (hc : Lang.Const f k r t v) : Lang.Const f' k r t' v := by
  have hd : ∀ d, Lang.distance f k d = Lang.distance f' k d := fun d => by unfold Lang.distance; rw [h.count, h.count]
  cases hc with
  | «local» d h1 h2 => rw [hd]; exact .local d (by rw [← ht.label.loc h.ren]; exact h1) ((h.chosen _ _ _ _ ht.label h1).1 h2)
  | label d h1 h2 => rw [hd]; exact .label d h1 (h.first ht.label h2)
  | value _ h1 h2 h3 => exact .value v h1 (notRefers_new h ht h2) (value_new (h.place k) ht h3)
  | place v h1 h2 => rw [h.count]; exact .place v h1 (number_new (h.place k) ht h2)
  | half m _ h1 h2 h3 h4 => exact .half m v h1 (notRefers_new h ht h2) (group_new h ht h3) (value_new (h.place k) ht h4)

theorem yields_new (h : Corr syms R f f') {k : Nat} {a b : Step} (hs : NewStep syms R a b) {vs : List Val} (hy : Yields f k a vs) :
    Yields f' k b vs := by
  cases hs with
  | gpr => cases hy; exact .gpr _ _ _ ‹_›
  | fpr => cases hy; exact .fpr _ _ ‹_›
  | c0 => cases hy; exact .c0 _ _ ‹_›
  | shamt => cases hy; exact .shamt _ _ ‹_›
  | name => cases hy; exact .name _
  | fname => cases hy; exact .fname _
  | format => cases hy; exact .format _
  | cond => cases hy; exact .cond _
  | short => cases hy
  | base b s s' ho =>
    cases hy with
    | base _ _ m r h1 h2 => exact .base b s' m r ((ho m).1 h1) h2
  | offset b s s' ho ho' =>
    cases hy with
    | offset _ _ o v h1 h2 =>
      obtain ⟨o', k1, k2⟩ := ho o h1
      exact .offset b s' o' v k1 (const_new h k2 h2)
    | noOffset _ _ h1 =>
      refine .noOffset b s' fun o' h' => ?_
      obtain ⟨o, k1, _⟩ := ho' o' h'
      exact h1 o k1
  | const r s s' ho => cases hy with | const _ _ v h1 => exact .const r s' v (const_new h ho h1)
  | number r s s' ho => cases hy with | number _ _ v h1 => exact .number r s' v (value_new (h.place k) ho h1)
  | code s s' ho =>
    cases hy with
    | code _ v h1 h2 => exact .code s' v (fun e => h1 (nil_new (h.place k).symm ho.symm e)) (value_new (h.place k) ho h2)
    | noCode => rw [nil_new (h.place k) ho rfl]; exact .noCode
  | word32 s s' ho => cases hy with | word32 _ v h1 => exact .word32 s' v (value_new (h.place k) ho h1)
  | cop s s' ho => cases hy with | cop _ v h1 => exact .cop s' v (value_new (h.place k) ho h1)
  | target s s' ho =>
    cases hy with
    | target _ a h1 => exact .target s' a (address_new (h.place k) ho h1)
    | label _ d h1 h2 =>
      rw [h.base, h.count]
      exact .label s' d (labelName_new (h.place k) ho h1) (h.first ho.label h2)

theorem values_new (h : Corr syms R f f') {k : Nat} {a b : List Step} (hs : NewSteps syms R a b) {vs : List Val} (hy : Values f k a vs) :
    Values f' k b vs := by
  induction hs generalizing vs with
  | nil => cases hy; exact .nil
  | cons c d as bs h1 _ ih =>
    cases hy with
    | cons _ _ a vs h2 h3 => exact .cons d bs a vs (yields_new h h1 h2) (ih h3)

theorem generates_new (h : Corr syms R f f') {k : Nat} {ws : List (BitVec 32)} (hg : Generates f k ws) : Generates f' k ws := by
  induction hg with
  | none => exact .none
  | inst k raw ws out _ h1 h2 h3 ih =>
    obtain ⟨raw', k1, e2, e3, e4⟩ := h.code k raw h1 h2
    obtain ⟨st, vs, g1, g2, g3⟩ := h3
    obtain ⟨st', g4, g5⟩ := e4 st g1
    exact .inst k raw' ws out ih k1 e2 ⟨st', vs, g4, values_new h g5 g2, by rw [← e3]; exact g3⟩
  | other k raw out _ h1 h2 ih =>
    have hk : k < f'.ls.length := by rw [← h.len]; exact (List.getElem?_eq_some_iff.1 h1).1
    refine .other k _ out ih (List.getElem?_eq_getElem hk) fun hc => ?_
    obtain ⟨raw2, k1, k2, _⟩ := h.code' k _ (List.getElem?_eq_getElem hk) hc
    rw [h1] at k1; cases k1
    exact h2 k2

/-! ### Renamed files -/

theorem files_new {ovf : Bool} {b : BitVec 32} {ls ls' : List Str} (hR : Renaming syms R) (h : NewFile syms R ls ls') :
    (Panics ⟨ovf, b, syms, ls⟩ → Panics ⟨ovf, b, syms, ls'⟩) ∧ (Refused ⟨ovf, b, syms, ls⟩ → Refused ⟨ovf, b, syms, ls'⟩) ∧
    (Accepted ⟨ovf, b, syms, ls⟩ → Accepted ⟨ovf, b, syms, ls'⟩) := by
  have hc : Corr syms R ⟨ovf, b, syms, ls⟩ ⟨ovf, b, syms, ls'⟩ := corr_of hR h
  have bp : BadPlace ⟨ovf, b, syms, ls⟩ → BadPlace ⟨ovf, b, syms, ls'⟩ := badPlace_new hc fun _ _ _ _ _ _ _ k => closed_new hR.symm h.symm k
  have bp' : BadPlace ⟨ovf, b, syms, ls'⟩ → BadPlace ⟨ovf, b, syms, ls⟩ := badPlace_new hc.symm fun _ _ _ _ _ _ _ k => closed_new hR h k
  have at1 : Lang.AllTaken ⟨ovf, b, syms, ls⟩ → Lang.AllTaken ⟨ovf, b, syms, ls'⟩ := allTaken_new hc fun k l' hd => by
    obtain ⟨l, h1, h2⟩ := h.symm.def hd
    exact .inl ⟨l, h1.symm, h2⟩
  have at2 : Lang.AllTaken ⟨ovf, b, syms, ls'⟩ → Lang.AllTaken ⟨ovf, b, syms, ls⟩ := allTaken_new hc.symm fun k l' hd => by
    obtain ⟨l, h1, h2⟩ := h.def hd
    exact .inl ⟨l, h1.symm, h2⟩
  refine ⟨?_, ?_, ?_⟩
  · rintro (h1 | h1 | ⟨h1, h2, h3⟩)
    · exact .inl (lineEnds_new hc h1)
    · exact .inr (.inl (overflows_new hc h1))
    · exact .inr (.inr ⟨at1 h1, fun k => h2 (bp' k), noCode_new hc h3⟩)
  · rintro ⟨h1, h2, h3⟩
    refine ⟨fun k => h1 (lineEnds_new hc.symm k), fun k => h2 (overflows_new hc.symm k), ?_⟩
    rcases h3 with h3 | h3
    · exact .inl fun k => h3 (at2 k)
    · exact .inr (bp h3)
  · rintro ⟨h1, h2, h3, h4⟩
    exact ⟨at1 h1, fun k => h2 (overflows_new hc.symm k), fun k => h3 (bp' k), fun k => h4 (noCode_new hc.symm k)⟩

end
end Mips.Rename
