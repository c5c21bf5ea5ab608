/- Local labels: what is flushed, and to which definition a reference is resolved. -/
import Verif.Lemmas.BranchL

namespace Mips
open Source Branch

/-- instructions in front of line `d` -/
def trCnt (tr : List Outcome) (d : Nat) : Nat := (outInsts 0 (tr.take d)).length
/-- scope of line `d` -/
def trSc (tr : List Outcome) (d : Nat) : Nat := (outLabels 0 (tr.take d)).length
/-- name of the scope of line `d` -/
def trName (tr : List Outcome) (d : Nat) : Str := ((outLabels 0 (tr.take d)).getLast?.map (·.1)).getD []

/-- line `d` is the last definition of `x` in its scope -/
def IsLast (tr : List Outcome) (d : Nat) (x : Str) : Prop :=
  tr[d]? = some (.loc x) ∧ ∀ d', d < d' → tr[d']? = some (.loc x) → trSc tr d' ≠ trSc tr d

/-- the flushed entry for line `d` -/
def entryOf (tr : List Outcome) (d : Nat) (x : Str) : Loc := (x, trCnt tr d, trName tr d)

theorem take_snoc {α} (tr : List α) (o : α) {d : Nat} (h : d ≤ tr.length) : (tr ++ [o]).take d = tr.take d :=
  List.take_append_of_le_length h

theorem trSc_snoc (tr : List Outcome) (o : Outcome) {d : Nat} (h : d ≤ tr.length) : trSc (tr ++ [o]) d = trSc tr d := by
  unfold trSc; rw [take_snoc tr o h]
theorem entry_snoc (tr : List Outcome) (o : Outcome) (x : Str) {d : Nat} (h : d ≤ tr.length) : entryOf (tr ++ [o]) d x = entryOf tr d x := by
  unfold entryOf trCnt trName; rw [take_snoc tr o h]

theorem trSc_mono (tr : List Outcome) {d e : Nat} (h : d ≤ e) : trSc tr d ≤ trSc tr e := by
  unfold trSc
  obtain ⟨b, hb⟩ := outLabels_take (tr.take e) d
  rw [List.take_take, Nat.min_eq_left h] at hb
  rw [hb]; simp

theorem getElem_snoc {α} (tr : List α) (o : α) (d : Nat) : (tr ++ [o])[d]? = if d < tr.length then tr[d]? else if d = tr.length then some o else none := by
  rw [List.getElem?_append]
  split
  · rfl
  · split
    · subst d; simp
    · rw [List.getElem?_eq_none]; simp; omega

theorem isLast_lt {tr : List Outcome} {d : Nat} {x : Str} (h : IsLast tr d x) : d < tr.length :=
  (List.getElem?_eq_some_iff.1 h.1).1

theorem isLast_snoc_other {tr : List Outcome} {o : Outcome} (ho : ∀ l, o ≠ .loc l) (d : Nat) (x : Str) :
    IsLast (tr ++ [o]) d x ↔ IsLast tr d x := by
  have key : ∀ d : Nat, (tr ++ [o])[d]? = some (Outcome.loc x) ↔ tr[d]? = some (Outcome.loc x) := by
    intro d
    rw [getElem_snoc]
    split
    · rfl
    · rename_i h
      rw [List.getElem?_eq_none (by omega : tr.length ≤ d)]
      split
      · simp [ho]
      · rfl
  constructor
  · rintro ⟨h1, h2⟩
    have h1' := (key d).1 h1
    have hd := (List.getElem?_eq_some_iff.1 h1').1
    refine ⟨h1', fun d' hd' h3 => ?_⟩
    have hd2 := (List.getElem?_eq_some_iff.1 h3).1
    have := h2 d' hd' ((key d').2 h3)
    rwa [trSc_snoc _ _ (by omega), trSc_snoc _ _ (by omega)] at this
  · rintro ⟨h1, h2⟩
    have hd := (List.getElem?_eq_some_iff.1 h1).1
    refine ⟨(key d).2 h1, fun d' hd' h3 => ?_⟩
    have h3' := (key d').1 h3
    have hd2 := (List.getElem?_eq_some_iff.1 h3').1
    rw [trSc_snoc _ _ (by omega), trSc_snoc _ _ (by omega)]
    exact h2 d' hd' h3'

theorem isLast_snoc_loc {tr : List Outcome} (l : Str) (d : Nat) (x : Str) :
    IsLast (tr ++ [Outcome.loc l]) d x ↔ (d = tr.length ∧ x = l) ∨ (IsLast tr d x ∧ (x = l → trSc tr tr.length ≠ trSc tr d)) := by
  constructor
  · rintro ⟨h1, h2⟩
    rw [getElem_snoc] at h1
    split at h1
    · rename_i hd
      refine .inr ⟨⟨h1, fun d' hd' h3 => ?_⟩, ?_⟩
      · have hd2 := (List.getElem?_eq_some_iff.1 h3).1
        have := h2 d' hd' (by rw [getElem_snoc, if_pos hd2]; exact h3)
        rwa [trSc_snoc _ _ (by omega), trSc_snoc _ _ (by omega)] at this
      · rintro rfl
        have := h2 tr.length hd (by simp)
        rwa [trSc_snoc _ _ (Nat.le_refl _), trSc_snoc _ _ (by omega)] at this
    · split at h1
      · cases h1; exact .inl ⟨by assumption, rfl⟩
      · cases h1
  · rintro (⟨rfl, rfl⟩ | ⟨⟨h1, h2⟩, h3⟩)
    · refine ⟨by simp, fun d' hd' h3 => ?_⟩
      have := (List.getElem?_eq_some_iff.1 h3).1
      simp at this; omega
    · have hd := (List.getElem?_eq_some_iff.1 h1).1
      refine ⟨by rw [getElem_snoc, if_pos hd]; exact h1, fun d' hd' h4 => ?_⟩
      rw [getElem_snoc] at h4
      split at h4
      · rw [trSc_snoc _ _ (by omega), trSc_snoc _ _ (by omega)]
        exact h2 d' hd' h4
      · split at h4
        · cases h4
          subst d'
          rw [trSc_snoc _ _ (by omega), trSc_snoc _ _ (by omega)]
          exact h3 rfl
        · cases h4

/-- 1 for a global label -/
def Outcome.lab : Outcome → Nat
  | .label _ => 1
  | _ => 0

theorem outLabels_len_snoc (tr : List Outcome) (o : Outcome) : trSc (tr ++ [o]) (tr ++ [o]).length =
    trSc tr tr.length + o.lab := by
  unfold trSc
  rw [List.take_of_length_le (Nat.le_refl _), List.take_of_length_le (Nat.le_refl _), outLabels_append, List.length_append]
  cases o <;> rfl

/-- What is flushed, and what is pending. -/
theorem outLocs_spec (tr : List Outcome) :
    (∀ e, e ∈ (outLocs tr).dropped ↔ ∃ d x, IsLast tr d x ∧ trSc tr d < trSc tr tr.length ∧ e = entryOf tr d x) ∧
    (∀ e, e ∈ (outLocs tr).cur ↔ ∃ d x, IsLast tr d x ∧ trSc tr d = trSc tr tr.length ∧ e = entryOf tr d x) := by
  induction tr using snoc_ind with
  | nil => constructor <;> intro e <;> simp [outLocs, IsLast]
  | snoc tr o ih =>
    obtain ⟨ih1, ih2⟩ := ih
    have plain : (∀ l, o ≠ .loc l) → (∀ l, o ≠ .label l) →
        (∀ e, e ∈ (outLocs tr).dropped ↔ ∃ d x, IsLast (tr ++ [o]) d x ∧ trSc (tr ++ [o]) d < trSc (tr ++ [o]) (tr ++ [o]).length ∧ e = entryOf (tr ++ [o]) d x) ∧
        (∀ e, e ∈ (outLocs tr).cur ↔ ∃ d x, IsLast (tr ++ [o]) d x ∧ trSc (tr ++ [o]) d = trSc (tr ++ [o]) (tr ++ [o]).length ∧ e = entryOf (tr ++ [o]) d x) := by
      intro h1 h2
      have hl := outLabels_len_snoc tr o
      rw [show o.lab = 0 by cases o <;> first | rfl | exact absurd rfl (h2 _)] at hl
      constructor
      · intro e
        rw [ih1]
        constructor
        · rintro ⟨d, x, a, b, c⟩
          have := isLast_lt a
          exact ⟨d, x, (isLast_snoc_other h1 d x).2 a, by rw [hl, trSc_snoc _ _ (by omega)]; exact b, by rw [entry_snoc _ _ _ (by omega)]; exact c⟩
        · rintro ⟨d, x, a, b, c⟩
          have a := (isLast_snoc_other h1 d x).1 a
          have := isLast_lt a
          rw [hl, trSc_snoc _ _ (by omega)] at b
          rw [entry_snoc _ _ _ (by omega)] at c
          exact ⟨d, x, a, b, c⟩
      · intro e
        rw [ih2]
        constructor
        · rintro ⟨d, x, a, b, c⟩
          have := isLast_lt a
          exact ⟨d, x, (isLast_snoc_other h1 d x).2 a, by rw [hl, trSc_snoc _ _ (by omega)]; exact b, by rw [entry_snoc _ _ _ (by omega)]; exact c⟩
        · rintro ⟨d, x, a, b, c⟩
          have a := (isLast_snoc_other h1 d x).1 a
          have := isLast_lt a
          rw [hl, trSc_snoc _ _ (by omega)] at b
          rw [entry_snoc _ _ _ (by omega)] at c
          exact ⟨d, x, a, b, c⟩
    rw [outLocs_snoc]
    cases o with
    | blank => exact plain (by simp) (by simp)
    | inst ws i => exact plain (by simp) (by simp)
    | rejected ws e => exact plain (by simp) (by simp)
    | label l =>
      have hl : trSc (tr ++ [Outcome.label l]) (tr ++ [Outcome.label l]).length = trSc tr tr.length + 1 := outLabels_len_snoc tr (.label l)
      have h1 : ∀ q, Outcome.label l ≠ .loc q := by simp
      simp only [LocSt.step]
      constructor
      · intro e
        rw [List.mem_append, ih1, ih2]
        constructor
        · rintro (⟨d, x, a, b, c⟩ | ⟨d, x, a, b, c⟩)
          all_goals
            have := isLast_lt a
            exact ⟨d, x, (isLast_snoc_other h1 d x).2 a, by rw [hl, trSc_snoc _ _ (by omega)]; omega, by rw [entry_snoc _ _ _ (by omega)]; exact c⟩
        · rintro ⟨d, x, a, b, c⟩
          have a := (isLast_snoc_other h1 d x).1 a
          have := isLast_lt a
          rw [hl, trSc_snoc _ _ (by omega)] at b
          rw [entry_snoc _ _ _ (by omega)] at c
          rcases Nat.lt_or_ge (trSc tr d) (trSc tr tr.length) with h | h
          · exact .inl ⟨d, x, a, h, c⟩
          · exact .inr ⟨d, x, a, by omega, c⟩
      · intro e
        constructor
        · intro h; cases h
        · rintro ⟨d, x, a, b, c⟩
          have a := (isLast_snoc_other h1 d x).1 a
          have := isLast_lt a
          have hm := trSc_mono tr (Nat.le_of_lt this)
          rw [hl, trSc_snoc _ _ (by omega)] at b
          omega
    | loc l =>
      have hl : trSc (tr ++ [Outcome.loc l]) (tr ++ [Outcome.loc l]).length = trSc tr tr.length := outLabels_len_snoc tr (.loc l)
      simp only [LocSt.step]
      constructor
      · intro e
        rw [ih1]
        constructor
        · rintro ⟨d, x, a, b, c⟩
          have := isLast_lt a
          exact ⟨d, x, (isLast_snoc_loc l d x).2 (.inr ⟨a, fun _ => by omega⟩), by rw [hl, trSc_snoc _ _ (by omega)]; exact b,
            by rw [entry_snoc _ _ _ (by omega)]; exact c⟩
        · rintro ⟨d, x, a, b, c⟩
          rcases (isLast_snoc_loc l d x).1 a with ⟨rfl, rfl⟩ | ⟨a, _⟩
          · rw [hl, trSc_snoc _ _ (Nat.le_refl _)] at b; omega
          · have := isLast_lt a
            rw [hl, trSc_snoc _ _ (by omega)] at b
            rw [entry_snoc _ _ _ (by omega)] at c
            exact ⟨d, x, a, b, c⟩
      · intro e
        unfold locInsert
        rw [List.mem_append, List.mem_filter, ih2, List.mem_singleton]
        have hn : ((outLocs tr).n, (outLocs tr).scope) = (trCnt tr tr.length, trName tr tr.length) := by
          rw [outLocs_n, outLocs_scope]
          unfold trCnt trName
          rw [List.take_of_length_le (Nat.le_refl _)]
        constructor
        · rintro (⟨⟨d, x, a, b, c⟩, h⟩ | rfl)
          · have := isLast_lt a
            have hx : x ≠ l := by
              rintro rfl
              subst c
              simp [entryOf] at h
            exact ⟨d, x, (isLast_snoc_loc l d x).2 (.inr ⟨a, fun hh => absurd hh hx⟩), by rw [hl, trSc_snoc _ _ (by omega)]; exact b,
              by rw [entry_snoc _ _ _ (by omega)]; exact c⟩
          · exact ⟨tr.length, l, (isLast_snoc_loc l _ l).2 (.inl ⟨rfl, rfl⟩), by rw [hl, trSc_snoc _ _ (Nat.le_refl _)],
              by rw [entry_snoc _ _ _ (Nat.le_refl _), hn]; rfl⟩
        · rintro ⟨d, x, a, b, c⟩
          rcases (isLast_snoc_loc l d x).1 a with ⟨rfl, rfl⟩ | ⟨a, h2⟩
          · rw [entry_snoc _ _ _ (Nat.le_refl _)] at c
            exact .inr (by rw [hn, c]; rfl)
          · have := isLast_lt a
            rw [hl, trSc_snoc _ _ (by omega)] at b
            rw [entry_snoc _ _ _ (by omega)] at c
            refine .inl ⟨⟨d, x, a, b, c⟩, ?_⟩
            subst c
            have hx : x ≠ l := fun hh => h2 hh b.symm
            simpa [entryOf] using hx

end Mips
