/- Layout of programs. -/
import Verif.Lemmas.ReadL
import Verif.Spec.Decor

namespace Mips
open Source Syntax Decor Branch Re

/-! ### Blanks behind an operand -/

theorem lastParen {s : Str} (h : '(' ∈ s) : ∃ u v, s = u ++ '(' :: v ∧ '(' ∉ v := by
  induction s with
  | nil => cases h
  | cons c s ih =>
    by_cases hs : '(' ∈ s
    · obtain ⟨u, v, e, hv⟩ := ih hs
      exact ⟨c :: u, v, by rw [e]; rfl, hv⟩
    · have : c = '(' := by
        rcases List.mem_cons.1 h with h | h
        · exact h.symm
        · exact absurd h hs
      exact ⟨[], s, by rw [this]; rfl, hs⟩

theorem firstClose {s : Str} (h : ')' ∈ s) : ∃ u v, s = u ++ ')' :: v ∧ ')' ∉ u := by
  induction s with
  | nil => cases h
  | cons c s ih =>
    by_cases hc : c = ')'
    · exact ⟨[], s, by rw [hc]; rfl, by simp⟩
    · obtain ⟨u, v, e, hv⟩ := ih (by
        rcases List.mem_cons.1 h with h | h
        · exact absurd h.symm hc
        · exact h)
      exact ⟨c :: u, v, by rw [e]; rfl, by simp [Ne.symm hc, hv]⟩

theorem findOffset_append {s q : Str} (hs : '\n' ∉ s) (hq : Blank q) : findOffset (s ++ q) = findOffset s := by
  have hq' := blank_chars hq
  have hq1 : '(' ∉ q := fun h => (hq' _ h).1 rfl
  unfold findOffset
  by_cases h : '(' ∈ s
  · obtain ⟨u, v, e, hv⟩ := lastParen h
    subst e
    have hu : ∀ c ∈ u, c ≠ '\n' := by
      intro c hc e; subst e; exact hs (by simp [hc])
    have hvq : '(' ∉ v ++ q := by simp [hv, hq1]
    rw [show u ++ '(' :: v ++ q = u ++ '(' :: (v ++ q) by simp, find_OFFSET u _ hu hvq, find_OFFSET u v hu hv]
    split <;> rfl
  · rw [find_OFFSET_none s h, find_OFFSET_none (s ++ q) (by simp [h, hq1])]

theorem lazy_none (s : Str) (h : ')' ∉ s) (f : Str → Str) : (starLazyM dot s).flatMap (fun x => (run (lit ')') x.2).map fun y => (f x.1 ++ y.1, y.2)) = [] := by
  induction s generalizing f with
  | nil => simp [starLazyM, run, lit]
  | cons c s ih =>
    simp only [List.mem_cons, not_or] at h
    have h0 : run (lit ')') (c :: s) = [] := by simp [run, lit, Ne.symm h.1]
    simp only [starLazyM, List.flatMap_cons, h0, List.map_nil, List.nil_append]
    split
    · rw [List.flatMap_map]
      exact ih h.2 (fun a => f (c :: a))
    · rfl

theorem run_BASE_none (s : Str) (h : ')' ∉ s) : run BASE ('(' :: s) = [] := by
  have h1 : run (seq (lit '(') (seq (starLazy dot) (lit ')'))) ('(' :: s) =
    ((starLazyM dot s).flatMap (fun x => (run (lit ')') x.2).map fun y => (x.1 ++ y.1, y.2))).map fun y => ('(' :: y.1, y.2) := by
    simp [run, lit]
  unfold BASE
  have h2 := lazy_none s h id
  simp only [id] at h2
  rw [h1, h2]; rfl

theorem find_BASE_append {s q : Str} (hs : '\n' ∉ s) (hq1 : '(' ∉ q) (hq2 : ')' ∉ q) :
    find BASE (s ++ q) = (find BASE s).map fun r => (r.1, r.2.1, r.2.2 ++ q) := by
  induction s with
  | nil => rw [List.nil_append, find_BASE_none q hq1, find_BASE_none [] (by simp)]; rfl
  | cons c s ih =>
    simp only [List.mem_cons, not_or] at hs
    by_cases hc : c = '('
    · subst hc
      by_cases h : ')' ∈ s
      · obtain ⟨u, v, e, hu⟩ := firstClose h
        subst e
        have hn : ∀ c ∈ u, c ≠ '\n' := by
          intro c hc e; subst e; exact hs.2 (by simp [hc])
        have a1 := find_BASE [] u v (by simp) hu hn
        have a2 := find_BASE [] u (v ++ q) (by simp) hu hn
        simp only [List.nil_append] at a1 a2
        rw [show '(' :: (u ++ ')' :: v) ++ q = '(' :: (u ++ ')' :: (v ++ q)) by simp, a1, a2]; rfl
      · simp only [List.cons_append, find, run_BASE_none s h, run_BASE_none (s ++ q) (by simp [h, hq2]), ih hs.2, Option.map_map]
        rfl
    · simp only [List.cons_append, find, run_BASE_other c _ hc, ih hs.2, Option.map_map]
      rfl

theorem find_BASE_inv {s b m r : Str} (hs : '\n' ∉ s) (h : find BASE s = some (b, m, r)) : m ≠ [] ∧ s = b ++ m ++ r := by
  induction s generalizing b with
  | nil => rw [find_BASE_none [] (by simp)] at h; cases h
  | cons c s ih =>
    simp only [List.mem_cons, not_or] at hs
    by_cases hc : c = '('
    · subst hc
      by_cases hp : ')' ∈ s
      · obtain ⟨u, v, e, hu⟩ := firstClose hp
        subst e
        have hn : ∀ c ∈ u, c ≠ '\n' := by
          intro c hc e; subst e; exact hs.2 (by simp [hc])
        have a1 := find_BASE [] u v (by simp) hu hn
        simp only [List.nil_append] at a1
        rw [a1] at h
        simp only [Option.some.injEq, Prod.mk.injEq] at h
        obtain ⟨rfl, rfl, rfl⟩ := h
        simp
      · simp only [find, run_BASE_none s hp] at h
        cases h1 : find BASE s with
        | none => rw [h1] at h; cases h
        | some t =>
          obtain ⟨b', m', r'⟩ := t
          rw [h1] at h
          simp only [Option.map_some, Option.some.injEq, Prod.mk.injEq] at h
          obtain ⟨rfl, rfl, rfl⟩ := h
          have := ih hs.2 h1
          refine ⟨this.1, ?_⟩
          rw [this.2]; rfl
    · simp only [find, run_BASE_other c _ hc] at h
      cases h1 : find BASE s with
      | none => rw [h1] at h; cases h
      | some t =>
        obtain ⟨b', m', r'⟩ := t
        rw [h1] at h
        simp only [Option.map_some, Option.some.injEq, Prod.mk.injEq] at h
        obtain ⟨rfl, rfl, rfl⟩ := h
        have := ih hs.2 h1
        refine ⟨this.1, ?_⟩
        rw [this.2]; rfl

theorem findIter_append (n : Nat) {s q : Str} (hs : '\n' ∉ s) (hq1 : '(' ∉ q) (hq2 : ')' ∉ q) :
    findIter BASE n (s ++ q) = findIter BASE n s := by
  induction n generalizing s with
  | zero => rfl
  | succ n ih =>
    simp only [findIter, find_BASE_append hs hq1 hq2]
    cases h : find BASE s with
    | none => rfl
    | some t =>
      obtain ⟨b, m, r⟩ := t
      have := find_BASE_inv hs h
      have hr : '\n' ∉ r := by
        intro hr; exact hs (by rw [this.2]; simp [hr])
      simp only [Option.map_some, ih hr]

theorem findIter_fuel (n m : Nat) {s : Str} (hs : '\n' ∉ s) (hn : s.length < n) (hm : s.length < m) : findIter BASE n s = findIter BASE m s := by
  induction n generalizing s m with
  | zero => omega
  | succ n ih =>
    cases m with
    | zero => omega
    | succ m =>
      simp only [findIter]
      cases h : find BASE s with
      | none => rfl
      | some t =>
        obtain ⟨b, mm, r⟩ := t
        have := find_BASE_inv hs h
        have hr : '\n' ∉ r := by
          intro hr; exact hs (by rw [this.2]; simp [hr])
        have hl : r.length < s.length := by
          have h2 := congrArg List.length this.2
          have h3 := List.length_pos_iff.2 this.1
          simp at h2
          omega
        simp only [ih m hr (by omega) (by omega)]

theorem baseText_append {s q : Str} (hs : '\n' ∉ s) (hq : Blank q) : baseText (s ++ q) = baseText s := by
  have hq' := blank_chars hq
  unfold baseText findBaseLast
  rw [findIter_append _ hs (fun h => (hq' _ h).1 rfl) (fun h => (hq' _ h).2.1 rfl)]
  rw [findIter_fuel ((s ++ q).length + 1) (s.length + 1) hs (by simp; omega) (by simp)]

theorem trim_append_blank (s : Str) {q : Str} (hq : Blank q) : trim (s ++ q) = trim s := by
  by_cases h : trim s = []
  · have hb : ∀ c ∈ s, isWs c = true := by
      obtain ⟨p, r, e, h1, h2⟩ := trim_decomp s
      rw [h, List.append_nil] at e
      intro c hc
      rw [e] at hc
      rcases List.mem_append.1 hc with h | h
      · exact h1 c h
      · exact h2 c h
    rw [h]
    apply trim_blank
    intro c hc
    rcases List.mem_append.1 hc with h | h
    · exact hb c h
    · exact blank_ws hq c h
  · obtain ⟨p, r, e, h1, h2⟩ := trim_decomp s
    have ht := trim_tight_of s h
    rw [show s ++ q = p ++ trim s ++ (r ++ q) by rw [← List.append_assoc, ← e]]
    exact trim_blank_tight p (trim s) (r ++ q) h1 (by
      intro c hc
      rcases List.mem_append.1 hc with h | h
      · exact h2 c h
      · exact blank_ws hq c h) ht

theorem opSim_append {s q : Str} (hs : '\n' ∉ s) (hq : Blank q) : OpSim s (s ++ q) :=
  ⟨(trim_append_blank s hq).symm, (baseText_append hs hq).symm, by rw [findOffset_append hs hq], by rw [findOffset_append hs hq]⟩

theorem split_append (s : Str) {q : Str} (hq : ',' ∉ q) : ∃ l a, split ',' s = l ++ [a] ∧ split ',' (s ++ q) = l ++ [a ++ q] ∧ (∀ c ∈ a, c ∈ s) ∧
    (l = [] → a = s) := by
  induction s with
  | nil => exact ⟨[], [], rfl, by rw [List.nil_append, split_noComma ',' q hq]; rfl, by simp, fun _ => rfl⟩
  | cons c s ih =>
    obtain ⟨l, a, h1, h2, h3, h4⟩ := ih
    by_cases hc : c = ','
    · subst hc
      refine ⟨[] :: l, a, ?_, ?_, fun d hd => List.mem_cons_of_mem _ (h3 d hd), by simp⟩
      · have := split_cons ',' [] s (by simp)
        rw [List.nil_append] at this
        rw [this, h1]; rfl
      · have := split_cons ',' [] (s ++ q) (by simp)
        rw [List.nil_append] at this
        rw [List.cons_append, this, h2]; rfl
    · cases l with
      | nil =>
        have e := h4 rfl
        subst e
        refine ⟨[], c :: a, ?_, ?_, by simp, fun _ => rfl⟩
        · simp only [split, hc, h1, List.nil_append, if_false]
        · simp only [List.cons_append, split, hc, h2, List.nil_append, if_false]
      | cons b l =>
        refine ⟨(c :: b) :: l, a, ?_, ?_, fun d hd => List.mem_cons_of_mem _ (h3 d hd), by simp⟩
        · simp only [split, hc, h1, List.cons_append, if_false]
        · simp only [List.cons_append, split, hc, h2, if_false]

theorem opsSim_snoc (l : List Str) {a b : Str} (h : OpSim a b) : OpsSim (l ++ [a]) (l ++ [b]) := by
  induction l with
  | nil => exact .cons h .nil
  | cons c l ih => exact .cons (.refl c) ih


/-! ### Blanks behind an instruction -/

theorem firstWord_mem {t q : Str} (h : ' ' ∈ t) : firstWord (t ++ q) = firstWord t ∧ operandText (t ++ q) = operandText t ++ q := by
  induction t with
  | nil => cases h
  | cons c t ih =>
    by_cases hc : c = ' '
    · simp [firstWord, operandText, hc]
    · obtain ⟨h1, h2⟩ := ih (by
        rcases List.mem_cons.1 h with h | h
        · exact absurd h.symm hc
        · exact h)
      simp [firstWord, operandText, hc, h1, h2]

theorem firstWord_bare {t q : Str} (h : ' ' ∉ t) : firstWord t = t ∧ operandText t = [] ∧ firstWord (t ++ ' ' :: q) = t ∧ operandText (t ++ ' ' :: q) = q := by
  induction t with
  | nil => simp [firstWord, operandText]
  | cons c t ih =>
    simp only [List.mem_cons, not_or] at h
    obtain ⟨h1, h2, h3, h4⟩ := ih h.2
    simp [firstWord, operandText, Ne.symm h.1, h1, h2, h3, h4]

theorem operandText_mem {t : Str} {c : Char} (h : c ∈ operandText t) : c ∈ t := by
  induction t with
  | nil => cases h
  | cons d t ih =>
    unfold operandText at h
    split at h
    · simp [h]
    · simp [ih h]

theorem operandText_ne {t : Str} (h : ' ' ∈ t) (hl : ∀ c, t.getLast? = some c → isWs c = false) : operandText t ≠ [] := by
  induction t with
  | nil => cases h
  | cons d t ih =>
    unfold operandText
    by_cases hd : d = ' '
    · rw [if_pos hd]
      rintro rfl
      exact absurd (hl d (by simp)) (by rw [hd]; decide)
    · rw [if_neg hd]
      have ht : ' ' ∈ t := by
        rcases List.mem_cons.1 h with h | h
        · exact absurd h.symm hd
        · exact h
      refine ih ht fun c hc => hl c ?_
      cases t with
      | nil => cases ht
      | cons e t => simpa [List.getLast?_cons_cons] using hc

variable {γ δ : Type} {g : ParserError → γ} {h : ParserWarning → δ}

theorem classify_code (m : Str) (h : classify m = .code) : m = c!"break" ∨ m = c!"syscall" := by
  have : ∀ e ∈ clsTable, e.1 = Cls.code → e.2 = [c!"break", c!"syscall"] ∨ e.2 = [c!"syscall", c!"break"] := by decide
  unfold classify at h
  split at h
  · rename_i e he
    have h1 := List.mem_of_find?_eq_some he
    have h2 := List.find?_some he
    rcases this e h1 h with h3 | h3 <;> rw [h3] at h2 <;> simp at h2 <;> rcases h2 with h2 | h2 <;> simp [h2]
  · cases h

/-- Blanks behind an instruction do not matter. -/
theorem read_follow [Unicode] {x y : Ctx} (c : CtxSim g h x y) (tf : TextFree g h) {t q : Str} (ht : Statement t) (hc : endsWith ':' t = false)
    (hq : Blank q) (hf : Follow t q) : WSim g h (parseInst x t) (parseInst y (t ++ q)) := by
  rcases hf.2 with rfl | ⟨-, hf⟩
  · rw [List.append_nil]; exact sim_inst c t
  · have hne : t ++ q ≠ [] := by simp [ht.nonempty]
    rw [parseInst_eq x ht.nonempty, parseInst_eq y hne]
    have hcm : ',' ∉ q := fun h => (blank_chars hq _ h).2.2.1 rfl
    by_cases hsp : ' ' ∈ t
    · obtain ⟨e1, e2⟩ := firstWord_mem (q := q) hsp
      have hm : mnemonic (t ++ q) = mnemonic t := by unfold mnemonic; rw [e1]
      rw [hm, e1, e2]
      obtain ⟨l, a, s1, s2, s3, s4⟩ := split_append (operandText t) hcm
      have ha : '\n' ∉ a := fun hh => ht.line (operandText_mem (s3 _ hh))
      refine read_arm c tf _ (OpcSim.refl _) (trim_append_blank _ hq).symm ?_ ?_
      · rw [s1, s2]; exact opsSim_snoc l (opSim_append ha hq)
      · intro _ b d hb hd
        have hn := operandText_ne hsp ht.last
        rw [s1] at hb
        rw [s2] at hd
        cases l with
        | nil =>
          have := s4 rfl
          subst this
          simp only [List.nil_append, List.cons.injEq, and_true] at hb hd
          subst hb hd
          cases hx : operandText t with
          | nil => exact absurd hx hn
          | cons => rfl
        | cons e l => simp at hb
    · rcases hf with hsp' | ⟨q', rfl, hq'⟩
      · exact absurd hsp' hsp
      · obtain ⟨e1, e2, e3, e4⟩ := firstWord_bare (q := q') hsp
        have hm : mnemonic (t ++ ' ' :: q') = mnemonic t := by unfold mnemonic; rw [e1, e3]
        have hq1 : Blank q' := fun c hc => hq c (by simp [hc])
        rw [hm, e1, e2, e3, e4]
        refine read_arm c tf _ (OpcSim.refl _) ?_ ?_ ?_
        · have := trim_append_blank [] hq1
          rw [List.nil_append] at this; exact this.symm
        · rw [split_noComma ',' q' (fun hh => (blank_chars hq1 _ hh).2.2.1 rfl)]
          have := opSim_append (s := []) (by simp) hq1
          exact .cons this .nil
        · intro hcode
          rcases hq' with rfl | hb
          · intro a b ha hb
            rw [ha] at hb
            cases hb; rfl
          · rcases classify_code _ hcode with h | h
            · exact absurd h hb.1
            · exact absurd h hb.2


/-! ### Lines -/

theorem trimEnd_append {u c : Str} (h : trimEnd c ≠ []) : trimEnd (u ++ c) = u ++ trimEnd c := by
  induction u with
  | nil => rfl
  | cons d u ih =>
    rw [List.cons_append, List.cons_append, trimEnd, ih]
    cases hx : u ++ trimEnd c with
    | nil =>
      exfalso
      have := List.append_eq_nil_iff.1 hx
      exact h this.2
    | cons => rfl

theorem trimEnd_keep {a : Char} {s : Str} (ha : isWs a = false) : trimEnd (a :: s) = a :: trimEnd s := by
  rw [trimEnd]
  split
  · rename_i he; rw [he, if_neg (by rw [ha]; simp)]
  · rename_i he; rw [he]

/-- What is left of a comment after trimming is a comment. -/
theorem comment_trim {c : Str} (h : Comment c) : (∃ s, trimEnd c = ';' :: s) ∨ ∃ s, trimEnd c = '/' :: '/' :: s := by
  obtain ⟨-, h⟩ := h
  rcases h with h | h
  · match c, h with
    | [], h => cases h
    | [a], h => simp [startsWith] at h
    | a :: b :: s, h =>
      simp only [startsWith, List.isPrefixOf, Bool.and_eq_true, beq_iff_eq, and_true] at h
      obtain ⟨rfl, rfl⟩ := h
      right
      rw [trimEnd_keep (by decide), trimEnd_keep (by decide)]
      exact ⟨_, rfl⟩
  · match c, h with
    | [], h => cases h
    | a :: s, h =>
      simp only [startsWith, List.isPrefixOf, Bool.and_eq_true, beq_iff_eq, and_true] at h
      subst h
      left
      rw [trimEnd_keep (by decide)]
      exact ⟨_, rfl⟩

theorem uncomment_stop {c : Str} (h : (∃ s, c = ';' :: s) ∨ ∃ s, c = '/' :: '/' :: s) : uncomment c = [] := by
  rcases h with ⟨s, rfl⟩ | ⟨s, rfl⟩ <;> simp [uncomment]

theorem uncomment_append {u c : Str} (hu : uncomment u = u) (hl : u.getLast? ≠ some '/')
    (h : (∃ s, c = ';' :: s) ∨ ∃ s, c = '/' :: '/' :: s) : uncomment (u ++ c) = u := by
  induction u with
  | nil => exact uncomment_stop h
  | cons d u ih =>
    by_cases hd : d = ';' ∨ (d = '/' ∧ u.head? = some '/')
    · simp [uncomment, hd] at hu
    · rw [uncomment, if_neg hd] at hu
      have hu' : uncomment u = u := (List.cons.inj hu).2
      have hl' : u.getLast? ≠ some '/' := by
        cases u with
        | nil => simp
        | cons e u => simpa [List.getLast?_cons_cons] using hl
      have hd' : ¬(d = ';' ∨ (d = '/' ∧ (u ++ c).head? = some '/')) := by
        rintro (h1 | ⟨h1, h2⟩)
        · exact hd (.inl h1)
        · cases u with
          | nil => simp [h1] at hl
          | cons e u => exact hd (.inr ⟨h1, by simpa using h2⟩)
      rw [List.cons_append, uncomment, if_neg hd', ih hu' hl']

theorem uncomment_blank {t q : Str} (ht : uncomment t = t) (hl : t.getLast? ≠ some '/') (hq : Blank q) :
    uncomment (t ++ q) = t ++ q := by
  induction t with
  | nil =>
    have : ∀ q : Str, Blank q → uncomment q = q := by
      intro q
      induction q with
      | nil => intro _; rfl
      | cons d q ih =>
        intro hq
        have hd := (hq d (by simp)).1
        rw [uncomment, if_neg, ih (fun c hc => hq c (by simp [hc]))]
        rintro (rfl | ⟨rfl, -⟩) <;> revert hd <;> decide
    exact this q hq
  | cons d u ih =>
    by_cases hd : d = ';' ∨ (d = '/' ∧ u.head? = some '/')
    · simp [uncomment, hd] at ht
    · rw [uncomment, if_neg hd] at ht
      have hu' : uncomment u = u := (List.cons.inj ht).2
      have hl' : u.getLast? ≠ some '/' := by
        cases u with
        | nil => simp
        | cons e u => simpa [List.getLast?_cons_cons] using hl
      have hd' : ¬(d = ';' ∨ (d = '/' ∧ (u ++ q).head? = some '/')) := by
        rintro (h1 | ⟨h1, h2⟩)
        · exact hd (.inl h1)
        · cases u with
          | nil => simp [h1] at hl
          | cons e u => exact hd (.inr ⟨h1, by simpa using h2⟩)
      rw [List.cons_append, uncomment, if_neg hd', ih hu' hl']

theorem Decor.Statement.tight {t : Str} (h : Statement t) : Tight t := ⟨h.nonempty, h.first, h.last⟩

theorem getLast_blank {t q : Str} (hl : t.getLast? ≠ some '/') (hq : Blank q) : (t ++ q).getLast? ≠ some '/' := by
  rw [List.getLast?_append]
  cases h : q.getLast? with
  | none => simpa using hl
  | some c =>
    have := (hq c (List.mem_of_getLast? h)).1
    simp only [Option.some_or, ne_eq, Option.some.injEq]
    rintro rfl
    revert this; decide

/-- The significant part of a line. -/
theorem body_onLine {F : Str → Str → Prop} {t raw : Str} (ht : Statement t) (hF : ∀ q, F t q → t.getLast? ≠ some '/') (h : OnLine F t raw) :
    body raw = t ∨ ∃ q, Blank q ∧ F t q ∧ body raw = t ++ q := by
  cases h with
  | plain p q hp hq =>
    left
    unfold body
    rw [trim_blank_tight p t q (blank_ws hp) (blank_ws hq) ht.tight, ht.clean]
  | comment p q c hp hq hc hf =>
    right
    refine ⟨q, hq, hf, ?_⟩
    have hl := hF q hf
    have hc1 := comment_trim hc
    have hne : trimEnd c ≠ [] := by
      rcases hc1 with ⟨s, e⟩ | ⟨s, e⟩ <;> rw [e] <;> simp
    unfold body trim
    rw [show p ++ t ++ q ++ c = p ++ (t ++ q ++ c) by simp, trimStart_append_blank p _ (blank_ws hp), trimStart_tight, trimEnd_append hne]
    · exact uncomment_append (uncomment_blank ht.clean hl hq) (getLast_blank hl hq) hc1
    · intro d hd
      apply ht.first
      cases t with
      | nil => exact absurd rfl ht.nonempty
      | cons e t => simpa using hd

theorem body_empty {raw : Str} (h : Empty raw) : body raw = [] := by
  cases h with
  | blank _ hp => unfold body; rw [trim_blank _ (blank_ws hp)]; rfl
  | comment p c hp hc =>
    have hc1 := comment_trim hc
    unfold body trim
    rw [trimStart_append_blank p _ (blank_ws hp), trimStart_tight]
    · exact uncomment_stop hc1
    · intro d hd
      obtain ⟨-, h⟩ := hc
      rcases h with h | h
      · match c, h with
        | [], h => cases h
        | a :: s, h =>
          simp only [startsWith, List.isPrefixOf, Bool.and_eq_true, beq_iff_eq] at h
          simp only [List.head?_cons, Option.some.injEq] at hd
          rw [← hd, ← h.1]; decide
      · match c, h with
        | [], h => cases h
        | a :: s, h =>
          simp only [startsWith, List.isPrefixOf, Bool.and_eq_true, beq_iff_eq] at h
          simp only [List.head?_cons, Option.some.injEq] at hd
          rw [← hd, ← h.1]; decide

theorem kind_empty {raw : Str} (h : Empty raw) : kind raw = .blank := by
  unfold kind; rw [body_empty h]; rfl

/-- Layouts of the same statements. -/
theorem sameLines_layout {F : Str → Str → Prop} {R : Str → Str → Prop} (hR : ∀ t raw raw', Statement t → OnLine F t raw → OnLine F t raw' → R raw raw')
    {ts ls ls' : List Str} (h : LayoutOf F ts ls) (h' : LayoutOf F ts ls') : SameLines R ls ls' := by
  induction h generalizing ls' with
  | nil =>
    generalize hts : ([] : List Str) = ts at h'
    induction h' with
    | nil => exact .nil
    | skip raw ts ls hr _ ih => exact .right _ _ _ (kind_empty hr) (ih hts)
    | cons => cases hts
  | skip raw ts ls hr _ ih => exact .left _ _ _ (kind_empty hr) (ih h')
  | cons t raw ts ls ht ho _ ih =>
    generalize hts : t :: ts = ts' at h'
    induction h' with
    | nil => cases hts
    | skip raw ts ls hr _ ih2 => exact .right _ _ _ (kind_empty hr) (ih2 hts)
    | cons t' raw' ts' ls' ht' ho' hl' _ =>
      cases hts
      exact .both _ _ _ _ (hR t raw raw' ht ho ho') (ih hl')

/-! ### Symmetry -/

theorem RSim.symm {α} {r r' : Res ParserError α} (h : RSim g r r') : RSim g r' r := by
  cases r <;> cases r' <;> simp only [RSim] at h ⊢ <;> first | trivial | exact h.symm
theorem RSim.trans {α} {r r' r'' : Res ParserError α} (h : RSim g r r') (h' : RSim g r' r'') : RSim g r r'' := by
  cases r <;> cases r' <;> cases r'' <;> simp only [RSim] at h h' ⊢ <;> first | trivial | exact h.trans h'
theorem WSim.symm {α} {w v : W α} (k : WSim g h w v) : WSim g h v w := ⟨k.1.symm, k.2.symm⟩
theorem WSim.trans {α} {w v u : W α} (k : WSim g h w v) (k' : WSim g h v u) : WSim g h w u := ⟨k.1.trans k'.1, k.2.trans k'.2⟩
theorem CtxSim.refl_left {x y : Ctx} (c : CtxSim g h x y) : CtxSim g h x x := ⟨c.ln, rfl, rfl, rfl, wsim_refl _⟩

theorem lineSim_follow [Unicode] (tf : TextFree g h) {t raw raw' : Str} (ht : Statement t) (h1 : OnLine Follow t raw) (h2 : OnLine Follow t raw') :
    LineSim g h raw raw' := by
  have key : ∀ {raw}, OnLine Follow t raw → ∃ q, Blank q ∧ Follow t q ∧ body raw = t ++ q ∨ body raw = t := by
    intro raw h1
    rcases body_onLine ht (fun q hq => hq.1) h1 with e | ⟨q, a, b, c⟩
    · exact ⟨[], .inr e⟩
    · exact ⟨q, .inl ⟨a, b, c⟩⟩
  have hk : ∀ {raw}, OnLine Follow t raw → kind raw = if endsWith ':' t = true then .label t.dropLast else .code := by
    intro raw h1
    have hte : t.isEmpty = false := by
      cases t with
      | nil => exact absurd rfl ht.nonempty
      | cons => rfl
    rcases body_onLine ht (fun q hq => hq.1) h1 with e | ⟨q, a, b, c⟩
    · unfold kind
      rw [e, hte]
      simp
    · unfold kind
      rw [c]
      rcases b.2 with rfl | ⟨b', -⟩
      · rw [List.append_nil, hte]; simp
      · have : endsWith ':' (t ++ q) = false := by
          cases hq : q.getLast? with
          | none =>
            have := List.getLast?_eq_none_iff.1 hq
            subst this
            rw [List.append_nil]; exact b'
          | some c =>
            have hw := (a c (List.mem_of_getLast? hq)).1
            unfold endsWith
            rw [List.getLast?_append, hq]
            simp only [Option.some_or, beq_eq_false_iff_ne, ne_eq, Option.some.injEq]
            rintro rfl
            revert hw; decide
        rw [this, b']
        simp [ht.nonempty]
  by_cases he : endsWith ':' t = true
  · left
    exact ⟨t.dropLast, by rw [hk h1, if_pos he], by rw [hk h2, if_pos he]⟩
  · right
    have he' : endsWith ':' t = false := by simpa using he
    refine ⟨by rw [hk h1, if_neg he], by rw [hk h2, if_neg he], fun x y c => ?_⟩
    have a : WSim g h (parseInst x (body raw)) (parseInst x t) := by
      obtain ⟨q, ⟨a1, a2, a3⟩ | a3⟩ := key h1
      · rw [a3]; exact (read_follow c.refl_left tf ht he' a1 a2).symm
      · rw [a3]; exact wsim_refl _
    have b : WSim g h (parseInst x t) (parseInst y (body raw')) := by
      obtain ⟨q, ⟨a1, a2, a3⟩ | a3⟩ := key h2
      · rw [a3]; exact read_follow c tf ht he' a1 a2
      · rw [a3]; exact sim_inst c t
    exact a.trans b

theorem lineSim_glued [Unicode] {t raw raw' : Str} (ht : Statement t) (h1 : OnLine Glued t raw) (h2 : OnLine Glued t raw') : LineSim g h raw raw' := by
  have key : ∀ {raw}, OnLine Glued t raw → body raw = t := by
    intro raw h1
    rcases body_onLine ht (fun q hq => hq.2) h1 with e | ⟨q, a, b, c⟩
    · exact e
    · rw [c, b.1, List.append_nil]
  have e1 := key h1
  have e2 := key h2
  have hte : t.isEmpty = false := by
    cases t with
    | nil => exact absurd rfl ht.nonempty
    | cons => rfl
  unfold LineSim kind
  rw [e1, e2, hte]
  by_cases he : endsWith ':' t = true
  · left; exact ⟨t.dropLast, by simp [he], by simp [he]⟩
  · right
    refine ⟨by simp [he], by simp [he], fun x y c => sim_inst c t⟩

end Mips
