/- Lemmas about the regexes used for memory operands, immediates and comments. -/
import Verif.Lemmas.NumL
import Verif.Model.Regex

namespace Mips
namespace Re

theorem dot_true {c : Char} (h : c ≠ '\n') : dot c = true := by simp [dot, h]

/-- The tail of the OFFSET regex. -/
def Q : Re := seq (star isWs) (lit '(')

theorem starM_mem {p : Char → Bool} {s x r : Str} (h : (x, r) ∈ starM p s) : s = x ++ r := by
  induction s generalizing x with
  | nil => simp [starM] at h; simp [h]
  | cons c s ih =>
    rw [starM] at h
    split at h
    · simp only [List.mem_append, List.mem_map, Prod.mk.injEq, List.mem_singleton] at h
      rcases h with ⟨⟨a, b⟩, hab, rfl, rfl⟩ | ⟨rfl, rfl⟩
      · rw [List.cons_append, ← ih hab]
      · rfl
    · simp only [List.mem_singleton, Prod.mk.injEq] at h
      obtain ⟨rfl, rfl⟩ := h; rfl

theorem run_Q_none {r : Str} (h : '(' ∉ r) : run Q r = [] := by
  simp only [Q, run, List.flatMap_eq_nil_iff, Prod.forall]
  intro x r' hx
  have := starM_mem hx
  have h' : '(' ∉ r' := by intro hh; apply h; rw [this]; simp [hh]
  cases r' with
  | nil => simp [lit, run]
  | cons c t =>
    simp only [List.mem_cons, not_or] at h'
    simp [lit, run, Ne.symm h'.1]

theorem run_Q_paren (v : Str) : run Q ('(' :: v) = [(['('], v)] := by
  have : isWs '(' = false := by decide
  simp [Q, run, starM, this, lit]

theorem flat_none {p : Char → Bool} {v : Str} (h : '(' ∉ v) (f : Str → Str) :
    (starM p v).flatMap (fun x => (run Q x.2).map fun y => (f x.1 ++ y.1, y.2)) = [] := by
  simp only [List.flatMap_eq_nil_iff, Prod.forall, List.map_eq_nil_iff]
  intro x r hx
  apply run_Q_none
  intro hh; apply h; rw [starM_mem hx]; simp [hh]

theorem flat_last (u v : Str) (hu : ∀ c ∈ u, c ≠ '\n') (h : '(' ∉ v) (f : Str → Str) :
    ∃ tl, (starM dot (u ++ '(' :: v)).flatMap (fun x => (run Q x.2).map fun y => (f x.1 ++ y.1, y.2)) =
      (f u ++ ['('], v) :: tl := by
  induction u generalizing f with
  | nil =>
    refine ⟨[], ?_⟩
    have : dot '(' = true := by decide
    simp only [List.nil_append, starM, this, if_true, List.flatMap_append, List.flatMap_map]
    rw [flat_none h (fun s => f ('(' :: s))]
    simp [run_Q_paren]
  | cons c u ih =>
    have hc : dot c = true := dot_true (hu c (by simp))
    obtain ⟨tl, ht⟩ := ih (fun d hd => hu d (by simp [hd])) (fun s => f (c :: s))
    simp only [List.cons_append, starM, hc, if_true, List.flatMap_append, List.flatMap_map]
    rw [ht]
    exact ⟨_, rfl⟩

theorem run_OFFSET (c : Char) (t : Str) (hc : c ≠ '\n') :
    run OFFSET (c :: t) = (starM dot t).flatMap (fun x => (run Q x.2).map fun y => ((c :: x.1) ++ y.1, y.2)) := by
  have h1 : run OFFSET (c :: t) = (run (seq (chr dot) (star dot)) (c :: t)).flatMap
      (fun x => (run Q x.2).map fun y => (x.1 ++ y.1, y.2)) := rfl
  rw [h1]
  simp [run, dot_true hc, List.flatMap_map]

theorem find_OFFSET_none (s : Str) (h : '(' ∉ s) : find OFFSET s = none := by
  induction s with
  | nil => simp [find, OFFSET, run]
  | cons c s ih =>
    simp only [List.mem_cons, not_or] at h
    have : run OFFSET (c :: s) = [] := by
      by_cases hc : c = '\n'
      · subst hc; simp [OFFSET, run, dot]
      · rw [run_OFFSET c s hc, flat_none h.2]
    simp [find, this, ih h.2]

theorem find_OFFSET (o v : Str) (ho : ∀ c ∈ o, c ≠ '\n') (h : '(' ∉ v) :
    find OFFSET (o ++ '(' :: v) = if o = [] then none else some ([], o ++ ['('], v) := by
  cases o with
  | nil =>
    have : run OFFSET ('(' :: v) = [] := by
      rw [run_OFFSET _ _ (by decide), flat_none h]
    simp [find, this, find_OFFSET_none v h]
  | cons c u =>
    obtain ⟨tl, ht⟩ := flat_last u v (fun d hd => ho d (by simp [hd])) h (fun s => c :: s)
    simp only [List.cons_append] at ht ⊢
    have := run_OFFSET c (u ++ '(' :: v) (ho c (by simp))
    simp only [List.cons_append] at this
    rw [find, this, ht]
    simp

/-! ### BASE -/

theorem lazy_first (b rest : Str) (hb : ')' ∉ b) (hn : ∀ c ∈ b, c ≠ '\n') :
    ∃ tl, (starLazyM dot (b ++ ')' :: rest)).flatMap
      (fun x => (run (lit ')') x.2).map fun y => (x.1 ++ y.1, y.2)) = (b ++ [')'], rest) :: tl := by
  suffices H : ∀ f : Str → Str, ∃ tl, (starLazyM dot (b ++ ')' :: rest)).flatMap
      (fun x => (run (lit ')') x.2).map fun y => (f x.1 ++ y.1, y.2)) = (f b ++ [')'], rest) :: tl from H id
  induction b with
  | nil =>
    intro f
    simp only [List.nil_append, starLazyM, List.flatMap_cons]
    simp [lit, run]
  | cons c b ih =>
    intro f
    simp only [List.mem_cons, not_or] at hb
    obtain ⟨tl, ht⟩ := ih hb.2 (fun d hd => hn d (by simp [hd])) (fun s => f (c :: s))
    refine ⟨tl, ?_⟩
    simp only [List.cons_append, starLazyM, List.flatMap_cons, dot_true (hn c (by simp)), if_true,
      List.flatMap_map]
    rw [ht]
    simp [lit, run, Ne.symm hb.1]

theorem run_BASE (b rest : Str) (hb : ')' ∉ b) (hn : ∀ c ∈ b, c ≠ '\n') :
    ∃ tl, run BASE ('(' :: (b ++ ')' :: rest)) = ('(' :: (b ++ [')']), rest) :: tl := by
  obtain ⟨tl, ht⟩ := lazy_first b rest hb hn
  refine ⟨tl.map fun y => ('(' :: y.1, y.2), ?_⟩
  simp only [BASE]
  have h1 : run (seq (lit '(') (seq (starLazy dot) (lit ')'))) ('(' :: (b ++ ')' :: rest)) =
    ((starLazyM dot (b ++ ')' :: rest)).flatMap
      (fun x => (run (lit ')') x.2).map fun y => (x.1 ++ y.1, y.2))).map fun y => ('(' :: y.1, y.2) := by
    simp [run, lit]
  rw [h1, ht]
  simp

theorem run_BASE_other (c : Char) (s : Str) (hc : c ≠ '(') : run BASE (c :: s) = [] := by
  simp [BASE, run, lit, hc]

theorem find_BASE (u b rest : Str) (hu : '(' ∉ u) (hb : ')' ∉ b) (hn : ∀ c ∈ b, c ≠ '\n') :
    find BASE (u ++ '(' :: (b ++ ')' :: rest)) = some (u, '(' :: (b ++ [')']), rest) := by
  induction u with
  | nil =>
    obtain ⟨tl, ht⟩ := run_BASE b rest hb hn
    simp only [List.nil_append, find, ht]
  | cons c u ih =>
    simp only [List.mem_cons, not_or] at hu
    simp only [List.cons_append, find, run_BASE_other c _ (Ne.symm hu.1), ih hu.2]
    rfl

theorem find_BASE_none (u : Str) (hu : '(' ∉ u) : find BASE u = none := by
  induction u with
  | nil => simp [find, BASE, run, lit]
  | cons c u ih =>
    simp only [List.mem_cons, not_or] at hu
    simp only [find, run_BASE_other c _ (Ne.symm hu.1), ih hu.2]
    rfl

theorem findIter_BASE_none (n : Nat) (u : Str) (hu : '(' ∉ u) : findIter BASE n u = [] := by
  cases n with
  | zero => rfl
  | succ n => simp [findIter, find_BASE_none u hu]

theorem findIter_BASE (n : Nat) (u b rest : Str) (hu : '(' ∉ u) (hb : ')' ∉ b) (hn : ∀ c ∈ b, c ≠ '\n') :
    findIter BASE (n + 1) (u ++ '(' :: (b ++ ')' :: rest)) = ('(' :: (b ++ [')'])) :: findIter BASE n rest := by
  simp [findIter, find_BASE u b rest hu hb hn]

/-! ### IMM -/

theorem run_IMM_other (c : Char) (s : Str) (hc : c ≠ '(') : run IMM (c :: s) = [] := by
  simp [IMM, run, lit, hc]

theorem find_IMM_none (u : Str) (hu : '(' ∉ u) : find IMM u = none := by
  induction u with
  | nil => simp [find, IMM, run, lit]
  | cons c u ih =>
    simp only [List.mem_cons, not_or] at hu
    simp only [find, run_IMM_other c _ (Ne.symm hu.1), ih hu.2]
    rfl

theorem imm_last (u v : Str) (hu : ∀ c ∈ u, c ≠ '\n') (h : ')' ∉ v) (f : Str → Str) :
    ∃ tl, (starM dot (u ++ ')' :: v)).flatMap (fun x => (run (lit ')') x.2).map fun y => (f x.1 ++ y.1, y.2)) =
      (f u ++ [')'], v) :: tl := by
  have none : ∀ g : Str → Str, (starM dot v).flatMap
      (fun x => (run (lit ')') x.2).map fun y => (g x.1 ++ y.1, y.2)) = [] := by
    intro g
    simp only [List.flatMap_eq_nil_iff, Prod.forall, List.map_eq_nil_iff]
    intro x r hx
    have h' : ')' ∉ r := by intro hh; apply h; rw [starM_mem hx]; simp [hh]
    cases r with
    | nil => simp [lit, run]
    | cons c t =>
      simp only [List.mem_cons, not_or] at h'
      simp [lit, run, Ne.symm h'.1]
  induction u generalizing f with
  | nil =>
    refine ⟨[], ?_⟩
    have hd : dot ')' = true := by decide
    simp only [List.nil_append, starM, hd, if_true, List.flatMap_append, List.flatMap_map]
    rw [none (fun s => f (')' :: s))]
    simp [lit, run]
  | cons c u ih =>
    have hc : dot c = true := dot_true (hu c (by simp))
    obtain ⟨tl, ht⟩ := ih (fun d hd => hu d (by simp [hd])) (fun s => f (c :: s))
    simp only [List.cons_append, starM, hc, if_true, List.flatMap_append, List.flatMap_map]
    rw [ht]
    exact ⟨_, rfl⟩

theorem find_IMM (u b rest : Str) (hu : '(' ∉ u) (hr : ')' ∉ rest) (hn : ∀ c ∈ b, c ≠ '\n') :
    find IMM (u ++ '(' :: (b ++ ')' :: rest)) = some (u, '(' :: (b ++ [')']), rest) := by
  induction u with
  | nil =>
    obtain ⟨tl, ht⟩ := imm_last b rest hn hr id
    have h1 : run IMM ('(' :: (b ++ ')' :: rest)) =
      ((starM dot (b ++ ')' :: rest)).flatMap
        (fun x => (run (lit ')') x.2).map fun y => (id x.1 ++ y.1, y.2))).map fun y => ('(' :: y.1, y.2) := by
      simp [IMM, run, lit]
    simp only [List.nil_append, find, h1, ht]
    simp
  | cons c u ih =>
    simp only [List.mem_cons, not_or] at hu
    simp only [List.cons_append, find, run_IMM_other c _ (Ne.symm hu.1), ih hu.2]
    rfl

/-! ### COMMENT -/

theorem starM_all (s : Str) (h : ∀ c ∈ s, c ≠ '\n') : ∃ tl, starM dot s = (s, []) :: tl := by
  induction s with
  | nil => exact ⟨[], rfl⟩
  | cons c s ih =>
    obtain ⟨tl, ht⟩ := ih (fun d hd => h d (by simp [hd]))
    simp [starM, dot_true (h c (by simp)), ht]

theorem run_COMMENT_semi (s : Str) (h : ∀ c ∈ s, c ≠ '\n') :
    ∃ tl, run COMMENT (';' :: s) = (';' :: s, []) :: tl := by
  obtain ⟨tl, ht⟩ := starM_all s h
  simp [COMMENT, run, lit, ht]

theorem run_COMMENT_slash (s : Str) (h : ∀ c ∈ s, c ≠ '\n') :
    ∃ tl, run COMMENT ('/' :: '/' :: s) = ('/' :: '/' :: s, []) :: tl := by
  obtain ⟨tl, ht⟩ := starM_all s h
  simp [COMMENT, run, lit, ht]

/-- No comment starts inside `s`, even when followed by something that does not start with `/`. -/
theorem run_COMMENT_other (c : Char) (s : Str) (h1 : c ≠ ';') (h2 : ¬(c = '/' ∧ s.head? = some '/')) :
    run COMMENT (c :: s) = [] := by
  by_cases hc : c = '/'
  · subst hc
    cases s with
    | nil => simp [COMMENT, run, lit]
    | cons d t =>
      have : d ≠ '/' := by rintro rfl; exact h2 ⟨rfl, rfl⟩
      simp [COMMENT, run, lit, this]
  · simp [COMMENT, run, lit, hc, h1]

end Re

/-- No `;` and no `//` in `s`. -/
def noComment : Str → Bool
  | [] => true
  | c :: s => !(c == ';') && !(c == '/' && s.head? == some '/') && noComment s

theorem find_COMMENT_none (s : Str) (h : noComment s = true) : Re.find Re.COMMENT s = none := by
  induction s with
  | nil => simp [Re.find, Re.COMMENT, Re.run, Re.lit]
  | cons c s ih =>
    simp only [noComment, Bool.and_eq_true, Bool.not_eq_true', beq_eq_false_iff_ne, ne_eq,
      Bool.and_eq_false_imp, beq_iff_eq] at h
    rw [Re.find, Re.run_COMMENT_other c s h.1.1 (by rintro ⟨rfl, h2⟩; simp [h2] at h), ih h.2]
    rfl

theorem stripComment_none (s : Str) (h : noComment s = true) : stripComment s = s := by
  simp [stripComment, Re.replaceAll, find_COMMENT_none s h]

theorem find_COMMENT (u s : Str) (hu : noComment u = true) (hl : u.getLast? ≠ some '/' ∨ s.head? = some ';')
    (hs : (∃ t, s = ';' :: t) ∨ ∃ t, s = '/' :: '/' :: t) (hn : ∀ c ∈ s, c ≠ '\n') :
    Re.find Re.COMMENT (u ++ s) = some (u, s, []) := by
  induction u with
  | nil =>
    rcases hs with ⟨t, rfl⟩ | ⟨t, rfl⟩
    · obtain ⟨tl, ht⟩ := Re.run_COMMENT_semi t (fun d hd => hn d (by simp [hd]))
      simp only [List.nil_append, Re.find, ht]
    · obtain ⟨tl, ht⟩ := Re.run_COMMENT_slash t (fun d hd => hn d (by simp [hd]))
      simp only [List.nil_append, Re.find, ht]
  | cons c u ih =>
    have hu' := hu
    simp only [noComment, Bool.and_eq_true, Bool.not_eq_true', beq_eq_false_iff_ne, ne_eq,
      Bool.and_eq_false_imp, beq_iff_eq] at hu
    have hl' : u.getLast? ≠ some '/' ∨ s.head? = some ';' := by
      rcases hl with hl | hl
      · left
        intro h
        apply hl
        cases u with
        | nil => simp at h
        | cons d t => simpa using h
      · right; exact hl
    have hc : Re.run Re.COMMENT (c :: (u ++ s)) = [] := by
      apply Re.run_COMMENT_other c _ hu.1.1
      rintro ⟨rfl, h⟩
      cases u with
      | nil =>
        simp only [List.nil_append] at h
        rcases hl with hl | hl
        · simp at hl
        · rw [hl] at h; simp at h
      | cons d t =>
        simp only [List.cons_append, List.head?_cons, Option.some.injEq] at h
        subst h
        simp at hu
    simp only [List.cons_append, Re.find, hc, ih hu.2 hl']
    rfl

theorem stripComment_some (u s : Str) (hu : noComment u = true)
    (hl : u.getLast? ≠ some '/' ∨ s.head? = some ';')
    (hs : (∃ t, s = ';' :: t) ∨ ∃ t, s = '/' :: '/' :: t) (hn : ∀ c ∈ s, c ≠ '\n') :
    stripComment (u ++ s) = u := by
  unfold stripComment
  have hne : s ≠ [] := by rcases hs with ⟨t, rfl⟩ | ⟨t, rfl⟩ <;> simp
  rw [Re.replaceAll, find_COMMENT u s hu hl hs hn]
  simp only [List.append_nil]
  rw [if_neg (by simpa using hne)]
  have : ∀ n, Re.replaceAll Re.COMMENT [] n [] = [] := by
    intro n
    cases n with
    | zero => rfl
    | succ n => simp [Re.replaceAll, find_COMMENT_none [] rfl]
  rw [this]; simp

end Mips
