/- The parentheses of operands (for C56). -/
import Verif.Lemmas.LangL

namespace Mips
open Source Syntax Branch Operands Isa
open Mips.Names hiding none

theorem first_of {c : Char} {r : Str} (h : c ∈ r) : ∃ a b, r = a ++ c :: b ∧ c ∉ a := by
  induction r with
  | nil => cases h
  | cons d r ih =>
    by_cases e : d = c
    · subst e; exact ⟨[], r, rfl, by simp⟩
    · obtain ⟨a, b, e1, e2⟩ := ih (by simpa [Ne.symm e] using h)
      exact ⟨d :: a, b, by rw [e1]; rfl, by simp [e2, Ne.symm e]⟩

theorem last_of {c : Char} {r : Str} (h : c ∈ r) : ∃ a b, r = a ++ c :: b ∧ c ∉ b := by
  induction r with
  | nil => cases h
  | cons d r ih =>
    by_cases hr : c ∈ r
    · obtain ⟨a, b, e1, e2⟩ := ih hr
      exact ⟨d :: a, b, by rw [e1]; rfl, e2⟩
    · have : c = d := by simpa [hr] using h
      subst this; exact ⟨[], r, rfl, hr⟩

theorem first_unique {c : Char} {a b a' b' : Str} (h : a ++ c :: b = a' ++ c :: b') (ha : c ∉ a) (ha' : c ∉ a') : a = a' ∧ b = b' := by
  induction a generalizing a' with
  | nil =>
    cases a' with
    | nil => cases h; exact ⟨rfl, rfl⟩
    | cons d a' => cases h; simp at ha'
  | cons d a ih =>
    cases a' with
    | nil => cases h; simp at ha
    | cons d' a' =>
      simp only [List.cons_append, List.cons.injEq] at h
      obtain ⟨rfl, h⟩ := h
      obtain ⟨rfl, rfl⟩ := ih h (fun h => ha (by simp [h])) (fun h => ha' (by simp [h]))
      exact ⟨rfl, rfl⟩

theorem snoc_mem {X x c : Str} (h : X ++ [')'] = x ++ '(' :: c) : ')' ∈ c := by
  rcases List.eq_nil_or_concat c with rfl | ⟨c', z, rfl⟩
  · have := (List.append_inj' h rfl).2
    cases this
  · have h' : X ++ [')'] = (x ++ '(' :: c') ++ [z] := by simpa using h
    have := (List.append_inj' h' rfl).2
    cases this
    simp

/-! ### the group of `%hi` and `%lo` -/

theorem Re.run_IMM_none (c : Char) (s : Str) (h : ')' ∉ s) : Re.run Re.IMM (c :: s) = [] := by
  have none : (Re.starM Re.dot s).flatMap (fun x => (Re.run (Re.lit ')') x.2).map fun y => (x.1 ++ y.1, y.2)) = [] := by
    simp only [List.flatMap_eq_nil_iff, Prod.forall, List.map_eq_nil_iff]
    intro x r hx
    have e := Re.starM_mem hx
    cases r with
    | nil => simp [Re.lit, Re.run]
    | cons d r =>
      have : d ≠ ')' := by rintro rfl; apply h; rw [e]; simp
      simp [Re.lit, Re.run, this]
  have h1 : Re.run Re.IMM (c :: s) = (Re.run (Re.lit '(') (c :: s)).flatMap fun x => ((Re.starM Re.dot x.2).flatMap
    (fun x => (Re.run (Re.lit ')') x.2).map fun y => (x.1 ++ y.1, y.2))).map fun y => (x.1 ++ y.1, y.2) := rfl
  rw [h1]
  by_cases hc : c = '('
  · subst hc
    simp [Re.lit, Re.run] at none ⊢
    exact none
  · simp [Re.lit, Re.run, hc]

theorem Re.find_IMM_open (a s : Str) (h : ')' ∉ s) : (∀ c ∈ a, c ≠ '(') → Re.find Re.IMM (a ++ s) = none := by
  induction a with
  | nil =>
    intro _
    induction s with
    | nil => simp [Re.find, Re.IMM, Re.run, Re.lit]
    | cons c s ih =>
      simp only [List.mem_cons, not_or] at h
      have := ih h.2
      simp only [List.nil_append] at this ⊢
      simp only [Re.find, Re.run_IMM_none c s h.2, this]
      rfl
  | cons c a ih =>
    intro ha
    have := ih (fun d hd => ha d (by simp [hd]))
    simp only [List.cons_append, Re.find, Re.run_IMM_other c _ (ha c (by simp)), this]
    rfl

/-- the text from the first `(` to the last `)` -/
theorem findImm_some {t a m b : Str} (hn : '\n' ∉ t) (e : t = a ++ '(' :: m ++ ')' :: b) (ha : '(' ∉ a) (hb : ')' ∉ b) :
    findImm t = some ('(' :: (m ++ [')'])) := by
  subst e
  unfold findImm
  rw [show a ++ '(' :: m ++ ')' :: b = a ++ '(' :: (m ++ ')' :: b) by simp, Re.find_IMM a m b ha hb (by
    intro c hc e; subst e; apply hn; simp [hc])]
  rfl

theorem findImm_none {t : Str} (h : ∀ a m b, t = a ++ '(' :: m ++ ')' :: b → '(' ∉ a → ')' ∉ b → False) : findImm t = none := by
  unfold findImm
  by_cases h1 : '(' ∈ t
  · obtain ⟨a, r, rfl, ha⟩ := first_of h1
    by_cases h2 : ')' ∈ r
    · obtain ⟨m, b, rfl, hb⟩ := last_of h2
      exact absurd hb fun hb => h a m b (by simp) ha hb
    · rw [Re.find_IMM_open a ('(' :: r) (by simp [h2]) (fun c hc e => ha (e ▸ hc))]; rfl
  · rw [Re.find_IMM_none _ h1]; rfl

theorem bare_eq (m : Str) : removeParens ('(' :: (m ++ [')'])) = Lang.bare m := by
  unfold removeParens Lang.bare
  simp [List.filter_cons, List.filter_append]

theorem group_find {s m : Str} (hn : '\n' ∉ trim s) (h : Lang.Group s m) : findImm (trim s) = some ('(' :: (m ++ [')'])) := by
  obtain ⟨a, b, e, ha, hb⟩ := h
  exact findImm_some hn e ha hb

theorem group_unique {s m m' : Str} (hn : '\n' ∉ trim s) (h : Lang.Group s m) (h' : Lang.Group s m') : m = m' := by
  have := (group_find hn h).symm.trans (group_find hn h')
  simpa using this

theorem group_none {s : Str} (h : ∀ m, ¬ Lang.Group s m) : findImm (trim s) = none :=
  findImm_none fun a m b e ha hb => h m ⟨a, b, e, ha, hb⟩

/-! ### the base register -/

theorem Re.run_BASE_none (c : Char) (s : Str) (h : ')' ∉ s) : Re.run Re.BASE (c :: s) = [] := by
  have mem : ∀ (s x r : Str), (x, r) ∈ Re.starLazyM Re.dot s → s = x ++ r := by
    intro s
    induction s with
    | nil => intro x r hx; simp [Re.starLazyM] at hx; simp [hx]
    | cons c s ih =>
      intro x r hx
      rw [Re.starLazyM] at hx
      rcases List.mem_cons.1 hx with hx | hx
      · cases hx; rfl
      · split at hx
        · simp only [List.mem_map, Prod.mk.injEq, Prod.exists] at hx
          obtain ⟨x', r', h1, rfl, rfl⟩ := hx
          rw [ih _ _ h1]; rfl
        · cases hx
  have none : (Re.starLazyM Re.dot s).flatMap (fun x => (Re.run (Re.lit ')') x.2).map fun y => (x.1 ++ y.1, y.2)) = [] := by
    simp only [List.flatMap_eq_nil_iff, Prod.forall, List.map_eq_nil_iff]
    intro x r hx
    have e := mem _ _ _ hx
    cases r with
    | nil => simp [Re.lit, Re.run]
    | cons d r =>
      have : d ≠ ')' := by rintro rfl; apply h; rw [e]; simp
      simp [Re.lit, Re.run, this]
  have h1 : Re.run Re.BASE (c :: s) = (Re.run (Re.lit '(') (c :: s)).flatMap fun x => ((Re.starLazyM Re.dot x.2).flatMap
    (fun x => (Re.run (Re.lit ')') x.2).map fun y => (x.1 ++ y.1, y.2))).map fun y => (x.1 ++ y.1, y.2) := rfl
  rw [h1]
  by_cases hc : c = '('
  · subst hc
    simp [Re.lit, Re.run] at none ⊢
    exact none
  · simp [Re.lit, Re.run, hc]

/-- no `(` with a `)` behind it -/
theorem Re.find_BASE_open (s : Str) (h : ∀ a b, s = a ++ '(' :: b → ')' ∉ b) : Re.find Re.BASE s = none := by
  induction s with
  | nil => simp [Re.find, Re.BASE, Re.run, Re.lit]
  | cons c s ih =>
    have h' : ∀ a b, s = a ++ '(' :: b → ')' ∉ b := fun a b e => h (c :: a) b (by rw [e]; rfl)
    have : Re.run Re.BASE (c :: s) = [] := by
      by_cases hc : c = '('
      · subst hc; exact Re.run_BASE_none _ _ (h [] s rfl)
      · exact Re.run_BASE_other c s hc
    simp only [Re.find, this, ih h']
    rfl

theorem base_last : ∀ (n : Nat) (s : Str), s.length < n → '\n' ∉ s → ∀ w,
    (Re.findIter Re.BASE n s).getLast? = some w ↔ ∃ m, w = '(' :: (m ++ [')']) ∧ Lang.BaseGroup s m := by
  intro n
  induction n with
  | zero => intro s h; omega
  | succ n ih =>
    intro s hl hn w
    by_cases hopen : ∀ a b, s = a ++ '(' :: b → ')' ∉ b
    · simp only [Re.findIter, Re.find_BASE_open s hopen, List.getLast?_nil, reduceCtorEq, false_iff]
      rintro ⟨m, _, u, v, e, _⟩
      exact hopen u (m ++ ')' :: v) (by rw [e]; simp) (by simp)
    · simp only [Classical.not_forall, Classical.not_not] at hopen
      obtain ⟨a0, b0, e0, h0⟩ := hopen
      obtain ⟨a, r, er, ha⟩ := first_of (c := '(') (r := s) (by rw [e0]; simp)
      have hr : ')' ∈ r := by
        have hrr : a0 ++ '(' :: b0 = a ++ '(' :: r := by rw [← e0, er]
        -- `a` is the shorter one
        rcases List.append_eq_append_iff.1 hrr with ⟨c, h1, h2⟩ | ⟨c, h1, h2⟩
        · cases c with
          | nil => simp at h2; rw [← h2]; exact h0
          | cons d c =>
            simp only [List.cons_append, List.cons.injEq] at h2
            exact absurd (by rw [h1, ← h2.1]; simp) ha
        · cases c with
          | nil => simp at h2; rw [h2]; exact h0
          | cons d c =>
            simp only [List.cons_append, List.cons.injEq] at h2
            rw [h2.2]; simp [h0]
      obtain ⟨m, rest, em, hm⟩ := first_of hr
      subst em
      subst er
      have hrest : '\n' ∉ rest := fun h => hn (by simp [h])
      have hfi := Re.findIter_BASE n a m rest ha hm (by intro c hc e; subst e; apply hn; simp [hc])
      rw [hfi]
      have hlen : rest.length < n := by simp at hl; omega
      have IH := ih rest hlen hrest
      constructor
      · intro h
        cases hq : (Re.findIter Re.BASE n rest).getLast? with
        | some w' =>
          have : w = w' := by
            rw [List.getLast?_cons, hq] at h; simpa using h.symm
          subst this
          obtain ⟨m', e, u, v, e1, e2, e3, e4⟩ := (IH w).1 hq
          refine ⟨m', e, a ++ '(' :: m ++ ')' :: u, v, by rw [e1]; simp, e2, ?_, e4⟩
          intro x y exy
          -- an opening parenthesis before the group
          rw [show a ++ '(' :: m ++ ')' :: u = (a ++ '(' :: m ++ [')']) ++ u by simp] at exy
          rcases List.append_eq_append_iff.1 exy with ⟨c, h1, h2⟩ | ⟨c, h1, h2⟩
          · exact e3 c y h2
          · cases c with
            | nil => simp at h2; exact e3 [] y (by simpa using h2.symm)
            | cons d c =>
              simp only [List.cons_append, List.cons.injEq] at h2
              obtain ⟨rfl, rfl⟩ := h2
              have hx : (a ++ '(' :: m) ++ [')'] = (x ++ '(' :: c) := by simpa using h1
              have := snoc_mem hx
              simp [this]
        | none =>
          rw [List.getLast?_cons, hq] at h
          have hw : w = '(' :: (m ++ [')']) := by simpa using h.symm
          refine ⟨m, hw, a, rest, by simp, hm, ?_, ?_⟩
          · intro x y e; exact absurd (by rw [e]; simp) ha
          · intro x y e hy
            -- a group would be found
            have hne : ∃ w, (Re.findIter Re.BASE n rest).getLast? = some w := by
              obtain ⟨a1, r1, f1, g1⟩ := first_of (c := '(') (r := rest) (by rw [e]; simp)
              have hr1 : ')' ∈ r1 := by
                have hrr : x ++ '(' :: y = a1 ++ '(' :: r1 := by rw [← e, f1]
                rcases List.append_eq_append_iff.1 hrr with ⟨c, h1, h2⟩ | ⟨c, h1, h2⟩
                · cases c with
                  | nil => simp at h2; rw [← h2]; exact hy
                  | cons d c =>
                    simp only [List.cons_append, List.cons.injEq] at h2
                    exact absurd (by rw [h1, ← h2.1]; simp) g1
                · cases c with
                  | nil => simp at h2; rw [h2]; exact hy
                  | cons d c =>
                    simp only [List.cons_append, List.cons.injEq] at h2
                    rw [h2.2]; simp [hy]
              obtain ⟨m1, t1, em1, hm1⟩ := first_of hr1
              subst em1
              cases n with
              | zero => omega
              | succ n =>
                have := Re.findIter_BASE n a1 m1 t1 g1 hm1 (by intro c hc e; subst e; apply hrest; rw [f1]; simp [hc])
                rw [← f1] at this
                rw [this, List.getLast?_cons]
                exact ⟨_, rfl⟩
            obtain ⟨w', hw'⟩ := hne
            rw [hq] at hw'; cases hw'
      · rintro ⟨m', rfl, u, v, e1, e2, e3, e4⟩
        have e1' : a ++ '(' :: (m ++ ')' :: rest) = u ++ '(' :: (m' ++ ')' :: v) := by simpa using e1
        rcases List.append_eq_append_iff.1 e1' with ⟨c, h1, h2⟩ | ⟨c, h1, h2⟩
        · -- u = a ++ c
          cases c with
          | nil =>
            simp only [List.nil_append, List.cons.injEq, true_and] at h2
            obtain ⟨rfl, rfl⟩ := first_unique h2 hm e2
            have : Re.findIter Re.BASE n rest = [] := by
              cases n with
              | zero => rfl
              | succ n => simp only [Re.findIter, Re.find_BASE_open rest e4]
            rw [this]; rfl
          | cons d c =>
            simp only [List.cons_append, List.cons.injEq] at h2
            obtain ⟨rfl, h2⟩ := h2
            have hc := e3 a c h1
            obtain ⟨m1, c1, rfl, hm1⟩ := first_of hc
            have h2' : m ++ ')' :: rest = m1 ++ ')' :: (c1 ++ '(' :: (m' ++ ')' :: v)) := by rw [h2]; simp
            obtain ⟨rfl, rfl⟩ := first_unique h2' hm hm1
            have := (IH ('(' :: (m' ++ [')']))).2 ⟨m', rfl, c1, v, by simp, e2, ?_, e4⟩
            · rw [List.getLast?_cons, this]; rfl
            · intro x y exy
              exact e3 (a ++ '(' :: m ++ ')' :: x) y (by rw [h1, exy]; simp)
        · cases c with
          | nil =>
            simp only [List.nil_append, List.cons.injEq, true_and] at h2
            obtain ⟨rfl, rfl⟩ := first_unique h2 e2 hm
            have : Re.findIter Re.BASE n v = [] := by
              cases n with
              | zero => rfl
              | succ n => simp only [Re.findIter, Re.find_BASE_open v e4]
            rw [this]; rfl
          | cons d c =>
            simp only [List.cons_append, List.cons.injEq] at h2
            exact absurd (by rw [h1, ← h2.1]; simp) ha

theorem baseText_iff {s t : Str} (hn : '\n' ∉ s) : baseText s = some t ↔ ∃ m, t = trim (Lang.bare m) ∧ Lang.BaseGroup s m := by
  unfold baseText findBaseLast
  rw [Option.map_eq_some_iff]
  simp only [base_last (s.length + 1) s (by omega) hn]
  constructor
  · rintro ⟨w, ⟨m, rfl, h⟩, rfl⟩; exact ⟨m, by rw [bare_eq], h⟩
  · rintro ⟨m, rfl, h⟩; exact ⟨_, ⟨m, rfl, h⟩, by rw [bare_eq]⟩

theorem baseGroup_unique {s m m' : Str} (hn : '\n' ∉ s) (h : Lang.BaseGroup s m) (h' : Lang.BaseGroup s m') : m = m' := by
  have h1 := (base_last (s.length + 1) s (by omega) hn _).2 ⟨m, rfl, h⟩
  have h2 := (base_last (s.length + 1) s (by omega) hn _).2 ⟨m', rfl, h'⟩
  have := h1.symm.trans h2
  simpa using this

/-! ### the offset -/

theorem findOffset_some {s o : Str} (hn : '\n' ∉ s) (h : Lang.Offset s o) : findOffset s = some (o ++ ['(']) := by
  obtain ⟨h0, v, rfl, hv⟩ := h
  unfold findOffset
  rw [Re.find_OFFSET o v (by intro c hc e; subst e; apply hn; simp [hc]) hv, if_neg h0]
  rfl

theorem findOffset_none {s : Str} (hn : '\n' ∉ s) (h : ∀ o, ¬ Lang.Offset s o) : findOffset s = none := by
  unfold findOffset
  by_cases h1 : '(' ∈ s
  · obtain ⟨o, v, rfl, hv⟩ := last_of h1
    rw [Re.find_OFFSET o v (by intro c hc e; subst e; apply hn; simp [hc]) hv]
    by_cases h0 : o = []
    · rw [if_pos h0]; rfl
    · exact absurd ⟨h0, v, rfl, hv⟩ (h o)
  · rw [Re.find_OFFSET_none _ h1]; rfl

theorem offset_unique {s o o' : Str} (hn : '\n' ∉ s) (h : Lang.Offset s o) (h' : Lang.Offset s o') : o = o' := by
  have := (findOffset_some hn h).symm.trans (findOffset_some hn h')
  simpa using this

end Mips
