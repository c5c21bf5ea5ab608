/- Invariants of the line loop, part 2. -/
import Verif.Lemmas.LoopL
import Verif.Spec.Source

namespace Mips
open Source

/-! ### comments -/

theorem uncomment_split (s : Str) : (uncomment s = s ∧ noComment s = true) ∨
    ∃ t, s = uncomment s ++ t ∧ noComment (uncomment s) = true ∧
      ((uncomment s).getLast? ≠ some '/' ∨ t.head? = some ';') ∧
      ((∃ u, t = ';' :: u) ∨ ∃ u, t = '/' :: '/' :: u) := by
  induction s with
  | nil => left; exact ⟨rfl, rfl⟩
  | cons c s ih =>
    by_cases hc : c = ';' ∨ (c = '/' ∧ s.head? = some '/')
    · right
      refine ⟨c :: s, ?_⟩
      rw [uncomment, if_pos hc]
      refine ⟨rfl, rfl, Or.inl (by simp), ?_⟩
      rcases hc with rfl | ⟨rfl, h⟩
      · exact Or.inl ⟨s, rfl⟩
      · cases s with
        | nil => simp at h
        | cons d s => simp at h; subst h; exact Or.inr ⟨s, rfl⟩
    · rw [uncomment, if_neg hc]
      have h1 : c ≠ ';' := fun h => hc (Or.inl h)
      have h2 : ¬ (c = '/' ∧ s.head? = some '/') := fun h => hc (Or.inr h)
      have nc : ∀ t, noComment t = true → ¬ (c = '/' ∧ t.head? = some '/') → noComment (c :: t) = true := by
        intro t ht h3
        simp [noComment, h1, ht]
        by_cases h4 : c = '/'
        · exact Or.inr fun h5 => h3 ⟨h4, h5⟩
        · exact Or.inl h4
      rcases ih with ⟨e, hn⟩ | ⟨t, e, hn, hl, hm⟩
      · left; refine ⟨by rw [e], nc _ hn h2⟩
      · right
        refine ⟨t, by rw [List.cons_append, ← e], ?_, ?_, hm⟩
        · apply nc _ hn
          rintro ⟨h3, h4⟩
          apply h2
          refine ⟨h3, ?_⟩
          rw [e]
          cases hu : uncomment s with
          | nil => rw [hu] at h4; simp at h4
          | cons d u => rw [hu] at h4; simpa using h4
        · cases hu : uncomment s with
          | nil =>
            rw [hu] at e
            rcases hm with ⟨u, rfl⟩ | ⟨u, rfl⟩
            · right; rfl
            · left
              simp only [List.getLast?_singleton, ne_eq, Option.some.injEq]
              intro h5
              apply h2
              refine ⟨h5, ?_⟩
              rw [e]; rfl
          | cons d u =>
            rw [hu] at hl
            rw [List.getLast?_cons_cons]; exact hl

theorem stripComment_eq (s : Str) (h : '\n' ∉ s) : stripComment s = uncomment s := by
  rcases uncomment_split s with ⟨e, hn⟩ | ⟨t, e, hn, hl, hm⟩
  · rw [stripComment_none s hn, e]
  · generalize uncomment s = u at *
    subst e
    exact stripComment_some u t hn hl hm (fun c hc h9 => h (by subst h9; simp [hc]))

theorem uncomment_mem {s : Str} {c : Char} (h : c ∈ uncomment s) : c ∈ s := by
  rcases uncomment_split s with ⟨e, _⟩ | ⟨t, e, _⟩
  · rw [e] at h; exact h
  · rw [e]; simp [h]

theorem trim_mem {s : Str} {c : Char} (h : c ∈ trim s) : c ∈ s := by
  obtain ⟨p, q, e, _, _⟩ := trim_decomp s
  rw [e]; simp [h]

theorem body_eq (raw : Str) (h : '\n' ∉ raw) : stripComment (trim raw) = body raw :=
  stripComment_eq _ (fun hh => h (trim_mem hh))

theorem lines_noNl (s : Str) : ∀ l ∈ lines s, '\n' ∉ l := by
  induction s with
  | nil => simp [lines]
  | cons c s ih =>
    intro l hl
    unfold lines at hl
    split at hl
    · simp only [List.mem_cons] at hl
      rcases hl with rfl | hl
      · simp
      · exact ih l hl
    · rename_i hc
      have key : ∀ p ps, lines s = p :: ps → ∀ l ∈ (c :: p) :: ps, '\n' ∉ l := by
        intro p ps e l hl
        rw [e] at ih
        simp only [List.mem_cons] at hl
        rcases hl with rfl | hl
        · simp only [List.mem_cons, not_or]; exact ⟨fun h => hc h.symm, ih p (by simp)⟩
        · exact ih l (by simp [hl])
      split at hl
      · simp only [List.mem_singleton] at hl; subst hl; simp; exact fun h => hc h.symm
      · rename_i p ps e
        split at hl
        · rw [← e] at hl; exact ih l hl
        · exact key p ps e l hl
      · rename_i e _ _; exact key _ _ ‹_› l hl
      · simp only [List.mem_singleton] at hl; subst hl; simp; exact fun h => hc h.symm

/-! ### one step -/

theorem local_iff (line : Str) (h : endsWith ':' line = true) : startsWith c!"@@" line = isLocal line.dropLast := by
  unfold endsWith at h
  simp only [beq_iff_eq] at h
  obtain ⟨l, rfl⟩ := List.getLast?_eq_some_iff.1 h
  rw [List.dropLast_concat]
  unfold isLocal startsWith
  match l with
  | [] => rfl
  | [a] => simp [List.isPrefixOf]
  | a :: b :: l => simp [List.isPrefixOf]

/-- State after counting the line. -/
def PState.next (s : PState) : PState := { s with lineNum := s.lineNum + 1 }

/-- `scan_line` in terms of the kind of the line. -/
def stepKind [Unicode] (env : Env) (s : PState) (raw : Str) : Option PState :=
  match kind raw with
  | .blank => some s.next
  | .label l => match parseLabel env s.next l with
    | .panic => none
    | .err e => some { s.next with errors := s.errors ++ [e] }
    | .ok _ =>
      if isLocal l then
        some { s.next with locals := locInsert s.locals l (s.insts.length, (s.labels.getLast?.map (·.1)).getD []) }
      else
        some { s.next with
          labels := s.labels ++ [(l, s.insts.length)]
          dropped := s.dropped ++ env.rt.order (s.lineNum + 1) s.locals
          locals := [] }
  | .code => match (parseInst (ctxOf env s.next) (body raw)).res with
    | .panic => none
    | .err e => some { s.next with errors := s.errors ++ [e], warns := s.warns ++ (parseInst (ctxOf env s.next) (body raw)).warns }
    | .ok i => some { s.next with insts := s.insts ++ [(s.lineNum + 1, i)], warns := s.warns ++ (parseInst (ctxOf env s.next) (body raw)).warns }

theorem parseLabel_ok [Unicode] {env : Env} {s : PState} {l l' : Str} (h : parseLabel env s l = .ok l') :
    l' = l ∧ s.labels.lookup l = none := by
  unfold parseLabel at h
  split at h
  · cases h
  · split at h
    · cases h
    · split at h
      · split at h <;> cases h
      · rename_i hn; cases h; exact ⟨rfl, hn⟩

theorem stepLine_eq [Unicode] (env : Env) (s : PState) (raw : Str) (h : '\n' ∉ raw) :
    stepLine env s raw = stepKind env s raw := by
  unfold stepLine stepKind
  rw [body_eq raw h]
  unfold scanLine kind
  by_cases hc : endsWith ':' (body raw) = true
  · simp only [hc, if_true, local_iff _ hc]
    have e : ({ s with lineNum := s.lineNum + 1 } : PState) = s.next := rfl
    rw [e]
    cases hp : parseLabel env s.next (body raw).dropLast with
    | panic => rfl
    | err e => rfl
    | ok l' =>
      obtain ⟨rfl, _⟩ := parseLabel_ok hp
      simp only [PState.next]
      split
      · cases s.labels.getLast? <;> rfl
      · rfl
  · simp only [hc]
    by_cases he : (body raw).isEmpty = true
    · simp only [he, if_true]; rfl
    · simp only [he]
      have e : ({ s with lineNum := s.lineNum + 1 } : PState) = s.next := rfl
      rw [e]
      simp only [Bool.false_eq_true, if_false]
      cases (parseInst (ctxOf env s.next) (body raw)).res <;> rfl

theorem runLines_append [Unicode] (env : Env) (s : PState) (a b : List Str) :
    runLines env s (a ++ b) = (runLines env s a).bind fun s' => runLines env s' b := by
  induction a generalizing s with
  | nil => rfl
  | cons raw a ih =>
    simp only [List.cons_append, runLines]
    cases stepLine env s raw with
    | none => rfl
    | some s' => exact ih s'

theorem runLines_snoc [Unicode] (env : Env) (s : PState) (a : List Str) (raw : Str) :
    runLines env s (a ++ [raw]) = (runLines env s a).bind fun s' => stepLine env s' raw := by
  rw [runLines_append]
  congr 1
  funext s'
  simp only [runLines]
  cases stepLine env s' raw <;> rfl

/-- Induction principle for states reached after a prefix of the input. -/
theorem reach_induction [Unicode] {env : Env} {P : List Str → PState → Prop} (h0 : P [] {})
    (hs : ∀ pre s raw s', '\n' ∉ raw → runLines env {} pre = some s → P pre s → stepKind env s raw = some s' → P (pre ++ [raw]) s') :
    ∀ pre, (∀ l ∈ pre, '\n' ∉ l) → ∀ s, runLines env {} pre = some s → P pre s := by
  intro pre
  generalize hn : pre.length = n
  induction n generalizing pre with
  | zero =>
    intro _ s h
    have : pre = [] := List.length_eq_zero_iff.1 hn
    subst this
    cases h; exact h0
  | succ n ih =>
    intro hl s h
    obtain ⟨pre', raw, rfl⟩ : ∃ p r, pre = p ++ [r] := by
      have : pre ≠ [] := by rintro rfl; simp at hn
      exact ⟨pre.dropLast, pre.getLast this, (List.dropLast_concat_getLast this).symm⟩
    rw [runLines_snoc, Option.bind_eq_some_iff] at h
    obtain ⟨s1, h1, h2⟩ := h
    have hr : '\n' ∉ raw := hl raw (by simp)
    rw [stepLine_eq env s1 raw hr] at h2
    exact hs pre' s1 raw s hr h1 (ih pre' (by simpa using hn) (fun l h => hl l (by simp [h])) s1 h1) h2

end Mips
