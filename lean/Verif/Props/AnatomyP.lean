/-
**C81**: what is on a line, and that only this matters.
-/
import Verif.Spec.Anatomy
import Verif.Props.BlanksP
import Verif.Props.EndingsP

namespace Mips
open Source Syntax Branch Decor Anatomy

namespace Anatomy

theorem white_iff (c : Char) : isWs c = true ↔ White c := by
  unfold isWs White whiteCodes
  simp only [Bool.or_eq_true, Bool.and_eq_true, decide_eq_true_eq, beq_iff_eq, UInt32.le_iff_toNat_le, ← UInt32.toNat_inj, UInt32.reduceToNat,
    List.mem_cons, List.not_mem_nil, or_false]
  have : c.val.toNat = c.toNat := rfl
  rw [this]
  omega

theorem white_false {c : Char} : ¬ White c ↔ isWs c = false := by
  rw [← white_iff]; simp

theorem uncomment_marker {c : Str} (h : Marker c) : uncomment c = [] := by
  rcases h with ⟨t, rfl⟩ | ⟨t, rfl⟩ <;> simp [uncomment]

theorem uncomment_front {s c : Str} (h : ∀ a b, s = a ++ b → b ≠ [] → ¬ Marker (b ++ c)) : uncomment (s ++ c) = s ++ uncomment c := by
  induction s with
  | nil => rfl
  | cons d s ih =>
    have h0 : ¬ (d = ';' ∨ (d = '/' ∧ (s ++ c).head? = some '/')) := by
      intro hd
      refine h [] (d :: s) rfl (by simp) ?_
      rcases hd with rfl | ⟨rfl, hd⟩
      · exact .inl ⟨s ++ c, rfl⟩
      · cases hc : s ++ c with
        | nil => rw [hc] at hd; cases hd
        | cons e t =>
          rw [hc] at hd
          cases hd
          exact .inr ⟨t, by rw [List.cons_append, hc]⟩
    rw [List.cons_append, uncomment, if_neg h0, ih fun a b e hb => h (d :: a) b (by rw [e]; rfl) hb]
    rfl

theorem uncomment_decomp (s : Str) : ∃ c, s = uncomment s ++ c ∧ (c = [] ∨ Marker c) ∧
    ∀ a b, uncomment s = a ++ b → b ≠ [] → ¬ Marker (b ++ c) := by
  induction s with
  | nil => exact ⟨[], rfl, .inl rfl, fun a b e hb => absurd (List.append_eq_nil_iff.1 e.symm).2 hb⟩
  | cons d s ih =>
    by_cases hd : d = ';' ∨ (d = '/' ∧ s.head? = some '/')
    · refine ⟨d :: s, by rw [uncomment, if_pos hd]; rfl, .inr ?_, fun a b e hb => ?_⟩
      · rcases hd with rfl | ⟨rfl, hd⟩
        · exact .inl ⟨s, rfl⟩
        · cases s with
          | nil => cases hd
          | cons e t => cases hd; exact .inr ⟨t, rfl⟩
      · rw [uncomment, if_pos hd] at e
        exact absurd (List.append_eq_nil_iff.1 e.symm).2 hb
    · obtain ⟨c, h1, h2, h3⟩ := ih
      refine ⟨c, by rw [uncomment, if_neg hd, List.cons_append, ← h1], h2, fun a b e hb => ?_⟩
      rw [uncomment, if_neg hd] at e
      cases a with
      | cons x a =>
        simp only [List.cons_append, List.cons.injEq] at e
        exact h3 a b e.2 hb
      | nil =>
        rw [List.nil_append] at e
        rw [← e, List.cons_append, ← h1]
        rintro (⟨t, e'⟩ | ⟨t, e'⟩)
        · cases e'; exact hd (.inl rfl)
        · cases e'; exact hd (.inr ⟨rfl, rfl⟩)

theorem marker_trimEnd {b c : Str} (hc : Marker c) : Marker (trimEnd c) ∧ (Marker (b ++ trimEnd c) ↔ Marker (b ++ c)) := by
  have w1 : isWs ';' = false := by decide
  have w2 : isWs '/' = false := by decide
  have key : ∃ x t u, c = x :: t ∧ trimEnd c = x :: u ∧ Marker (x :: u) := by
    rcases hc with ⟨t, rfl⟩ | ⟨t, rfl⟩
    · exact ⟨_, _, trimEnd t, rfl, trimEnd_keep w1, .inl ⟨_, rfl⟩⟩
    · exact ⟨_, _, _, rfl, trimEnd_keep w2, .inr ⟨trimEnd t, by rw [trimEnd_keep w2]⟩⟩
  obtain ⟨x, t, u, rfl, e, hm⟩ := key
  refine ⟨e ▸ hm, ?_⟩
  rw [e]
  rcases b with _ | ⟨y, _ | ⟨z, b⟩⟩
  · exact ⟨fun _ => hc, fun _ => hm⟩
  · simp only [Marker, List.cons_append, List.nil_append, List.cons.injEq]
    constructor
    · rintro (⟨_, rfl, _⟩ | ⟨_, rfl, rfl, _⟩)
      · exact .inl ⟨_, rfl, rfl⟩
      · exact .inr ⟨_, rfl, rfl, rfl⟩
    · rintro (⟨_, rfl, _⟩ | ⟨_, rfl, rfl, _⟩)
      · exact .inl ⟨_, rfl, rfl⟩
      · exact .inr ⟨_, rfl, rfl, rfl⟩
  · simp only [Marker, List.cons_append, List.cons.injEq]
    constructor
    · rintro (⟨_, rfl, _⟩ | ⟨_, rfl, rfl, _⟩)
      · exact .inl ⟨_, rfl, rfl⟩
      · exact .inr ⟨_, rfl, rfl, rfl⟩
    · rintro (⟨_, rfl, _⟩ | ⟨_, rfl, rfl, _⟩)
      · exact .inl ⟨_, rfl, rfl⟩
      · exact .inr ⟨_, rfl, rfl, rfl⟩

theorem statement_iff {raw s : Str} : Statement raw s ↔ s = body raw := by
  constructor
  · intro h
    unfold body
    cases h with
    | plain p s q hp hq hf hl hm =>
      have e : trim (p ++ s ++ q) = s := by
        by_cases h0 : s = []
        · subst h0
          apply trim_blank
          intro c hc
          rw [List.append_nil] at hc
          exact (white_iff c).2 ((List.mem_append.1 hc).elim (hp c) (hq c))
        · exact trim_blank_tight p s q (fun c hc => (white_iff c).2 (hp c hc)) (fun c hc => (white_iff c).2 (hq c hc))
            ⟨h0, fun c hc => white_false.1 (hf c hc), fun c hc => white_false.1 (hl c hc)⟩
      rw [e]
      have := uncomment_front (s := s) (c := []) fun a b e _ => by rw [List.append_nil]; exact hm a b e
      rw [List.append_nil] at this
      rw [this]
      exact (List.append_nil s).symm
    | comment p s c hp hf hc hm =>
      have ne : trimEnd c ≠ [] := by
        rcases (marker_trimEnd (b := []) hc).1 with ⟨t, e⟩ | ⟨t, e⟩ <;> rw [e] <;> simp
      have e : trim (p ++ s ++ c) = s ++ trimEnd c := by
        unfold trim
        rw [List.append_assoc, trimStart_append_blank p _ (fun c hc => (white_iff c).2 (hp c hc))]
        have : trimStart (s ++ c) = s ++ c := by
          unfold trimStart
          cases s with
          | nil => rcases hc with ⟨t, rfl⟩ | ⟨t, rfl⟩ <;> simp [List.dropWhile, show isWs ';' = false by decide, show isWs '/' = false by decide]
          | cons d s => simp [List.dropWhile, white_false.1 (hf d rfl)]
        rw [this, trimEnd_append ne]
      rw [e, uncomment_front fun a b e hb hmk => hm a b e hb ((marker_trimEnd hc).2.1 hmk), uncomment_marker (marker_trimEnd (b := []) hc).1, List.append_nil]
  · rintro rfl
    obtain ⟨p, q, e, hp, hq⟩ := trim_decomp raw
    obtain ⟨c, h1, h2, h3⟩ := uncomment_decomp (trim raw)
    have hp' : ∀ c ∈ p, White c := fun c hc => (white_iff c).1 (hp c hc)
    have hq' : ∀ c ∈ q, White c := fun c hc => (white_iff c).1 (hq c hc)
    have hf : ∀ d, (body raw).head? = some d → ¬ White d := by
      intro d hd
      rw [white_false]
      have hne : trim raw ≠ [] := by
        intro e0
        unfold body at hd
        rw [e0] at hd; cases hd
      refine (trim_tight_of raw hne).2.1 d ?_
      rw [h1, List.head?_append]
      unfold body at hd
      rw [hd]; rfl
    rcases h2 with rfl | h2
    · rw [List.append_nil] at h1
      have hb : body raw = trim raw := h1.symm
      have := Statement.plain p (trim raw) q hp' hq' (hb ▸ hf) (fun d hd => by
          rw [white_false]
          have hne : trim raw ≠ [] := by intro e0; rw [e0] at hd; cases hd
          exact (trim_tight_of raw hne).2.2 d hd) (fun a b e hm => by
          have hne : b ≠ [] := by rintro rfl; rcases hm with ⟨_, h⟩ | ⟨_, h⟩ <;> cases h
          exact h3 a b (h1.symm.trans e) hne (by rw [List.append_nil]; exact hm))
      rw [← e] at this
      rw [hb]; exact this
    · have e2 : raw = p ++ body raw ++ (c ++ q) := by
        rw [List.append_assoc, ← List.append_assoc (body raw)]
        have : trim raw = body raw ++ c := h1
        rw [← this, ← List.append_assoc]; exact e
      have hm : ∀ b : Str, Marker (b ++ (c ++ q)) → Marker (b ++ c) := by
        intro b hb
        rw [← List.append_assoc] at hb
        cases hx : b ++ c with
        | nil =>
          rw [(List.append_eq_nil_iff.1 hx).2] at h2
          rcases h2 with ⟨_, h⟩ | ⟨_, h⟩ <;> cases h
        | cons x X =>
          rw [hx] at hb
          rcases hb with ⟨t, h⟩ | ⟨t, h⟩
          · simp only [List.cons_append, List.cons.injEq] at h
            exact .inl ⟨X, by rw [h.1]⟩
          · simp only [List.cons_append, List.cons.injEq] at h
            obtain ⟨rfl, h⟩ := h
            cases X with
            | nil =>
              exfalso
              cases b with
              | nil => rw [List.nil_append] at hx; rw [hx] at h2; rcases h2 with ⟨_, h⟩ | ⟨_, h⟩ <;> simp at h
              | cons y b =>
                simp only [List.cons_append, List.cons.injEq] at hx
                rw [(List.append_eq_nil_iff.1 hx.2).2] at h2
                rcases h2 with ⟨_, h⟩ | ⟨_, h⟩ <;> cases h
            | cons y X =>
              simp only [List.cons_append, List.cons.injEq] at h
              exact .inr ⟨X, by rw [h.1]⟩
      have := Statement.comment p (body raw) (c ++ q) hp' hf (by
        rcases h2 with ⟨t, rfl⟩ | ⟨t, rfl⟩
        · exact .inl ⟨_, rfl⟩
        · exact .inr ⟨_, rfl⟩) fun a b e hb hh => h3 a b e hb (hm b hh)
      rw [← e2] at this
      exact this

theorem split_pieces (t : Str) : split ',' t ≠ [] ∧ (∀ o ∈ split ',' t, ',' ∉ o) ∧ [','].intercalate (split ',' t) = t := by
  induction t with
  | nil => simp [split, List.intercalate]
  | cons c t ih =>
    obtain ⟨h1, h2, h3⟩ := ih
    unfold split
    split
    · rename_i hc
      subst hc
      refine ⟨by simp, by simpa using h2, ?_⟩
      cases hs : split ',' t with
      | nil => exact absurd hs h1
      | cons p ps =>
        rw [hs] at h3
        show [','].intercalate ([] :: p :: ps) = _
        rw [List.intercalate_cons_cons, h3]; rfl
    · rename_i hc
      split
      · rename_i hs; exact absurd hs h1
      · rename_i p ps hs
        rw [hs] at h2 h3
        refine ⟨by simp, fun o ho => ?_, ?_⟩
        · rcases List.mem_cons.1 ho with rfl | ho
          · simp only [List.mem_cons, not_or]
            exact ⟨Ne.symm hc, h2 p (by simp)⟩
          · exact h2 o (by simp [ho])
        · cases ps with
          | nil => simpa [List.intercalate] using h3
          | cons p' ps =>
            rw [List.intercalate_cons_cons] at h3 ⊢
            rw [List.cons_append, List.cons_append, h3]

theorem split_intercalate : ∀ {ops : List Str}, ops ≠ [] → (∀ o ∈ ops, ',' ∉ o) → split ',' ([','].intercalate ops) = ops
  | [], h, _ => absurd rfl h
  | [o], _, h => by
    have : [','].intercalate [o] = o := by simp [List.intercalate]
    rw [this]; exact split_noComma ',' o (h o (by simp))
  | o :: o' :: ops, _, h => by
    rw [List.intercalate_cons_cons]
    have ih := split_intercalate (ops := o' :: ops) (by simp) fun x hx => h x (by simp [hx])
    have := split_cons ',' o ([','].intercalate (o' :: ops)) (h o (by simp))
    have e : o ++ [','] ++ [','].intercalate (o' :: ops) = o ++ ',' :: [','].intercalate (o' :: ops) := by simp
    rw [e, this, ih]

theorem words_iff {s w : Str} {ops : List Str} : Words s w ops ↔ w = firstWord s ∧ ops = operands s := by
  constructor
  · intro h
    cases h with
    | bare _ hs =>
      obtain ⟨h1, h2, _⟩ := firstWord_bare (q := []) hs
      refine ⟨h1.symm, ?_⟩
      unfold operands
      rw [h2]; rfl
    | more _ _ hw h1 h2 =>
      obtain ⟨_, _, h3, h4⟩ := firstWord_bare (q := [','].intercalate ops) hw
      refine ⟨h3.symm, ?_⟩
      unfold operands
      rw [h4, split_intercalate h1 h2]
  · rintro ⟨rfl, rfl⟩
    by_cases hs : ' ' ∈ s
    · obtain ⟨h1, h2, h3⟩ := split_pieces (operandText s)
      have key : s = firstWord s ++ ' ' :: operandText s ∧ ' ' ∉ firstWord s := by
        clear h1 h2 h3
        induction s with
        | nil => cases hs
        | cons c s ih =>
          unfold firstWord operandText
          by_cases hc : c = ' '
          · simp [hc]
          · rw [if_neg hc, if_neg hc]
            have := ih (by
              rcases List.mem_cons.1 hs with h | h
              · exact absurd h.symm hc
              · exact h)
            refine ⟨by rw [List.cons_append, ← this.1], ?_⟩
            simp only [List.mem_cons, not_or]
            exact ⟨Ne.symm hc, this.2⟩
      have := Words.more (firstWord s) (operands s) key.2 h1 h2
      unfold operands at this ⊢
      rw [h3, ← key.1] at this
      exact this
    · obtain ⟨h1, h2, _⟩ := firstWord_bare (q := []) hs
      unfold operands
      rw [h1, h2]
      exact .bare s hs

/-- the reading of a line -/
def readingOf (raw : Str) : Reading :=
  match kind raw with
  | .blank => .nothing
  | .label l => .label l
  | .code => .instruction (firstWord (body raw)) (operands (body raw))

theorem reads_iff {raw : Str} {r : Reading} : Reads raw r ↔ r = readingOf raw := by
  have last : ∀ (s : Str), endsWith ':' s = true ↔ s.getLast? = some ':' := by intro s; unfold endsWith; simp
  have hk : (body raw = [] ∧ kind raw = .blank) ∨ ((body raw).getLast? = some ':' ∧ kind raw = .label (body raw).dropLast) ∨
      (body raw ≠ [] ∧ (body raw).getLast? ≠ some ':' ∧ kind raw = .code) := by
    unfold kind
    by_cases h : endsWith ':' (body raw) = true
    · rw [if_pos h]; exact .inr (.inl ⟨(last _).1 h, rfl⟩)
    · rw [if_neg h]
      have h' : (body raw).getLast? ≠ some ':' := fun e => h ((last _).2 e)
      by_cases h0 : body raw = []
      · rw [h0]; exact .inl ⟨rfl, rfl⟩
      · have : (body raw).isEmpty = false := by simpa using h0
        rw [this]; exact .inr (.inr ⟨h0, h', rfl⟩)
  unfold readingOf
  constructor
  · intro h
    cases h with
    | nothing h =>
      have h := statement_iff.1 h
      rcases hk with ⟨h1, h2⟩ | ⟨h1, h2⟩ | ⟨h1, h2, h3⟩
      · rw [h2]
      · rw [← h] at h1; cases h1
      · exact absurd h.symm h1
    | label l h =>
      have h := statement_iff.1 h
      rcases hk with ⟨h1, h2⟩ | ⟨h1, h2⟩ | ⟨h1, h2, h3⟩
      · rw [← h] at h1; simp at h1
      · rw [h2, ← h]; simp
      · rw [← h] at h2; simp at h2
    | instruction s w ops h h1' h2' h3' =>
      have h := statement_iff.1 h
      subst h
      rcases hk with ⟨h1, h2⟩ | ⟨h1, h2⟩ | ⟨h1, h2, h3⟩
      · exact absurd h1 h1'
      · exact absurd h1 h2'
      · rw [h3]
        obtain ⟨rfl, rfl⟩ := words_iff.1 h3'
        rfl
  · rintro rfl
    rcases hk with ⟨h1, h2⟩ | ⟨h1, h2⟩ | ⟨h1, h2, h3⟩
    · rw [h2]; exact .nothing _ (statement_iff.2 h1.symm)
    · rw [h2]
      refine .label _ _ (statement_iff.2 ?_)
      obtain ⟨ys, e⟩ := List.getLast?_eq_some_iff.1 h1
      rw [e]; simp
    · rw [h3]; exact .instruction _ _ _ _ (statement_iff.2 rfl) h1 h2 (words_iff.2 ⟨rfl, rfl⟩)

theorem program_total : ∀ ls : List Str, ∃ rs, Program ls rs
  | [] => ⟨[], .nil⟩
  | raw :: ls => by
    obtain ⟨rs, h⟩ := program_total ls
    have hr := (reads_iff (raw := raw)).2 rfl
    cases e : readingOf raw with
    | nothing => rw [e] at hr; exact ⟨rs, .skip raw ls rs hr h⟩
    | label l => rw [e] at hr; exact ⟨_, .cons raw _ ls rs hr (fun h => by cases h) h⟩
    | instruction w ops => rw [e] at hr; exact ⟨_, .cons raw _ ls rs hr (fun h => by cases h) h⟩

theorem program_unique {ls : List Str} {rs rs' : List Reading} (h : Program ls rs) (h' : Program ls rs') : rs = rs' := by
  induction h generalizing rs' with
  | nil => cases h'; rfl
  | skip raw ls rs h1 _ ih =>
    cases h' with
    | skip _ _ _ _ h2 => exact ih h2
    | cons _ r _ _ h2 h3 => exact absurd ((reads_iff.1 h2).trans (reads_iff.1 h1).symm) (fun e => h3 e)
  | cons raw r ls rs h1 h2 _ ih =>
    cases h' with
    | skip _ _ _ h3 => exact absurd ((reads_iff.1 h1).trans (reads_iff.1 h3).symm) (fun e => h2 e)
    | cons _ r' _ _ h3 _ h4 => rw [ih h4, (reads_iff.1 h1).trans (reads_iff.1 h3).symm]

section
variable [Unicode] {γ δ : Type} {g : ParserError → γ} {h : ParserWarning → δ}

theorem lineSim_reading {raw raw' : Str} {r : Reading} (h1 : Reads raw r) (h2 : Reads raw' r) (hr : r = .nothing → False) : LineSim g h raw raw' := by
  have e1 := reads_iff.1 h1
  have e2 := reads_iff.1 h2
  unfold readingOf at e1 e2
  cases hk : kind raw with
  | blank => rw [hk] at e1; exact absurd e1 hr
  | label l =>
    rw [hk] at e1
    cases hk' : kind raw' with
    | blank => rw [hk'] at e2; exact absurd e2 hr
    | label l' => rw [hk'] at e2; rw [e1] at e2; cases e2; exact .inl ⟨l, hk, hk'⟩
    | code => rw [hk'] at e2; rw [e1] at e2; cases e2
  | code =>
    rw [hk] at e1
    cases hk' : kind raw' with
    | blank => rw [hk'] at e2; exact absurd e2 hr
    | label l' => rw [hk'] at e2; rw [e1] at e2; cases e2
    | code =>
      rw [hk'] at e2; rw [e1] at e2
      simp only [Reading.instruction.injEq] at e2
      obtain ⟨e2, e3⟩ := e2
      refine .inr ⟨hk, hk', fun x y c => ?_⟩
      have ne : ∀ {raw}, kind raw = .code → body raw ≠ [] := by
        intro raw hk e
        unfold kind at hk
        rw [e] at hk
        revert hk; decide
      have ho : operandText (body raw) = operandText (body raw') := by
        rw [← (split_pieces (operandText (body raw))).2.2, ← (split_pieces (operandText (body raw'))).2.2]
        unfold operands at e3
        rw [e3]
      have hy : parseInst y (body raw') = parseInst y (body raw) := by
        rw [parseInst_eq y (ne hk), parseInst_eq y (ne hk')]
        unfold mnemonic
        rw [e2, ho]
      rw [hy]
      exact sim_inst c _

theorem sameLines_blankLeft {R : Str → Str → Prop} {ls ls' : List Str} (hs : ∀ raw ∈ ls', kind raw = .blank) (h : SameLines R ls []) :
    SameLines R ls ls' := by
  induction ls' with
  | nil => exact h
  | cons raw ls' ih => exact .right _ _ _ (hs raw (by simp)) (ih fun r hr => hs r (by simp [hr]))

theorem reads_blank {raw : Str} (h : Reads raw .nothing) : kind raw = .blank := by
  have := reads_iff.1 h
  unfold readingOf at this
  cases hk : kind raw <;> rw [hk] at this <;> first | rfl | cases this

theorem sameLines_program {ls ls' : List Str} {rs : List Reading} (h1 : Program ls rs) (h2 : Program ls' rs) : SameLines (LineSim g h) ls ls' := by
  induction h1 generalizing ls' with
  | nil =>
    generalize he : ([] : List Reading) = rs at h2
    induction h2 with
    | nil => exact .nil
    | skip raw ls rs hr _ ih => exact .right _ _ _ (reads_blank hr) (ih he)
    | cons => cases he
  | skip raw ls rs hr _ ih => exact .left _ _ _ (reads_blank hr) (ih h2)
  | cons raw r ls rs hr hne _ ih =>
    generalize he : r :: rs = rs' at h2
    induction h2 with
    | nil => cases he
    | skip raw' ls' rs' hr' _ ih' => exact .right _ _ _ (reads_blank hr') (ih' he)
    | cons raw' r' ls' rs' hr' _ h3 =>
      cases he
      exact .both _ _ _ _ (lineSim_reading hr hr' hne) (ih h3)

end
end Anatomy

/-- **C81**.  There is exactly one reading of every text: the lines it is made of (`Written`, C73) and the statements on them. -/
theorem C81_reading (text : Str) : ∃ ls rs, Endings.Written ls text ∧ Program ls rs ∧
    ∀ ls' rs', Endings.Written ls' text → Program ls' rs' → ls' = ls ∧ rs' = rs := by
  obtain ⟨ls, hl⟩ := written_total text.length text (Nat.le_refl _)
  obtain ⟨rs, hr⟩ := Anatomy.program_total ls
  refine ⟨ls, rs, hl, hr, fun ls' rs' h1 h2 => ?_⟩
  have : ls' = ls := (written_lines h1).symm.trans (written_lines hl)
  subst this
  exact ⟨rfl, Anatomy.program_unique h2 hr⟩

/-- **C81**.  Two texts with the same statements in the same order have the same outcome, up to the line numbers and lines quoted in diagnostics. -/
theorem C81_same [Unicode] (rt : Rt) (m : Mipsasm) (text text' : Str) (ls ls' : List Str) (rs : List Reading) (h1 : Endings.Written ls text)
    (h2 : Endings.Written ls' text') (h3 : Program ls rs) (h4 : Program ls' rs) : (assemble rt m text).erase = (assemble rt m text').erase := by
  rw [← written_lines h1] at h3
  rw [← written_lines h2] at h4
  exact outSim_erase (sim_assemble erase_lineless rfl rfl rfl (Anatomy.sameLines_program h3 h4))

/-! ### An example -/

def exPlain : Str := c!"main:\naddiu $a0, $zero, 5\njr $ra\nnop\n"
def exFancy : Str := c!"; a program\r\n\tmain:// label \r\n\r\n  addiu $a0, $zero, 5;five\n\njr $ra//return\n\u00a0nop \t"
def exPlainLines : List Str := [c!"main:", c!"addiu $a0, $zero, 5", c!"jr $ra", c!"nop"]
def exFancyLines : List Str := [c!"; a program", c!"\tmain:// label ", c!"", c!"  addiu $a0, $zero, 5;five", c!"", c!"jr $ra//return", c!"\u00a0nop \t"]
def exReading : List Reading :=
  [.label c!"main", .instruction c!"addiu" [c!"$a0", c!" $zero", c!" 5"], .instruction c!"jr" [c!"$ra"], .instruction c!"nop" [[]]]

theorem program_dec {ls : List Str} {rs : List Reading} (h : (ls.map Anatomy.readingOf).filter (fun r => decide (r ≠ .nothing)) = rs) : Program ls rs := by
  subst h
  induction ls with
  | nil => exact .nil
  | cons raw ls ih =>
    have hr := (Anatomy.reads_iff (raw := raw)).2 rfl
    rw [List.map_cons]
    by_cases e : Anatomy.readingOf raw = .nothing
    · rw [List.filter_cons_of_neg (by simp [e])]
      exact .skip _ _ _ (e ▸ hr) ih
    · rw [List.filter_cons_of_pos (by simp [e])]
      exact .cons _ _ _ _ hr e ih

/-- The hypotheses of `C81_same` are met: a program, and the same with comments, blank lines, other white space and other ends of lines. -/
example : letI := asciiUnicode
    Endings.Written exPlainLines exPlain ∧ Endings.Written exFancyLines exFancy ∧ Program exPlainLines exReading ∧ Program exFancyLines exReading ∧
    (assemble (idRt true) Mipsasm.new exPlain).words = some [0x24040005#32, 0x03E00008#32, 0#32] ∧
    (assemble (idRt true) Mipsasm.new exFancy).words = some [0x24040005#32, 0x03E00008#32, 0#32] := by
  letI := asciiUnicode
  refine ⟨?_, ?_, program_dec (by decide +kernel), program_dec (by decide +kernel), by decide +kernel, by decide +kernel⟩
  · exact .lf c!"main:" _ _ (by decide) (by decide) (.lf c!"addiu $a0, $zero, 5" _ _ (by decide) (by decide)
      (.lf c!"jr $ra" _ _ (by decide) (by decide) (.lf c!"nop" _ _ (by decide) (by decide) .nil)))
  · exact .crlf c!"; a program" _ _ (by decide) (.crlf c!"\tmain:// label " _ _ (by decide) (.crlf c!"" _ _ (by decide)
      (.lf c!"  addiu $a0, $zero, 5;five" _ _ (by decide) (by decide) (.lf c!"" _ _ (by decide) (by decide)
        (.lf c!"jr $ra//return" _ _ (by decide) (by decide) (.last c!"\u00a0nop \t" (by decide) (by decide)))))))

/-- Blanks between a statement and a comment belong to the statement: `foo: // c` is an instruction with the mnemonic `foo:`, no label. -/
theorem C81_label_comment : Anatomy.Reads c!"foo: // c" (.instruction c!"foo:" [[]]) ∧ Anatomy.Reads c!"foo:// c" (.label c!"foo") :=
  ⟨Anatomy.reads_iff.2 (by decide +kernel), Anatomy.reads_iff.2 (by decide +kernel)⟩

end Mips
