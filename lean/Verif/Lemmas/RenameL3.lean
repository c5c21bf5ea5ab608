/- Renamed labels: errors and warnings. -/
import Verif.Lemmas.RenameL2
import Verif.Spec.RenameMsg
import Verif.Spec.Errors
import Verif.Spec.Warnings
import Verif.Lemmas.LangL4

namespace Mips.Rename
open Mips.Isa hiding conds
open Mips.Names hiding none
open Mips.Syntax Mips.Source Mips.Branch Mips.Operands
open Mips.Lang

/-! ### Lists -/

theorem Paired.append {α β : Type} {S : α → β → Prop} {a c : List α} {b d : List β} (h : Paired S a b) (h' : Paired S c d) : Paired S (a ++ c) (b ++ d) := by
  induction h with
  | nil => exact h'
  | cons _ _ _ _ h _ ih => exact .cons _ _ _ _ h ih

theorem Paired.single {α β : Type} {S : α → β → Prop} {a : α} {b : β} (h : S a b) : Paired S [a] [b] := .cons _ _ _ _ h .nil

theorem inOrder_new {P P' : Nat → ParserError → Prop} {S : ParserError → ParserError → Prop} (h1 : ∀ k e, P k e → ∃ e', P' k e' ∧ S e e')
    (h2 : ∀ k e, P' k e → ∃ e', P k e') {n : Nat} {es : List ParserError} (h : InOrder P n es) : ∃ es', InOrder P' n es' ∧ Paired S es es' := by
  induction h with
  | nil => exact ⟨_, .nil, .nil⟩
  | error k es e _ hp ih =>
    obtain ⟨es', k1, k2⟩ := ih
    obtain ⟨e', k3, k4⟩ := h1 k e hp
    exact ⟨_, .error k es' e' k1 k3, k2.append (.single k4)⟩
  | none k es _ hp ih =>
    obtain ⟨es', k1, k2⟩ := ih
    exact ⟨_, .none k es' k1 (fun e he => by obtain ⟨e', h⟩ := h2 k e he; exact hp e' h), k2⟩

/-- what stands between commas, put together again -/
theorem split_inj (ch : Char) : ∀ a b : Str, split ch a = split ch b → a = b := by
  have ne : ∀ s, split ch s ≠ [] := by
    intro s
    cases s with
    | nil => simp [split]
    | cons c s =>
      unfold split
      split
      · simp
      · split <;> simp
  have form : ∀ c s, c ≠ ch → ∃ p ps, split ch s = p :: ps ∧ split ch (c :: s) = (c :: p) :: ps := by
    intro c s hc
    cases hs : split ch s with
    | nil => exact absurd hs (ne s)
    | cons p ps => exact ⟨p, ps, rfl, by rw [split, if_neg hc, hs]⟩
  intro a
  induction a with
  | nil =>
    intro b h
    cases b with
    | nil => rfl
    | cons d b =>
      by_cases hd : d = ch
      · rw [split, split, if_pos hd] at h
        simp only [List.cons.injEq, true_and] at h
        exact absurd h.symm (ne b)
      · obtain ⟨p, ps, _, h2⟩ := form d b hd
        rw [h2] at h; simp [split] at h
  | cons c a ih =>
    intro b h
    by_cases hc : c = ch
    · cases b with
      | nil =>
        rw [split, split, if_pos hc] at h
        simp only [List.cons.injEq, true_and] at h
        exact absurd h (ne a)
      | cons d b =>
        by_cases hd : d = ch
        · rw [split, split, if_pos hc, if_pos hd] at h
          rw [ih b (List.cons.inj h).2, hc, hd]
        · obtain ⟨p, ps, _, h2⟩ := form d b hd
          rw [h2, split, if_pos hc] at h; simp at h
    · obtain ⟨p, ps, h1, h2⟩ := form c a hc
      cases b with
      | nil => rw [h2] at h; simp [split] at h
      | cons d b =>
        by_cases hd : d = ch
        · rw [h2, split, if_pos hd] at h; simp at h
        · obtain ⟨q, qs, h3, h4⟩ := form d b hd
          rw [h2, h4] at h
          simp only [List.cons.injEq] at h
          rw [h.1.1, ih b (by rw [h1, h3, h.1.2, h.2])]

section
variable [Unicode] {syms : List (BitVec 32 × Str)} {R : Str → Str → Prop} {p p' : Place} {f f' : File}

/-! ### Instructions -/

theorem constError_new (h : SamePlace syms R p p') {s s' : Str} (ho : NewOperand syms R s s') {n : Nat} {r r' : Str} {e : ParserError}
    (hc : ConstError ⟨n, r⟩ s e) : ∃ e', ConstError ⟨n, r'⟩ s' e' ∧ SameError syms R e e' := by
  cases hc with
  | number hg =>
    rcases ho with ho | ⟨rfl, _⟩
    · have n1 := h.ren.name _ _ ho
      have n2 := h.ren.name' _ _ ho
      refine ⟨_, .number fun m => name_group n2, .immediate _ _ _ _ _ (.inr ?_)⟩
      rw [remove0x_absent n1.noHex, remove0x_absent n2.noHex]; exact ho
    · exact ⟨_, .number hg, .immediate _ _ _ _ _ (.inl rfl)⟩
  | address m hg =>
    rcases ho with ho | ⟨rfl, _⟩
    · exact absurd hg (name_group (h.ren.name _ _ ho))
    · exact ⟨_, .address m hg, .address _ _ _ _⟩

theorem complains_new (h : SamePlace syms R p p') {a b : Step} (hs : NewStep syms R a b) (hr : ¬ Lang.Reads p a) {n : Nat} {r r' : Str} {e : ParserError}
    (hc : Complains p ⟨n, r⟩ a e) : ∃ e', Complains p' ⟨n, r'⟩ b e' ∧ SameError syms R e e' := by
  cases hs with
  | gpr b s => obtain ⟨q, h1, rfl⟩ := hc; exact ⟨_, ⟨q, h1, rfl⟩, .register _ _ _ _⟩
  | fpr s => obtain ⟨q, h1, rfl⟩ := hc; exact ⟨_, ⟨q, h1, rfl⟩, .register _ _ _ _⟩
  | c0 s => obtain ⟨q, h1, rfl⟩ := hc; exact ⟨_, ⟨q, h1, rfl⟩, .register _ _ _ _⟩
  | base b s s' hb => obtain ⟨m, q, h1, h2, rfl⟩ := hc; exact ⟨_, ⟨m, q, (hb m).1 h1, h2, rfl⟩, .register _ _ _ _⟩
  | offset b s s' h1 h2 =>
    obtain ⟨o, k1, k2⟩ := hc
    obtain ⟨o', k3, k4⟩ := h1 o k1
    obtain ⟨e', k5, k6⟩ := constError_new (r' := r') h k4 k2
    exact ⟨e', ⟨o', k3, k5⟩, k6⟩
  | const _ s s' ho => exact constError_new h ho hc
  | number _ s s' ho => exact constError_new h ho hc
  | code s s' ho => exact constError_new h ho hc
  | cop s s' ho => exact constError_new h ho hc
  | word32 s s' ho =>
    rcases hc with ⟨⟨v, hv⟩, rfl⟩ | ⟨hv, hc⟩
    · rcases ho with ho | ⟨rfl, hn⟩
      · exact absurd hv (name_value (h.ren.name _ _ ho))
      · exact ⟨_, .inl ⟨⟨v, value_new h (.inr ⟨rfl, hn⟩) hv⟩, rfl⟩, .immediate _ _ _ _ _ (.inl rfl)⟩
    · obtain ⟨e', k1, k2⟩ := constError_new (r' := r') h ho hc
      exact ⟨e', .inr ⟨fun v hv' => hv v ((value_iff h ho).2 hv'), k1⟩, k2⟩
  | target s s' ho =>
    have hc : e = .invalidTargetAddress ⟨n, r⟩ (addressQuote (trim s)) := hc
    subst hc
    rcases ho with ho | ⟨rfl, _⟩
    · exact absurd (.inr (by rw [h.sy]; exact name_labelName (h.ren.name _ _ ho))) hr
    · exact ⟨_, rfl, .address _ _ _ _⟩
  | cond w => obtain ⟨c, h1, rfl⟩ := hc; exact ⟨_, ⟨c, h1, rfl⟩, .cond _ _ _ _⟩
  | shamt | name | fname | format | short => exact absurd hc (by intro h; exact h)

theorem reads_iff' (h : SamePlace syms R p p') {a b : Step} (hs : NewStep syms R a b) : Lang.Reads p a ↔ Lang.Reads p' b :=
  ⟨reads_new h hs, reads_new h.symm hs.symm⟩

theorem fails_new (h : SamePlace syms R p p') {a b : List Step} (hs : NewSteps syms R a b) {n : Nat} {r r' : Str} {e : ParserError}
    (hc : Fails p ⟨n, r⟩ a e) : ∃ e', Fails p' ⟨n, r'⟩ b e' ∧ SameError syms R e e' := by
  induction hs with
  | nil => cases hc
  | cons c d _ _ h1 _ ih =>
    rcases hc with ⟨k1, k2, k3⟩ | ⟨k1, k2⟩
    · obtain ⟨e', g1, g2⟩ := complains_new (r' := r') h h1 k1 k3
      exact ⟨e', .inl ⟨fun k => k1 (reads_new h.symm h1.symm k), fun k => k2 (crashes_new h.symm h1.symm k), g1⟩, g2⟩
    · obtain ⟨e', g1, g2⟩ := ih k2
      exact ⟨e', .inr ⟨reads_new h h1 k1, g1⟩, g2⟩

/-- operands of a line that is refused straight away stay as they are -/
theorem refused_operands {s s' : Str} (hw : firstWord s = firstWord s') (h : NewOperands syms R s s') (hp : plan s = none) : operandText s = operandText s' := by
  cases h with
  | other _ _ h => exact split_inj _ _ _ h
  | word h =>
    unfold plan at hp
    simp only at hp
    rw [if_neg (by rw [h]; decide), if_pos h] at hp; cases hp
  | known sig k1 k2 =>
    by_cases hd : '.' ∈ mnemonic s
    · exact split_inj _ _ _ (k2.fpr (sig_dotted_aux _ k1 hd))
    · have hin : (mnemonic s, sig) ∈ intSignatures := by
        refine List.mem_filter.2 ⟨k1, ?_⟩
        simp only [Bool.not_eq_true', List.contains_eq_mem, decide_eq_false_iff_not]
        exact hd
      have h3 : (intSignatures.any fun e => e.1 == mnemonic s) = true := List.any_eq_true.2 ⟨_, hin, by simp⟩
      unfold plan at hp
      simp only at hp
      rw [if_neg (sig_names_aux _ k1).1, if_neg (sig_names_aux _ k1).2, if_pos h3, Option.map_eq_none_iff] at hp
      have := List.find?_eq_none.1 hp _ hin
      simp [k2.length.1] at this

theorem refusal_new {s s' : Str} (hw : firstWord s = firstWord s') (h : operandText s = operandText s') (n : Nat) (r r' : Str) :
    SameError syms R (refusal ⟨n, r⟩ s) (refusal ⟨n, r'⟩ s') := by
  have hm := mnemonic_word hw
  have ho : operands s = operands s' := by unfold operands; rw [h]
  unfold refusal
  simp only [← hw, ← hm, ← ho, ← h]
  split
  · exact .count _ _ _ _ _ _
  · split
    · exact .count _ _ _ _ _ _
    · split
      · exact .count _ _ _ _ _ _
      · exact .opcode _ _ _ _

/-! ### Lines -/

theorem NewFile.get {ls ls' : List Str} (h : NewFile syms R ls ls') {k : Nat} {raw raw' : Str} (h1 : ls[k]? = some raw) (h2 : ls'[k]? = some raw') :
    NewLine syms R raw raw' := by
  obtain ⟨r, k1, k2⟩ := h.line h1
  rw [h2] at k1; cases k1; exact k2

theorem plan_none (hR : Renaming syms R) {s s' : Str} (hw : firstWord s = firstWord s') (h : NewOperands syms R s s') (hp : plan s = none) :
    plan s' = none := by
  cases h' : plan s' with
  | none => rfl
  | some st =>
    obtain ⟨st', k, _⟩ := plan_new hR.symm hw.symm (h.symm hw) h'
    rw [hp] at k; cases k

theorem same_len {ls ls' : List Str} (h : ls.length = ls'.length) {k : Nat} {raw : Str} (h1 : ls[k]? = some raw) : ∃ raw', ls'[k]? = some raw' :=
  ⟨_, List.getElem?_eq_getElem (by rw [← h]; exact (List.getElem?_eq_some_iff.1 h1).1)⟩

theorem lineError_new (hc : Corr syms R f f') {k : Nat} {raw raw' : Str} (hn : NewLine syms R raw raw') {e : ParserError} (he : LineError f k raw e) :
    ∃ e', LineError f' k raw' e' ∧ SameError syms R e e' := by
  unfold LineError at he ⊢
  cases hn with
  | blank h1 h2 => rw [h1] at he; cases he
  | label l l' h1 h2 h3 =>
    rw [h1] at he; rw [h2]
    rcases he with ⟨c, t, k1, k2, rfl⟩ | ⟨k1, d, n, r, k2, k3, k4, k5, rfl⟩
    · rcases h3 with h3 | ⟨rfl, _⟩
      · obtain ⟨c', t', g1, g2, g3, _⟩ := (hc.ren.name _ _ h3).head
        rw [k1] at g1; cases g1
        rw [Unicode.isNumeric_ascii c g2, g3] at k2; cases k2
      · exact ⟨_, .inl ⟨c, t, k1, k2, rfl⟩, .label _ _ _ _⟩
    · obtain ⟨r', g1⟩ := same_len hc.len k5
      exact ⟨_, .inr ⟨by rw [← h3.loc hc.ren]; exact k1, d, n, r', k2, hc.first h3 k3, counted_new hc k4, g1, rfl⟩, .multiple _ _ _ _ _ _ _ _ h3⟩
  | code h1 h2 h3 h4 =>
    rw [h1] at he; rw [h2]
    rcases he with ⟨k1, rfl⟩ | ⟨st, k1, k2⟩
    · exact ⟨_, .inl ⟨plan_none hc.ren h3 h4 k1, rfl⟩, refusal_new h3 (refused_operands h3 h4 k1) _ _ _⟩
    · obtain ⟨st', g1, g2⟩ := plan_new hc.ren h3 h4 k1
      obtain ⟨e', g3, g4⟩ := fails_new (r' := raw') (hc.place k) g2 k2
      exact ⟨e', .inr ⟨st', g1, g3⟩, g4⟩

theorem lineTaken_new (hc : Corr syms R f f') {k : Nat} {raw raw' : Str} (hn : NewLine syms R raw raw') (h : LineTaken (f.place k) raw) :
    LineTaken (f'.place k) raw' := by
  unfold LineTaken at h ⊢
  cases hn with
  | blank h1 h2 => rw [h2]; trivial
  | label l l' h1 h2 h3 =>
    rw [h1] at h; rw [h2]
    obtain ⟨j1, j2⟩ := h
    exact ⟨h3.head hc.ren j1, fun k4 d k5 k6 => j2 (by rw [h3.loc hc.ren]; exact k4) d k5 ((hc.defs d l l' h3).2 k6)⟩
  | code h1 h2 h3 h4 =>
    rw [h1] at h; rw [h2]
    obtain ⟨st, k1, k2⟩ := h
    obtain ⟨st', g1, g2⟩ := plan_new hc.ren h3 h4 k1
    exact ⟨st', g1, allReads_new (hc.place k) g2 k2⟩

/-! ### Places -/

theorem newFile_of : ∀ {ls ls' : List Str}, ls.length = ls'.length →
    (∀ (k : Nat) raw raw', ls[k]? = some raw → ls'[k]? = some raw' → NewLine syms R raw raw') → NewFile syms R ls ls'
  | [], [], _, _ => .nil
  | [], _ :: _, h, _ => by cases h
  | _ :: _, [], h, _ => by cases h
  | a :: ls, b :: ls', h, hk => .cons _ _ _ _ (hk 0 a b rfl rfl) (newFile_of (by simpa using h) fun k raw raw' h1 h2 => hk (k + 1) raw raw' h1 h2)

open Classical in
/-- the file with the lines blanked that are not taken -/
noncomputable def cleanFile (f : File) : File := { f with ls := f.ls.mapIdx fun k raw => if LineTaken (f.place k) raw then raw else [] }

theorem cleanFile_cleaned (f : File) : Cleaned f (cleanFile f) := by
  refine ⟨rfl, rfl, rfl, by simp [cleanFile], fun k raw hk => ?_⟩
  have h : (cleanFile f).ls[k]? = some (open Classical in if LineTaken (f.place k) raw then raw else []) := by
    simp [cleanFile, hk]
  by_cases ht : LineTaken (f.place k) raw
  · rw [if_pos ht] at h; exact .inl ⟨ht, h⟩
  · rw [if_neg ht] at h; exact .inr ⟨ht, h⟩

theorem cleaned_new (hc : Corr syms R f f') (h : NewFile syms R f.ls f'.ls) {g g' : File} (hg : Cleaned f g) (hg' : Cleaned f' g') :
    NewFile syms R g.ls g'.ls := by
  obtain ⟨_, _, _, a4, a5⟩ := hg
  obtain ⟨_, _, _, b4, b5⟩ := hg'
  refine newFile_of (by rw [a4, b4, hc.len]) fun k r r' h1 h2 => ?_
  have hk : k < f.ls.length := by rw [← a4]; exact (List.getElem?_eq_some_iff.1 h1).1
  have hk' : k < f'.ls.length := by rw [← hc.len]; exact hk
  have e1 := List.getElem?_eq_getElem hk
  have e2 := List.getElem?_eq_getElem hk'
  have hn := h.get e1 e2
  have blank : kind ([] : Str) = .blank := by decide +kernel
  rcases a5 k _ e1 with ⟨c1, c2⟩ | ⟨c1, c2⟩ <;> rcases b5 k _ e2 with ⟨d1, d2⟩ | ⟨d1, d2⟩ <;> rw [h1] at c2 <;> rw [h2] at d2 <;> cases c2 <;> cases d2
  · exact hn
  · exact absurd (lineTaken_new hc hn c1) d1
  · exact absurd (lineTaken_new hc.symm hn.symm d1) c1
  · exact .blank blank blank

theorem placeError_new {g g' : File} (hl : f.ls.length = f'.ls.length) (hc : Corr syms R g g') (h : NewFile syms R g.ls g'.ls) {k : Nat} {raw raw' : Str} {e : ParserError}
    (he : PlaceError f g k raw e) : ∃ e', PlaceError f' g' k raw' e' ∧ SameError syms R e e' := by
  obtain ⟨st, t, hi, hx⟩ := he
  obtain ⟨st', hi', hs⟩ := instr_new hc hi
  have defs : ∀ {t t' : Str}, NewLabel syms R t t' → ((∃ d, Defines g.ls d t) ↔ ∃ d, Defines g'.ls d t') := fun hl =>
    ⟨fun ⟨d, hd⟩ => ⟨d, (hc.defs d _ _ hl).1 hd⟩, fun ⟨d, hd⟩ => ⟨d, (hc.defs d _ _ hl).2 hd⟩⟩
  rcases hx with ⟨h1, h2, h3, rfl⟩ | ⟨h1, h2, h3, h4, h5, rfl⟩ | ⟨h1, h2, h3, rfl⟩ | ⟨h1, v, last, h2, h3, h4, rfl⟩
  · obtain ⟨t', g1, g2⟩ := constant_new hs h1
    refine ⟨_, ⟨st', t', hi', .inl ⟨g1, by rw [← g2.label.loc hc.ren]; exact h2, ?_, rfl⟩⟩, .undefined _ _ _ _ _ g2.label⟩
    rintro ⟨k1, k2⟩
    exact h3 ⟨closed_new hc.ren.symm h.symm k1, (defs g2.label).2 k2⟩
  · obtain ⟨t', g1, g2⟩ := constant_new hs h1
    exact ⟨_, ⟨st', t', hi', .inr (.inl ⟨g1, by rw [← g2.label.loc hc.ren]; exact h2, closed_new hc.ren h h3, (defs g2.label).1 h4,
      fun d hd => h5 d ((hc.chosen _ _ _ _ g2.label h2).2 hd), rfl⟩)⟩, .scope _ _ _ _ _ g2.label⟩
  · obtain ⟨t', g1, g2⟩ := target_mem hs h1
    have hl := labelName_new (hc.place k) g2 (by rw [show (g.place k).syms = g.syms from rfl]; exact h2)
    exact ⟨_, ⟨st', t', hi', .inr (.inr (.inl ⟨g1, hl, fun d hd => h3 d (hc.symm.first g2.symm.label hd), rfl⟩))⟩, .undefined _ _ _ _ _ g2.label⟩
  · obtain ⟨t', g1, g2⟩ := const_mem hs h1
    have hne : f'.ls ≠ [] := fun e => by
      rw [e, List.length_nil] at hl
      rw [List.length_eq_zero_iff.1 hl] at h4; cases h4
    refine ⟨_, ⟨st', t', hi', .inr (.inr (.inr ⟨g1, v, _, number_new (hc.place k) g2 h2, ?_, List.getLast?_eq_some_getLast hne, rfl⟩))⟩, ?_⟩
    · rw [← hc.base, ← hc.total]; exact h3
    · rw [← hl, ← hc.base, ← hc.total]
      exact .bounds _ _ _ _ _ _ _

/-- The errors of renamed files. -/
theorem reports_new (hc : Corr syms R f f') (h : NewFile syms R f.ls f'.ls) {es : List ParserError} (he : Reports f es) :
    ∃ es', Reports f' es' ∧ Paired (SameError syms R) es es' := by
  obtain ⟨a, b, g, rfl, hg, ha, hb⟩ := he
  have hg' := cleanFile_cleaned f'
  have hn := cleaned_new hc h hg hg'
  have hcg : Corr syms R g (cleanFile f') := by
    have := corr_of (ovf := g.ovf) (b := g.base) hc.ren hn
    obtain ⟨a1, a2, a3, _⟩ := hg
    obtain ⟨b1, b2, b3, _⟩ := hg'
    have e1 : g = ⟨g.ovf, g.base, syms, g.ls⟩ := by cases g; simp only at a3 ⊢; rw [a3, hc.sy]
    have e2 : cleanFile f' = ⟨g.ovf, g.base, syms, (cleanFile f').ls⟩ := by
      show File.mk _ _ _ _ = _
      rw [a1, a2, hc.ovf, hc.base, hc.sy']
      rfl
    rw [e1, e2]; exact this
  obtain ⟨a', k1, k2⟩ := inOrder_new (P' := fun k e => ∃ raw, f'.ls[k]? = some raw ∧ LineError f' k raw e) (S := SameError syms R) (by
    rintro k e ⟨raw, h1, h2⟩
    obtain ⟨raw', g1, g2⟩ := h.line h1
    obtain ⟨e', g3, g4⟩ := lineError_new hc g2 h2
    exact ⟨e', ⟨raw', g1, g3⟩, g4⟩) (by
    rintro k e ⟨raw, h1, h2⟩
    obtain ⟨raw', g1, g2⟩ := h.symm.line h1
    obtain ⟨e', g3, g4⟩ := lineError_new hc.symm g2 h2
    exact ⟨e', raw', g1, g3⟩) ha
  obtain ⟨b', k3, k4⟩ := inOrder_new (P' := fun k e => ∃ raw, f'.ls[k]? = some raw ∧ PlaceError f' (cleanFile f') k raw e) (S := SameError syms R) (by
    rintro k e ⟨raw, h1, h2⟩
    obtain ⟨raw', g1, g2⟩ := h.line h1
    obtain ⟨e', g3, g4⟩ := placeError_new (f' := f') (raw' := raw') hc.len hcg hn h2
    exact ⟨e', ⟨raw', g1, g3⟩, g4⟩) (by
    rintro k e ⟨raw, h1, h2⟩
    obtain ⟨raw', g1, g2⟩ := h.symm.line h1
    obtain ⟨e', g3, g4⟩ := placeError_new (f' := f) (raw' := raw') hc.len.symm hcg.symm hn.symm h2
    exact ⟨e', raw', g1, g3⟩) hb
  rw [hc.len] at k1 k3
  exact ⟨a' ++ b', ⟨a', b', _, rfl, hg', k1, k3⟩, k2.append k4⟩

/-! ### Warnings -/

theorem lastInstr_new (hc : Corr syms R f f') {k d : Nat} {raw : Str} (h : LastInstr f k d raw) :
    ∃ raw', LastInstr f' k d raw' ∧ mnemonic (body raw) = mnemonic (body raw') := by
  obtain ⟨h1, h2, ⟨st, h3⟩, h4⟩ := h
  obtain ⟨r, j1, j2, j3, j4⟩ := h3
  rw [h2] at j1; cases j1
  obtain ⟨raw', g1, g2, g3, g4⟩ := hc.code d raw h2 j2
  obtain ⟨st', g5, _⟩ := instr_new hc ⟨raw, h2, j2, j3, j4⟩
  exact ⟨raw', ⟨h1, g1, ⟨st', g5⟩, fun j k1 k2 st k3 => by
    obtain ⟨st2, k4, _⟩ := instr_new hc.symm k3
    exact h4 j k1 k2 st2 k4⟩, mnemonic_word g3⟩

theorem inSlot_new (hc : Corr syms R f f') {k : Nat} {raw raw' : Str} (hn : NewLine syms R raw raw') (h : InSlot f k raw) : InSlot f' k raw' := by
  obtain ⟨h1, h2, ⟨st, h3⟩, d, above, h4, h5, h6⟩ := h
  obtain ⟨above', g1, g2⟩ := lastInstr_new hc h4
  cases hn with
  | blank e => rw [h1] at e; cases e
  | label l l' e => rw [h1] at e; cases e
  | code e1 e2 e3 e4 =>
    obtain ⟨st', g3, _⟩ := plan_new hc.ren e3 e4 h3
    exact ⟨e2, by rw [← mnemonic_word e3]; exact h2, ⟨st', g3⟩, d, above', g1, by rw [← g2]; exact h5, by rw [← g2]; exact h6⟩

theorem unaligned_new (hc : Corr syms R f f') {k : Nat} {raw raw' : Str} {w : ParserWarning} (h : Unaligned f k raw w) :
    ∃ w', Unaligned f' k raw' w' ∧ SameWarning w w' := by
  obtain ⟨st, t, hi, hx⟩ := h
  obtain ⟨st', hi', hs⟩ := instr_new hc hi
  rcases hx with ⟨h1, h2, v, h3, h4, rfl⟩ | ⟨h1, a, h2, h3, rfl⟩
  · obtain ⟨t', g1, g2⟩ := const_mem hs h1
    have ht : t = t' := by
      rcases g2 with g2 | g2
      · exact absurd h3 (name_value (hc.ren.name _ _ g2))
      · exact g2.1
    have := notRefers_new hc g2 h2
    have := value_new (hc.place k) g2 h3
    subst ht
    exact ⟨_, ⟨st', t, hi', .inl ⟨g1, ‹_›, v, this, h4, rfl⟩⟩, .branch _ _ _ _⟩
  · obtain ⟨t', g1, g2⟩ := target_mem hs h1
    have ht : t = t' := by
      rcases g2 with g2 | g2
      · rw [hc.sy] at h2; exact absurd h2 (name_address (hc.ren.name _ _ g2))
      · exact g2.1
    subst ht
    exact ⟨_, ⟨st', t, hi', .inr ⟨g1, a, by rw [hc.sy', ← hc.sy]; exact h2, h3, rfl⟩⟩, .jump _ _ _ _⟩

theorem lineWarnings_new (hc : Corr syms R f f') {k : Nat} {raw raw' : Str} (hn : NewLine syms R raw raw') {ws : List ParserWarning}
    (h : LineWarnings f k raw ws) : ∃ ws', LineWarnings f' k raw' ws' ∧ Paired SameWarning ws ws' := by
  obtain ⟨a, b, rfl, ha, hb⟩ := h
  have ka : ∃ a', ((InSlot f' k raw' ∧ ∃ above, f'.ls[k - 1]? = some above ∧ a' = [.invalidInstructionInDelaySlot ⟨k, above⟩ ⟨k + 1, raw'⟩]) ∨
     (¬ InSlot f' k raw' ∧ a' = [])) ∧ Paired SameWarning a a' := by
    rcases ha with ⟨h1, above, h2, rfl⟩ | ⟨h1, rfl⟩
    · obtain ⟨r, g1⟩ := same_len hc.len h2
      exact ⟨_, .inl ⟨inSlot_new hc hn h1, r, g1, rfl⟩, .single (.slot _ _ _ _ _ _)⟩
    · exact ⟨_, .inr ⟨fun h => h1 (inSlot_new hc.symm hn.symm h), rfl⟩, .nil⟩
  have kb : ∃ b', ((∃ w, Unaligned f' k raw' w ∧ b' = [w]) ∨ ((∀ w, ¬ Unaligned f' k raw' w) ∧ b' = [])) ∧ Paired SameWarning b b' := by
    rcases hb with ⟨w, h1, rfl⟩ | ⟨h1, rfl⟩
    · obtain ⟨w', g1, g2⟩ := unaligned_new (raw' := raw') hc h1
      exact ⟨_, .inl ⟨w', g1, rfl⟩, .single g2⟩
    · refine ⟨_, .inr ⟨fun w hw => ?_, rfl⟩, .nil⟩
      obtain ⟨w', g1, _⟩ := unaligned_new (raw' := raw) hc.symm hw
      exact h1 w' g1
  obtain ⟨a', k1, k2⟩ := ka
  obtain ⟨b', k3, k4⟩ := kb
  exact ⟨a' ++ b', ⟨a', b', rfl, k1, k3⟩, k2.append k4⟩

/-- The warnings of renamed files. -/
theorem warns_new (hc : Corr syms R f f') (h : NewFile syms R f.ls f'.ls) {k : Nat} {ws : List ParserWarning} (hw : Warned f k ws) :
    ∃ ws', Warned f' k ws' ∧ Paired SameWarning ws ws' := by
  induction hw with
  | nil => exact ⟨_, .nil, .nil⟩
  | line k raw ws as _ h1 h2 ih =>
    obtain ⟨ws', g1, g2⟩ := ih
    obtain ⟨raw', g3, g4⟩ := h.line h1
    obtain ⟨as', g5, g6⟩ := lineWarnings_new hc g4 h2
    exact ⟨_, .line k raw' ws' as' g1 g3 g5, g2.append g6⟩

end
end Mips.Rename
