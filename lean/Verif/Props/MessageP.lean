/- C63: the exact text of diagnostics. -/
import Verif.Spec.Message
import Verif.Props.DiagP
import Verif.Props.MainP
import Verif.Props.Shown

namespace Mips
open Diag Shown

theorem byteLen_sum (s : Str) : byteLen s = (s.map Char.utf8Size).sum := by
  induction s with
  | nil => rfl
  | cons c s ih => rw [byteLen, ih, List.map_cons, List.sum_cons]

theorem findStr_column (u s : Str) (n : Nat) : findStr u s = some n ↔ ByteColumn u s n := by
  constructor
  · intro h
    obtain ⟨a, b, h1, h2, h3⟩ := findStr_spec h
    exact ⟨a, b, h1, h3, by rw [← byteLen_sum]; exact h2⟩
  · rintro ⟨a, b, h1, h3, rfl⟩
    have hs : (findStr u s).isSome := (findStr_isSome u s).2 ⟨a, b, h1.symm⟩
    obtain ⟨m, hm⟩ := Option.isSome_iff_exists.1 hs
    obtain ⟨a', b', g1, g2, g3⟩ := findStr_spec hm
    have h4 := h3 a' b' g1
    have h5 := g3 a b h1
    have : a = a' := by
      rw [h1, List.append_assoc, List.append_assoc] at g1
      exact (List.append_inj g1 (by omega)).1
    subst this
    rw [hm, g2, byteLen_sum]

theorem paint_append (c : Colour) (ps qs : List (Colour × Str)) : paintFrom c (ps ++ qs) = paintFrom c ps ++ paintFrom ((ps.getLast?.map (·.1)).getD c) qs := by
  induction ps generalizing c with
  | nil => rfl
  | cons p ps ih =>
    obtain ⟨k, t⟩ := p
    show (if k = c then [] else switch k) ++ t ++ paintFrom k (ps ++ qs) = (if k = c then [] else switch k) ++ t ++ paintFrom k ps ++ _
    rw [ih, ← List.append_assoc]
    congr 2
    cases ps with
    | nil => rfl
    | cons q ps => rw [List.getLast?_cons_cons]; cases h : (q :: ps).getLast? with
      | none => simp at h
      | some x => rfl

/-- the pieces of a quoted place -/
def piecesOf (w n : Nat) (u : Str) (l : Line) (mark : Char) (note : Str) : List (Colour × Str) :=
  [(.blue, blanks (w - (decimal l.num).length) ++ decimal l.num ++ c!" |"), (.plain, c!" " ++ l.content ++ c!"\n")] ++
    (if mark = '^' then [(.blue, blanks w ++ c!" | " ++ blanks n), (.red, List.replicate ((u.map Char.utf8Size).sum) mark ++ c!" " ++ note)]
      else [(.blue, blanks w ++ c!" | " ++ blanks n ++ (List.replicate ((u.map Char.utf8Size).sum) mark ++ c!" " ++ note))]) ++
    [(.plain, c!"\n"), (.blue, blanks w ++ c!" |"), (.plain, c!"\n")]

theorem quoted_pieces (w : Nat) (u : Str) (l : Line) (mark : Char) (note : Str) (ps : List (Colour × Str)) :
    Quoted w (u, l, mark, note) ps ↔ ∃ n, findStr u l.content = some n ∧ ps = piecesOf w n u l mark note := by
  constructor
  · rintro ⟨n, h, rfl⟩; exact ⟨n, (findStr_column _ _ _).2 h, rfl⟩
  · rintro ⟨n, h, rfl⟩; exact ⟨n, (findStr_column _ _ _).1 h, rfl⟩

theorem fmtLine_paint {w : Nat} {u : Str} {l : Line} {b : Bool} {note s : Str} {f : Bool} {n : Nat} (hn : findStr u l.content = some n)
    (h : fmtLine l.num l.content w b note f u = some s) :
    paintFrom .plain ((if f then [(.blue, blanks w ++ c!" |"), (.plain, c!"\n")] else []) ++ piecesOf w n u l (if b then '-' else '^') note) = s ++ c!"\n" := by
  unfold fmtLine at h
  rw [hn] at h
  simp only [Option.some.injEq] at h
  subst h
  have e : blanks (w - ([] : Str).length) = blanks w := rfl
  cases f <;> cases b <;>
    simp [piecesOf, paintFrom, switch, blue, red, reset, esc, padLeft, blanks, byteLen_sum, List.append_assoc]

theorem piecesOf_last (w n : Nat) (u : Str) (l : Line) (mark : Char) (note : Str) (q : List (Colour × Str)) :
    ((q ++ piecesOf w n u l mark note).getLast?.map (·.1)).getD .plain = .plain := by
  unfold piecesOf
  rw [← List.append_assoc, List.getLast?_append]
  rfl

theorem fmtLine_found {n : Nat} {content : Str} {w : Nat} {b : Bool} {note : Str} {f : Bool} {u : Str} :
    (∃ s, fmtLine n content w b note f u = some s) ↔ ∃ k, findStr u content = some k := by
  unfold fmtLine
  cases findStr u content <;> simp

/-- one place -/
theorem headed_paint (head : List (Colour × Str)) (hd : Str) (hh : ∀ ps, paint (head ++ [(.plain, c!"\n")] ++ ps) = hd ++ c!"\n" ++ paintFrom .plain ps)
    (w : Nat) (u : Str) (l : Line) (b : Bool) (note s : Str) (f : Bool) :
    headed hd (fmtLine l.num l.content w b note f u) = some s ↔ ∃ ps, Quoted w (u, l, if b then '-' else '^', note) ps ∧
      s = paint (head ++ [(.plain, c!"\n")] ++ ((if f then [(.blue, blanks w ++ c!" |"), (.plain, c!"\n")] else []) ++ ps)) := by
  constructor
  · intro h
    unfold headed at h
    obtain ⟨t, h1, rfl⟩ := Option.map_eq_some_iff.1 h
    obtain ⟨n, hn⟩ := fmtLine_found.1 ⟨t, h1⟩
    refine ⟨_, (quoted_pieces _ _ _ _ _ _).2 ⟨n, hn, rfl⟩, ?_⟩
    rw [hh, fmtLine_paint hn h1]
    simp [List.append_assoc]
  · rintro ⟨ps, h1, rfl⟩
    obtain ⟨n, hn, rfl⟩ := (quoted_pieces _ _ _ _ _ _).1 h1
    obtain ⟨t, ht⟩ := fmtLine_found (n := l.num) (w := w) (b := b) (note := note) (f := f) |>.2 ⟨n, hn⟩
    rw [hh, fmtLine_paint hn ht, ht]
    simp [headed, List.append_assoc]

/-- two places -/
theorem headed2_paint (head : List (Colour × Str)) (hd : Str) (hh : ∀ ps, paint (head ++ [(.plain, c!"\n")] ++ ps) = hd ++ c!"\n" ++ paintFrom .plain ps)
    (w : Nat) (u u' : Str) (l l' : Line) (b b' : Bool) (note note' s : Str) :
    headed2 hd (fmtLine l.num l.content w b note true u) (fmtLine l'.num l'.content w b' note' false u') = some s ↔
      ∃ ps qs, Quoted w (u, l, if b then '-' else '^', note) ps ∧ Quoted w (u', l', if b' then '-' else '^', note') qs ∧
      s = paint (head ++ [(.plain, c!"\n")] ++ ([(.blue, blanks w ++ c!" |"), (.plain, c!"\n")] ++ (ps ++ [(.blue, c!"..."), (.plain, c!"\n")] ++ qs))) := by
  have key : ∀ n n' t t', findStr u l.content = some n → findStr u' l'.content = some n' → fmtLine l.num l.content w b note true u = some t →
      fmtLine l'.num l'.content w b' note' false u' = some t' →
      paint (head ++ [(.plain, c!"\n")] ++ ([(.blue, blanks w ++ c!" |"), (.plain, c!"\n")] ++ (piecesOf w n u l (if b then '-' else '^') note ++
        [(.blue, c!"..."), (.plain, c!"\n")] ++ piecesOf w n' u' l' (if b' then '-' else '^') note'))) =
      hd ++ ['\n'] ++ t ++ ['\n'] ++ blue ++ c!"..." ++ reset ++ ['\n'] ++ t' ++ ['\n'] := by
    intro n n' t t' hn hn' ht ht'
    have e1 := fmtLine_paint hn ht
    have e2 := fmtLine_paint hn' ht'
    simp only [if_true, Bool.false_eq_true, if_false, List.nil_append] at e1 e2
    rw [hh, List.append_assoc (piecesOf _ _ _ _ _ _), ← List.append_assoc [(Colour.blue, blanks w ++ c!" |"), (.plain, c!"\n")], paint_append, e1, piecesOf_last]
    show _ = _
    have : paintFrom .plain ([(.blue, c!"..."), (.plain, c!"\n")] ++ piecesOf w n' u' l' (if b' then '-' else '^') note') =
        blue ++ c!"..." ++ reset ++ ['\n'] ++ (t' ++ c!"\n") := by
      rw [← e2]
      simp [paintFrom, switch, blue, reset, esc]
    rw [this]
    simp only [List.append_assoc]
  constructor
  · intro h
    unfold headed2 at h
    split at h
    · rename_i t t' ht ht'
      simp only [Option.some.injEq] at h
      obtain ⟨n, hn⟩ := fmtLine_found.1 ⟨t, ht⟩
      obtain ⟨n', hn'⟩ := fmtLine_found.1 ⟨t', ht'⟩
      refine ⟨_, _, (quoted_pieces _ _ _ _ _ _).2 ⟨n, hn, rfl⟩, (quoted_pieces _ _ _ _ _ _).2 ⟨n', hn', rfl⟩, ?_⟩
      rw [key n n' t t' hn hn' ht ht', h]
    · cases h
  · rintro ⟨ps, qs, h1, h2, rfl⟩
    obtain ⟨n, hn, rfl⟩ := (quoted_pieces _ _ _ _ _ _).1 h1
    obtain ⟨n', hn', rfl⟩ := (quoted_pieces _ _ _ _ _ _).1 h2
    obtain ⟨t, ht⟩ := fmtLine_found (n := l.num) (w := w) (b := b) (note := note) (f := true) |>.2 ⟨n, hn⟩
    obtain ⟨t', ht'⟩ := fmtLine_found (n := l'.num) (w := w) (b := b') (note := note') (f := false) |>.2 ⟨n', hn'⟩
    rw [ht, ht', key n n' t t' hn hn' ht ht']
    rfl

theorem quotedAll_one {w : Nat} {p : Str × Line × Char × Str} {ps : List (Colour × Str)} : QuotedAll w [p] ps ↔ Quoted w p ps :=
  ⟨fun h => by cases h; assumption, .one _ _⟩
theorem quotedAll_two {w : Nat} {p q : Str × Line × Char × Str} {ps : List (Colour × Str)} : QuotedAll w [p, q] ps ↔
    ∃ a b, Quoted w p a ∧ Quoted w q b ∧ ps = a ++ [(.blue, c!"..."), (.plain, c!"\n")] ++ b := by
  constructor
  · intro h
    cases h with
    | more _ _ _ a b h1 h2 => exact ⟨a, b, h1, quotedAll_one.1 h2, rfl⟩
  · rintro ⟨a, b, h1, h2, rfl⟩
    exact .more _ _ _ _ _ h1 (.one _ _ h2)

theorem err_head (hd : Str) (ps : List (Colour × Str)) : paint ([(.red, c!"error"), (.plain, hd)] ++ [(.plain, c!"\n")] ++ ps) = (errHead ++ hd) ++ c!"\n" ++ paintFrom .plain ps := by
  simp [paint, paintFrom, switch, errHead, red, reset, esc]
theorem warn_head (hd : Str) (ps : List (Colour × Str)) : paint ([(.plain, hd)] ++ [(.plain, c!"\n")] ++ ps) = hd ++ c!"\n" ++ paintFrom .plain ps := by
  simp [paint, paintFrom]

/-- C63: the text of an error, exactly; there is none if what is to be quoted does not occur in the line. -/
theorem C63_error (e : ParserError) (s : Str) : e.display = some s ↔ ErrorMessage e s := by
  have merge : ∀ rest ps, paint ([(.red, c!"error"), (.plain, rest)] ++ [(.plain, c!"\n")] ++ ps) = paint ([(.red, c!"error"), (.plain, rest ++ c!"\n")] ++ ps) := by
    intro rest ps; simp [paint, paintFrom]
  have one : ∀ (l : Line) (hd u msg : Str), headline e = c!"error" ++ hd → errorPlaces e = [(u, l, '^', msg)] →
      (errLine l hd msg u = some s ↔ ErrorMessage e s) := by
    intro l hd u msg h1 h2
    unfold errLine
    rw [headed_paint _ _ (err_head hd)]
    unfold ErrorMessage
    have hw : columns (errorPlaces e) = marginOf l.num := by rw [h2]; simp [columns, marginOf]
    rw [hw, h2]
    constructor
    · rintro ⟨ps, h, rfl⟩
      refine ⟨hd, ps, h1, quotedAll_one.2 h, ?_⟩
      rw [merge]; simp
    · rintro ⟨rest, ps, h3, h4, rfl⟩
      have : rest = hd := by rw [h1] at h3; exact (List.append_cancel_left h3).symm
      subst this
      refine ⟨ps, quotedAll_one.1 h4, ?_⟩
      rw [merge]; simp
  cases e <;> simp only [ParserError.display]
  case multipleLabelDefinition l x f =>
    rw [headed2_paint _ _ (by intro ps; have := err_head (c!": label `" ++ x ++ c!"` defined multiple times") ps; rw [this]; simp only [List.append_assoc])]
    unfold ErrorMessage
    have hw : columns (errorPlaces (.multipleLabelDefinition l x f)) = max (marginOf l.num) (marginOf f.num) := by
      simp [columns, errorPlaces, marks, notes, marginOf, Nat.max_comm]
    rw [hw]
    show _ ↔ ∃ rest ps, _ ∧ QuotedAll _ [_, _] ps ∧ _
    constructor
    · rintro ⟨ps, qs, h1, h2, rfl⟩
      refine ⟨c!": label `" ++ x ++ c!"` defined multiple times", _, ?_, quotedAll_two.2 ⟨ps, qs, h1, h2, rfl⟩, ?_⟩
      · simp [headline]
      · rw [merge]; simp
    · rintro ⟨rest, ps, h3, h4, rfl⟩
      obtain ⟨a, b, h1, h2, rfl⟩ := quotedAll_two.1 h4
      have : rest = c!": label `" ++ x ++ c!"` defined multiple times" := by
        have h3 : c!"error: label `" ++ x ++ c!"` defined multiple times" = c!"error" ++ rest := h3
        simpa using h3.symm
      subst this
      refine ⟨a, b, h1, h2, ?_⟩
      rw [merge]; simp
  all_goals exact one _ _ _ _ (by simp [headline]) (by simp [errorPlaces, marks, notes])

/-- C63: the text of a warning, exactly. -/
theorem C63_warning (w : ParserWarning) (s : Str) : w.display = some s ↔ WarningMessage w s := by
  have merge : ∀ hd ps, paint ([(.plain, hd)] ++ [(.plain, c!"\n")] ++ ps) = paint ([(.plain, hd ++ c!"\n")] ++ ps) := by
    intro hd ps; simp [paint, paintFrom]
  have one : ∀ (l : Line) (hd u msg : Str), warnHeadline w = hd → warnMarks w = [(u, l, '-', msg)] →
      (headed hd (fmtLine l.num l.content (marginOf l.num) true msg false u) = some s ↔ WarningMessage w s) := by
    intro l hd u msg h1 h2
    rw [headed_paint _ _ (warn_head hd)]
    unfold WarningMessage
    rw [h2, h1]
    constructor
    · rintro ⟨ps, h, rfl⟩
      refine ⟨ps, _, rfl, quotedAll_one.2 h, ?_⟩
      rw [merge]; simp
    · rintro ⟨ps, last, h3, h4, rfl⟩
      cases h3
      refine ⟨ps, quotedAll_one.1 h4, ?_⟩
      rw [merge]; simp
  cases w <;> simp only [ParserWarning.display]
  case invalidInstructionInDelaySlot l d =>
    rw [headed2_paint _ _ (warn_head _)]
    unfold WarningMessage
    show _ ↔ ∃ ps last, some _ = some last ∧ QuotedAll _ [_, _] ps ∧ _
    constructor
    · rintro ⟨ps, qs, h1, h2, rfl⟩
      refine ⟨_, _, rfl, quotedAll_two.2 ⟨ps, qs, h1, h2, rfl⟩, ?_⟩
      rw [merge]; simp [warnHeadline, warnMarks, marginOf]
    · rintro ⟨ps, last, h3, h4, rfl⟩
      cases h3
      obtain ⟨a, b, h1, h2, rfl⟩ := quotedAll_two.1 h4
      refine ⟨a, b, h1, h2, ?_⟩
      rw [merge]; simp [warnHeadline, warnMarks, marginOf]
  case unalignedBranch l o => exact one _ _ _ _ rfl rfl
  case unalignedJump l o => exact one _ _ _ _ rfl rfl

/-- C63: every warning that is printed has its message; an error has one exactly if what it quotes occurs in the lines it names; and there is
only one. -/
theorem C63_message [Unicode] (rt : Rt) (m : Mipsasm) (text : Str) :
    (∀ ws, (assemble rt m text).warnings = some ws → ∀ w ∈ ws, ∃ s, WarningMessage w s) ∧
    (∀ e : ParserError, (∃ s, ErrorMessage e s) ↔ ∀ p ∈ marks e, p.1 <:+: p.2.content) ∧
    (∀ e s t, ErrorMessage e s → ErrorMessage e t → s = t) ∧ ∀ w s t, WarningMessage w s → WarningMessage w t → s = t := by
  refine ⟨fun ws h w hw => ?_, fun e => ?_, fun e s t h1 h2 => ?_, fun w s t h1 h2 => ?_⟩
  · obtain ⟨s, hs⟩ := Option.isSome_iff_exists.1 (assemble_warns_display rt m text ws h w hw)
    exact ⟨s, (C63_warning w s).1 hs⟩
  · rw [← C28_exact]
    exact exists_congr fun s => (C63_error e s).symm
  · have h1 := (C63_error e s).2 h1
    rw [(C63_error e t).2 h2] at h1; exact (Option.some.inj h1).symm
  · have h1 := (C63_warning w s).2 h1
    rw [(C63_warning w t).2 h2] at h1; exact (Option.some.inj h1).symm

/-- Non-vacuity: a message with two places, and one that a terminal without colours shows like this. -/
example : ErrorMessage (.multipleLabelDefinition ⟨10, c!"foo:"⟩ c!"foo" ⟨9, c!" foo: nop"⟩)
      (c!"\x1b[91merror\x1b[0m: label `foo` defined multiple times\n\x1b[94m   |\x1b[0m\n\x1b[94m 9 |\x1b[0m  foo: nop\n" ++
       c!"\x1b[94m   |  --- first defined here\x1b[0m\n\x1b[94m   |\x1b[0m\n\x1b[94m...\x1b[0m\n\x1b[94m10 |\x1b[0m foo:\n" ++
       c!"\x1b[94m   | \x1b[91m^^^ redefined here\x1b[0m\n\x1b[94m   |\x1b[0m\n") ∧
    ErrorMessage (.invalidRegister ⟨3, c!"mtc0 $a0, $é"⟩ c!"é")
      (c!"\x1b[91merror\x1b[0m: invalid register `é`\n\x1b[94m  |\x1b[0m\n\x1b[94m3 |\x1b[0m mtc0 $a0, $é\n" ++
       c!"\x1b[94m  |            \x1b[91m^^ \x1b[0m\n\x1b[94m  |\x1b[0m\n") := by
  constructor <;> refine (C63_error _ _).1 ?_ <;> decide +kernel

end Mips
