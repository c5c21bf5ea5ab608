/-
**C73** — the ends of lines do not matter: line feeds, carriage returns with line feeds, a last line with or without end.
-/
import Verif.Spec.Endings
import Verif.Lemmas.LangL15
import Verif.Props.RoundTrip
import Verif.Props.IoRun

namespace Mips
open Endings Cli

theorem lines_lf : ∀ (l : Str) (rest : Str), '\n' ∉ l → l.getLast? ≠ some '\r' → lines (l ++ '\n' :: rest) = l :: lines rest
  | [], rest, _, _ => by simp [lines]
  | [c], rest, h, hr => by
    have hc : c ≠ '\n' := fun e => h (by simp [e])
    have hr : c ≠ '\r' := fun e => hr (by simp [e])
    have h1 : lines ('\n' :: rest) = [] :: lines rest := by simp [lines]
    show lines (c :: '\n' :: rest) = _
    rw [lines_cons2 c '\n' rest hc _ _ h1, if_neg (fun e => hr e.2)]
  | c :: d :: l, rest, h, hr => by
    have hc : c ≠ '\n' := fun e => h (by simp [e])
    have hd : d ≠ '\n' := fun e => h (by simp [e])
    have ih := lines_lf (d :: l) rest (fun e => h (List.mem_cons_of_mem _ e)) (by simpa using hr)
    show lines (c :: d :: (l ++ '\n' :: rest)) = _
    rw [lines_cons2 c d (l ++ '\n' :: rest) hc _ _ ih, if_neg (fun e => hd e.1)]

theorem written_lines {ls : List Str} {text : Str} (h : Written ls text) : lines text = ls := by
  induction h with
  | nil => rfl
  | last l h1 h2 => exact lines_single h1 h2
  | lf l ls text h1 h2 _ ih => rw [lines_lf l text h1 h2, ih]
  | crlf l ls text h1 _ ih => rw [lines_crlf l text h1, ih]

theorem written_cons {c : Char} (hc : c ≠ '\n') {ls : List Str} {text : Str} (h : Written ls text) (hne : text ≠ [])
    (hr : ∀ t, text = '\n' :: t → c ≠ '\r') : ∃ l ls', ls = l :: ls' ∧ Written ((c :: l) :: ls') (c :: text) := by
  cases h with
  | nil => exact absurd rfl hne
  | last l h1 h2 => exact ⟨text, [], rfl, .last (c :: text) (by simp) (by simp [h2, hc.symm])⟩
  | lf l ls t h1 h2 h3 =>
    refine ⟨l, ls, rfl, .lf (c :: l) ls t (by simp [h1, hc.symm]) ?_ h3⟩
    cases l with
    | nil => simpa using hr t rfl
    | cons d l => simpa using h2
  | crlf l ls t h1 h2 => exact ⟨l, ls, rfl, .crlf (c :: l) ls t (by simp [h1, hc.symm]) h2⟩

theorem written_total : ∀ (n : Nat) (text : Str), text.length ≤ n → ∃ ls, Written ls text := by
  intro n
  induction n with
  | zero => intro text h; have : text = [] := List.length_eq_zero_iff.1 (by omega); subst this; exact ⟨_, .nil⟩
  | succ n ih =>
    intro text h
    cases text with
    | nil => exact ⟨_, .nil⟩
    | cons c t =>
      simp only [List.length_cons] at h
      obtain ⟨ls, hl⟩ := ih t (by omega)
      by_cases hc : c = '\n'
      · subst hc; exact ⟨_, .lf [] ls t (by simp) (by simp) hl⟩
      · by_cases hne : t = []
        · subst hne; exact ⟨_, .last [c] (by simp) (by simp [Ne.symm hc])⟩
        · by_cases hr : ∃ u, t = '\n' :: u ∧ c = '\r'
          · obtain ⟨u, rfl, rfl⟩ := hr
            simp only [List.length_cons] at h
            obtain ⟨ls, hl⟩ := ih u (by omega)
            exact ⟨_, .crlf [] ls u (by simp) hl⟩
          · obtain ⟨l, ls', rfl, hw⟩ := written_cons hc hl hne (fun u e1 e2 => hr ⟨u, e1, e2⟩)
            exact ⟨_, hw⟩

/-- **C73.** Every text is made of lines in exactly one way: the lines the assembler works on, numbered as it numbers them. -/
theorem C73_lines (ls : List Str) (text : Str) : Written ls text ↔ lines text = ls :=
  ⟨written_lines, fun h => by
    obtain ⟨ls', hw⟩ := written_total _ text (Nat.le_refl _)
    rw [← h, written_lines hw]; exact hw⟩

/-- **C73.** Whether lines end in line feeds or in carriage returns and line feeds, and whether the last one has an end, does not matter: the outcome
of the assembly is the same, with the same code, errors and warnings. -/
theorem C73_endings [Unicode] (rt : Rt) (m : Mipsasm) (ls : List Str) (text text' : Str) (h : Written ls text) (h' : Written ls text') :
    assemble rt m text = assemble rt m text' := by
  simp only [assemble, parse, written_lines h, written_lines h']

/-- The two ends look the same, but for the contents of the file `p`. -/
inductive SameButFor (p : Str) : End → End → Prop
  | panic : SameButFor p .panic .panic
  | status (n disk disk' out err) : (∀ q, q ≠ p → disk q = disk' q) → SameButFor p (.status n disk out err) (.status n disk' out err)

section
variable [Unicode] {ovf : Bool} {L : Lib} {c : Cmd} {d : Disk}

theorem symText_set {p : Str} {bs : Bytes} (h : c.syms ≠ some p) {text : Str} (hs : SymText c d text) : SymText c (d.set p bs) text := by
  unfold SymText at hs ⊢
  cases e : c.syms with
  | none => rw [e] at hs; exact hs
  | some q =>
    rw [e] at hs
    show Disk.set d p bs q = _
    unfold Disk.set
    rw [if_neg (fun e' => h (by rw [e, e'])), hs]

theorem configured_set {p : Str} {bs : Bytes} (h : c.syms ≠ some p) {syms : List (Word × Str)} {addr : Word} (hs : Configured L c d syms addr) :
    Configured L c (d.set p bs) syms addr := by
  obtain ⟨t, y, h1, h2⟩ := hs
  exact ⟨t, y, symText_set h h1, h2⟩

theorem sameButFor_success {p : Str} {bs file : Bytes} {text err : Str} : SameButFor p (success c d file text err) (success c (d.set p bs) file text err) := by
  unfold success
  cases c.output with
  | none => exact .status _ _ _ _ _ (fun q hq => by unfold Disk.set; rw [if_neg hq])
  | some o => exact .status _ _ _ _ _ (fun q hq => by unfold Disk.set; rw [if_neg hq])

theorem ends_endings {ls : List Str} {text text' : Str} (h : Written ls text) (h' : Written ls text') (hm : c.mode = .asm) (hs : c.syms ≠ some c.input)
    (hd : d c.input = some (utf8 text)) {x : End} (hx : Ends ovf L c d x) :
    ∃ y, Ends ovf L c (d.set c.input (utf8 text')) y ∧ SameButFor c.input x y := by
  have hin : (d.set c.input (utf8 text')) c.input = some (utf8 text') := by unfold Disk.set; rw [if_pos rfl]
  have hl : lines text = lines text' := by rw [written_lines h, written_lines h']
  have hsame : ∀ n out err, SameButFor c.input (.status n d out err) (.status n (d.set c.input (utf8 text')) out err) :=
    fun n out err => .status _ _ _ _ _ (fun q hq => by unfold Disk.set; rw [if_neg hq])
  have hdata : ∀ {data : Str}, d c.input = some (utf8 data) → data = text := fun e => by rw [hd] at e; exact (utf8_inj (Option.some.inj e)).symm
  cases hx with
  | symbols p bs h1 h2 h3 =>
    have hp : p ≠ c.input := fun e => hs (by rw [h1, e])
    exact ⟨_, .symbols p bs h1 (by unfold Disk.set; rw [if_neg hp]; exact h2) h3, hsame _ _ _⟩
  | yaml t h1 h2 => exact ⟨_, .yaml t (symText_set hs h1) h2, .panic⟩
  | base t y h1 h2 h3 => exact ⟨_, .base t y (symText_set hs h1) h2 h3, hsame _ _ _⟩
  | input syms addr bs h1 h2 h3 h4 =>
    rw [hd] at h3; cases h3; exact absurd rfl (h4 text)
  | crash syms addr data h1 h2 h3 h4 =>
    cases hdata h3
    rw [hl] at h4
    exact ⟨_, .crash syms addr text' h1 (configured_set hs h2) hin h4, .panic⟩
  | code syms addr data ws warns ts file t h1 h2 h3 h4 h5 h6 h7 h8 h9 =>
    cases hdata h3
    rw [hl] at h4 h5 h6
    exact ⟨_, .code syms addr text' ws warns ts file t h1 (configured_set hs h2) hin h4 h5 h6 h7 h8 h9, sameButFor_success⟩
  | errors syms addr data es warns ts us h1 h2 h3 h4 h5 h6 h7 h8 =>
    cases hdata h3
    rw [hl] at h4 h5 h6
    exact ⟨_, .errors syms addr text' es warns ts us h1 (configured_set hs h2) hin h4 h5 h6 h7 h8, hsame _ _ _⟩
  | unquoted syms addr data es e h1 h2 h3 h4 h5 h6 h7 =>
    cases hdata h3
    rw [hl] at h4 h5
    exact ⟨_, .unquoted syms addr text' es e h1 (configured_set hs h2) hin h4 h5 h6 h7, .panic⟩
  | words syms addr bytes h1 => rw [hm] at h1; cases h1
  | noListing syms addr bytes ws h1 => rw [hm] at h1; cases h1
  | listing syms addr bytes ws h1 => rw [hm] at h1; cases h1

end

/-- **C73.** The same for the tool: if the ends of the lines of the program are written in another way, a run ends with the same status, the same
texts on standard output and standard error, and the same contents of all other files. -/
theorem C73_tool [Unicode] (rt : Rt) (L : Lib) (c : Cmd) (d : Disk) (ls : List Str) (text text' : Str) (h : Written ls text) (h' : Written ls text')
    (hm : c.mode = .asm) (hs : c.syms ≠ some c.input) (hd : d c.input = some (utf8 text)) (x : End)
    (hx : ∃ s, Reach true (start rt L c d) s ∧ IsEnd s x) :
    ∃ y, (∃ s, Reach true (start rt L c (d.set c.input (utf8 text'))) s ∧ IsEnd s y) ∧ SameButFor c.input x y := by
  obtain ⟨y, h1, h2⟩ := ends_endings h h' hm hs hd ((C62_run rt L c d x).1 hx)
  exact ⟨y, (C62_run rt L c _ y).2 h1, h2⟩

/-- three lines with an error on the last, written in two ways -/
theorem exDos : Written [c!"nop", c!"", c!"foo $t0"] c!"nop\r\n\r\nfoo $t0\r\n" ∧ Written [c!"nop", c!"", c!"foo $t0"] c!"nop\n\nfoo $t0" :=
  ⟨(C73_lines _ _).2 (by decide +kernel), (C73_lines _ _).2 (by decide +kernel)⟩

example : @assemble asciiUnicode (idRt true) Mipsasm.new c!"nop\r\n\r\nfoo $t0\r\n" = @assemble asciiUnicode (idRt true) Mipsasm.new c!"nop\n\nfoo $t0" ∧
    (@assemble asciiUnicode (idRt true) Mipsasm.new c!"nop\n\nfoo $t0").errors.map (fun es => es.map fun e => e.line) = some [⟨3, c!"foo $t0"⟩] :=
  ⟨@C73_endings asciiUnicode (idRt true) Mipsasm.new _ _ _ exDos.1 exDos.2, by letI := asciiUnicode; decide +kernel⟩

/-- and two runs of the tool, with the same message and status -/
example :
    let c : Cmd := ⟨.asm, some c!"o", none, c!"i", c!"0"⟩
    let d : Disk := fun p => if p = c!"i" then some (utf8 c!"nop\n\nfoo $t0") else none
    c.syms ≠ some c.input ∧ d c.input = some (utf8 c!"nop\n\nfoo $t0") ∧
    (clean (@program asciiUnicode (idRt true) noYaml c) d [] []).any (fun s => ended 1 s.io &&
      (clean (@program asciiUnicode (idRt true) noYaml c) (d.set c.input (utf8 c!"nop\r\n\r\nfoo $t0\r\n")) [] []).any fun s' => ended 1 s'.io &&
        s.err == s'.err && s.err != []) = true := by
  letI := asciiUnicode
  decide +kernel

/-- the carriage returns of the lines themselves stay: they are not ends of lines -/
example : lines c!"nop\r\r\nb\rc\r" = [c!"nop\r", c!"b\rc\r"] := by decide +kernel

end Mips
