/-
**C74** — errors are independent of each other: blanking lines that are complained about removes exactly these complaints.
-/
import Verif.Lemmas.RecoverL
import Verif.Props.EditP
import Verif.Props.WarningsP

namespace Mips
open Source Syntax Branch Operands Recover
open Lang (plan)

/-- a program that is refused has an error -/
theorem err_nonempty [Unicode] (rt : Rt) (m : Mipsasm) (text : Str) (ws : List ParserWarning) : assemble rt m text ≠ .err [] ws := by
  intro h
  unfold assemble at h
  split at h
  · cases h
  · rename_i out hp
    split at h
    · split at h
      · rename_i e hr
        cases h
        unfold parse at hp
        dsimp only at hp
        split at hp
        · cases hp
        · split at hp
          · cases hp
          · cases hp
            dsimp only at hr
            split at hr
            · cases hr
            · rename_i hne
              have heq := Except.error.inj hr
              exact hne (by rw [heq]; rfl)
      · split at h <;> cases h
    · cases h

theorem cut_of [Unicode] {rt : Rt} {m : Mipsasm} {text text' : Str} {S : Nat → Bool} {es : List ParserError}
    (he : (assemble rt m text).errors = some es) (hB : Blanked S (lines text) (lines text'))
    (hS : ∀ k, S k = true → ∃ e ∈ lineErrors es, e.line.num = k + 1) :
    Cut S ⟨rt.ovf, m.base, m.syms, lines text⟩ ⟨rt.ovf, m.base, m.syms, lines text'⟩ := by
  refine ⟨rfl, rfl, rfl, hB, fun k raw hk hs => ?_⟩
  obtain ⟨e, h1, h2⟩ := hS k hs
  exact lineError_not ((lineErrors_iff he hk).1 ⟨h1, h2⟩)

/-- **C74.** Lines that are complained about are blanked: the errors that remain are the other ones, in the same order, unless there are none and the
program, all of whose lines are read now, makes the assembler panic. -/
theorem C74_recover [Unicode] (rt : Rt) (m : Mipsasm) (text text' : Str) (S : Nat → Bool) (es : List ParserError)
    (he : (assemble rt m text).errors = some es) (hB : Blanked S (lines text) (lines text'))
    (hS : ∀ k, S k = true → ∃ e ∈ lineErrors es, e.line.num = k + 1) :
    (assemble rt m text').errors = some (remaining S es) ∨ (assemble rt m text' = .panic ∧ remaining S es = []) := by
  have hc := cut_of he hB hS
  obtain ⟨h1, h2⟩ := (C58_report rt m text es).1 he
  have h3 := hc.reports h2
  by_cases hp : Lang.Panics ⟨rt.ovf, m.base, m.syms, lines text'⟩
  · have hpan : assemble rt m text' = .panic := (C56_verdict rt m text').1.2 hp
    refine .inr ⟨hpan, ?_⟩
    rcases hp with h4 | h4 | ⟨h4, h5, h6⟩
    · exact absurd (.inl (hc.lineEnds h4)) h1
    · exact absurd (.inr (.inl (hc.overflows h4))) h1
    · obtain ⟨a, b, g, e, hg, ha, hb⟩ := h3
      have nil : ∀ {P : Nat → ParserError → Prop} {n : Nat} {l : List ParserError}, (∀ k e, ¬ P k e) → Lang.InOrder P n l → l = [] := by
        intro P n l hP h
        induction h with
        | nil => rfl
        | error k es e _ h _ => exact absurd h (hP k e)
        | none k es _ _ ih => exact ih
      have hga : g = ⟨rt.ovf, m.base, m.syms, lines text'⟩ := by
        refine cleaned_unique hg ⟨rfl, rfl, rfl, rfl, fun k raw hk => .inl ⟨h4 k raw hk, hk⟩⟩
      have ea : a = [] := nil (fun k e' ⟨raw, hk, hl⟩ => lineError_not hl (h4 k raw hk)) ha
      have eb : b = [] := by
        refine nil (fun k e' ⟨raw, hk, hl⟩ => h5 ?_) hb
        rw [hga] at hl
        obtain ⟨st, t, hi, hx⟩ := hl
        refine ⟨k, st, t, hi, ?_⟩
        rcases hx with ⟨j1, j2, j3, _⟩ | ⟨j1, j2, j3, j4, j5, _⟩ | ⟨j1, j2, j3, _⟩ | ⟨j1, v, last, j2, j3, _⟩
        · exact .inl ⟨j1, j2, fun ⟨y1, d, y2⟩ => j3 ⟨y1, d, y2.1⟩⟩
        · exact .inl ⟨j1, j2, fun ⟨_, d, y2⟩ => j5 d y2⟩
        · exact .inr (.inl ⟨j1, j2, j3⟩)
        · exact .inr (.inr ⟨j1, v, j2, j3⟩)
      rw [e, ea, eb]; rfl
  · exact .inl ((C58_report rt m text' _).2 ⟨hp, h3⟩)

/-- **C74.** The warnings that remain are the other ones, too. -/
theorem C74_warnings [Unicode] (rt : Rt) (m : Mipsasm) (text text' : Str) (S : Nat → Bool) (es : List ParserError) (ws : List ParserWarning)
    (he : (assemble rt m text).errors = some es) (hw : (assemble rt m text).warnings = some ws) (hB : Blanked S (lines text) (lines text'))
    (hS : ∀ k, S k = true → ∃ e ∈ lineErrors es, e.line.num = k + 1) (hp : assemble rt m text' ≠ .panic) :
    (assemble rt m text').warnings = some (remainingWarnings S ws) := by
  have hc := cut_of he hB hS
  obtain ⟨h1, h2⟩ := (C59_warnings rt m text ws).1 hw
  refine (C59_warnings rt m text' _).2 ⟨fun h => hp ((C56_verdict rt m text').1.2 h), ?_⟩
  unfold Lang.Warns
  rw [show (lines text').length = (lines text).length from hB.1]
  exact hc.warned h2

/-- **C74.** If all lines that are complained about are blanked and all places are found, the program is accepted, unless the assembler panics. -/
theorem C74_accepted [Unicode] (rt : Rt) (m : Mipsasm) (text text' : Str) (S : Nat → Bool) (es : List ParserError)
    (he : (assemble rt m text).errors = some es) (hB : Blanked S (lines text) (lines text'))
    (hS : ∀ k, S k = true ↔ ∃ e ∈ lineErrors es, e.line.num = k + 1) (hr : ∀ e ∈ es, e.isRef = false) :
    (∃ ws, (assemble rt m text').words = some ws) ∨ assemble rt m text' = .panic := by
  have hrem : remaining S es = [] := by
    unfold remaining
    rw [List.map_eq_nil_iff, List.filter_eq_nil_iff]
    intro e hm
    have hle : e ∈ lineErrors es := List.mem_filter.2 ⟨hm, by rw [hr e hm]; rfl⟩
    obtain ⟨tr, out, hT, rfl, b, c⟩ := assemble_errors he
    have hnum : 1 ≤ e.line.num := by
      rcases List.mem_append.1 hm with h | h
      · obtain ⟨k', ws, hk'⟩ := outErrors_get h
        obtain ⟨raw', _, h2, _⟩ := trace_err_line hT hk'
        rw [h2]; simp
      · have := (ref_isRef b c e h).1
        rw [hr e hm] at this; cases this
    have : S (e.line.num - 1) = true := (hS _).2 ⟨e, hle, by omega⟩
    simp [hr e hm, this]
  rcases C74_recover rt m text text' S es he hB (fun k hk => (hS k).1 hk) with h | h
  · rw [hrem] at h
    cases ha : assemble rt m text' with
    | panic => exact .inr rfl
    | ok is ws => exact .inl ⟨getBytes is, rfl⟩
    | err es' ws =>
      rw [ha] at h
      cases (Option.some.inj h : es' = [])
      exact absurd ha (err_nonempty _ _ _ _)
  · exact .inr h.1

/-- four lines: two wrong instructions, a label that is defined again, and a jump to a label that there is not -/
def exWrong : Str := c!"x:\naddi $t0, $zz, 1\nx:\nj y\nfoo $t0\n"

/-- the second and third line blanked -/
def exCut : Str := c!"x:\n\n\nj y\nfoo $t0\n"

/-- Non-vacuity of C74: two of the four errors remain. -/
example : letI := asciiUnicode
    Blanked (fun k => k == 1 || k == 2) (lines exWrong) (lines exCut) ∧
    (assemble (idRt true) Mipsasm.new exWrong).errors.map (fun es => es.map fun e => (e.line.num, e.isRef)) = some [(2, false), (3, false), (5, false), (4, true)] ∧
    (assemble (idRt true) Mipsasm.new exCut).errors.map (fun es => es.map fun e => (e.line.num, e.isRef)) = some [(5, false), (4, true)] ∧
    (assemble (idRt true) Mipsasm.new exCut).errors = (assemble (idRt true) Mipsasm.new exWrong).errors.map (remaining fun k => k == 1 || k == 2) := by
  letI := asciiUnicode
  have e1 : lines exWrong = [c!"x:", c!"addi $t0, $zz, 1", c!"x:", c!"j y", c!"foo $t0"] := by decide +kernel
  have e2 : lines exCut = [c!"x:", [], [], c!"j y", c!"foo $t0"] := by decide +kernel
  refine ⟨⟨by rw [e1, e2]; rfl, fun k raw h => ?_⟩, by decide +kernel, by decide +kernel, by decide +kernel⟩
  rw [e1] at h; rw [e2]
  match k, h with
  | 0, h => cases h; rfl
  | 1, h => cases h; rfl
  | 2, h => cases h; rfl
  | 3, h => cases h; rfl
  | 4, h => cases h; rfl

/-- Warnings: a refused instruction in a delay slot, and one behind it. -/
example : letI := asciiUnicode
    (assemble (idRt true) Mipsasm.new c!"jr $ra\nbeq $t0, $zz, 0\nj 2").errors.map List.length = some 1 ∧
    (assemble (idRt true) Mipsasm.new c!"jr $ra\nbeq $t0, $zz, 0\nj 2").warnings.map (fun ws => ws.map about) = some [2, 3, 3] ∧
    (assemble (idRt true) Mipsasm.new c!"jr $ra\n\nj 2").warnings =
      (assemble (idRt true) Mipsasm.new c!"jr $ra\nbeq $t0, $zz, 0\nj 2").warnings.map (remainingWarnings fun k => k == 1) := by
  letI := asciiUnicode
  exact ⟨by decide +kernel, by decide +kernel, by decide +kernel⟩

/-- The exception is real: when the only error is gone, the assembler may panic. -/
theorem C74_panics : letI := asciiUnicode
    (assemble (idRt true) Mipsasm.new c!"foo $t0\n.word 1").errors.map List.length = some 1 ∧ (assemble (idRt true) Mipsasm.new c!"\n.word 1").errors = none := by
  letI := asciiUnicode
  exact ⟨by decide +kernel, by decide +kernel⟩

end Mips
