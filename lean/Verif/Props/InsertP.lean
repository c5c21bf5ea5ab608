/-
**C76** — a blank line or comment that is inserted changes nothing but the numbers of the lines in the messages.
-/
import Verif.Lemmas.InsertL

namespace Mips
open Source Syntax Branch Operands Insert

theorem inserted_lines [Unicode] {γ δ : Type} {g : ParserError → γ} {e : ParserWarning → δ} {x : Str} (hx : kind x = .blank) :
    ∀ a b : List Str, SameLines (LineSim g e) (a ++ b) (a ++ x :: b)
  | raw :: a, b => by
    have ih := inserted_lines (g := g) (e := e) hx a b
    cases hk : kind raw with
    | blank => exact .left _ _ _ hk (.right _ _ _ hk ih)
    | label l => exact .both _ _ _ _ (.inl ⟨l, hk, hk⟩) ih
    | code => exact .both _ _ _ _ (.inr ⟨hk, hk, fun x y c => sim_inst c _⟩) ih
  | [], raw :: b => by
    refine .right _ _ _ hx ?_
    clear hx
    induction b generalizing raw with
    | nil =>
      cases hk : kind raw with
      | blank => exact .left _ _ _ hk (.right _ _ _ hk .nil)
      | label l => exact .both _ _ _ _ (.inl ⟨l, hk, hk⟩) .nil
      | code => exact .both _ _ _ _ (.inr ⟨hk, hk, fun x y c => sim_inst c _⟩) .nil
    | cons r b ih =>
      cases hk : kind raw with
      | blank => exact .left _ _ _ hk (.right _ _ _ hk (ih r))
      | label l => exact .both _ _ _ _ (.inl ⟨l, hk, hk⟩) (ih r)
      | code => exact .both _ _ _ _ (.inr ⟨hk, hk, fun x y c => sim_inst c _⟩) (ih r)
  | [], [] => .right _ _ _ hx .nil

/-- **C76.** A blank line or a comment is inserted behind the first `n` lines of a file: the result is the same, with the lines that are quoted
in the messages further down where they are. -/
theorem C76_insert [Unicode] (rt : Rt) (m : Mipsasm) (text text' : Str) (n : Nat) (x : Str) (h : Inserted n x (lines text) (lines text')) :
    assemble rt m text' = result n (lines text') (assemble rt m text) := by
  have hi : Ins n x ⟨rt.ovf, m.base, m.syms, lines text⟩ ⟨rt.ovf, m.base, m.syms, lines text'⟩ := ⟨rfl, rfl, rfl, h⟩
  have hs : SameLines (LineSim ParserError.erase ParserWarning.erase) (lines text) (lines text') := by
    have := inserted_lines (g := ParserError.erase) (e := ParserWarning.erase) h.2.1 ((lines text).take n) ((lines text).drop n)
    rw [List.take_append_drop] at this
    rw [h.2.2]; exact this
  have he := outSim_erase (sim_assemble (rt := rt) (rt' := rt) (m := m) (m' := m) erase_lineless rfl rfl rfl hs)
  have hw : ∀ ws, (assemble rt m text).warnings = some ws → assemble rt m text' ≠ .panic →
      (assemble rt m text').warnings = some (ws.map (warning n (lines text'))) := by
    intro ws h1 h2
    obtain ⟨_, h3⟩ := (C59_warnings rt m text ws).1 h1
    refine (C59_warnings rt m text' _).2 ⟨fun hp => h2 ((C56_verdict rt m text').1.2 hp), ?_⟩
    have := (hi.warned h3).2 h.1
    unfold Lang.Warns
    rw [h.length]
    exact this
  cases h1 : assemble rt m text with
  | panic =>
    rw [h1] at he
    cases h2 : assemble rt m text' with
    | panic => rfl
    | ok a b => rw [h2] at he; cases he
    | err a b => rw [h2] at he; cases he
  | ok is ws =>
    rw [h1] at he
    cases h2 : assemble rt m text' with
    | panic => rw [h2] at he; cases he
    | err a b => rw [h2] at he; cases he
    | ok is' ws' =>
      rw [h2] at he
      simp only [AsmOut.erase, AsmOut.ok.injEq] at he
      have h3 := hw ws (by rw [h1]; rfl) (by rw [h2]; intro e; cases e)
      rw [h2] at h3
      simp only [AsmOut.warnings, Option.some.injEq] at h3
      rw [h3, ← he.1]; rfl
  | err es ws =>
    rw [h1] at he
    cases h2 : assemble rt m text' with
    | panic => rw [h2] at he; cases he
    | ok a b => rw [h2] at he; cases he
    | err es' ws' =>
      have h3 := hw ws (by rw [h1]; rfl) (by rw [h2]; intro e; cases e)
      rw [h2] at h3
      simp only [AsmOut.warnings, Option.some.injEq] at h3
      obtain ⟨_, h4⟩ := (C58_report rt m text es).1 (by rw [h1]; rfl)
      have h5 := (C58_report rt m text' _).2 ⟨(fun hp => by rw [(C56_verdict rt m text').1.2 hp] at h2; cases h2), hi.reports h4⟩
      rw [h2] at h5
      simp only [AsmOut.errors, Option.some.injEq] at h5
      rw [h3, h5]; rfl

/-- **C76.** So the words are the same, ... -/
theorem C76_words [Unicode] (rt : Rt) (m : Mipsasm) (text text' : Str) (n : Nat) (x : Str) (h : Inserted n x (lines text) (lines text')) :
    (assemble rt m text').words = (assemble rt m text).words := by
  rw [C76_insert rt m text text' n x h]
  cases assemble rt m text <;> rfl

/-- **C76.** ... and every line error is about the line with the same text, in its new place. -/
theorem C76_lines [Unicode] (rt : Rt) (m : Mipsasm) (text text' : Str) (n : Nat) (x : Str) (h : Inserted n x (lines text) (lines text'))
    (es : List ParserError) (he : (assemble rt m text).errors = some es) :
    ∃ es', (assemble rt m text').errors = some es' ∧ (lineErrors es').map (fun e => e.line) = (lineErrors es).map (fun e => down n e.line) := by
  rw [C76_insert rt m text text' n x h]
  have key : ∀ e : ParserError, (error n (lines text') e).isRef = e.isRef ∧ (e.isRef = false → (error n (lines text') e).line = down n e.line) := by
    intro e; cases e <;> exact ⟨rfl, fun h => by first | rfl | cases h⟩
  have map : ∀ es : List ParserError, (lineErrors (es.map (error n (lines text')))).map (fun e => e.line) = (lineErrors es).map (fun e => down n e.line) := by
    intro es
    unfold lineErrors
    induction es with
    | nil => rfl
    | cons e es ih =>
      rw [List.map_cons, List.filter_cons, List.filter_cons, (key e).1]
      cases hr : e.isRef with
      | true => exact ih
      | false =>
        rw [if_pos (by rfl), if_pos (by rfl), List.map_cons, List.map_cons, (key e).2 hr, ih]
  cases h1 : assemble rt m text with
  | panic => rw [h1] at he; cases he
  | ok is ws => rw [h1] at he; cases he; exact ⟨[], rfl, rfl⟩
  | err a ws => rw [h1] at he; cases he; exact ⟨_, rfl, map es⟩

/-- A program with errors and a warning, and the same with a comment behind its first line. -/
def exBefore : Str := c!"beq $a0, $a1, 0\nj 0x2000\nfoo $t0\nor $a0, $zz, $a1\nb 0x4000"
def exAfter : Str := c!"beq $a0, $a1, 0\n  // go on\nj 0x2000\nfoo $t0\nor $a0, $zz, $a1\nb 0x4000"

/-- The hypothesis of `C76_insert` is met; the messages move with the lines, the branch is said to be on the last line, and the comment is
quoted as the line in front of the jump in the delay slot. -/
example : letI := asciiUnicode
    Inserted 1 c!"  // go on" (lines exBefore) (lines exAfter) ∧
    (assemble (idRt true) Mipsasm.new exBefore).errors = some
      [.invalidOpcode ⟨3, c!"foo $t0"⟩ c!"foo", .invalidRegister ⟨4, c!"or $a0, $zz, $a1"⟩ c!" $zz",
       .branchOutOfBounds ⟨5, c!"b 0x4000"⟩ c!"b 0x4000" 0#32 12#32] ∧
    (assemble (idRt true) Mipsasm.new exBefore).warnings = some
      [.invalidInstructionInDelaySlot ⟨1, c!"beq $a0, $a1, 0"⟩ ⟨2, c!"j 0x2000"⟩, .invalidInstructionInDelaySlot ⟨4, c!"or $a0, $zz, $a1"⟩ ⟨5, c!"b 0x4000"⟩] ∧
    (assemble (idRt true) Mipsasm.new exAfter).errors = some
      [.invalidOpcode ⟨4, c!"foo $t0"⟩ c!"foo", .invalidRegister ⟨5, c!"or $a0, $zz, $a1"⟩ c!" $zz",
       .branchOutOfBounds ⟨6, c!"b 0x4000"⟩ c!"b 0x4000" 0#32 12#32] ∧
    (assemble (idRt true) Mipsasm.new exAfter).warnings = some
      [.invalidInstructionInDelaySlot ⟨2, c!"  // go on"⟩ ⟨3, c!"j 0x2000"⟩, .invalidInstructionInDelaySlot ⟨5, c!"or $a0, $zz, $a1"⟩ ⟨6, c!"b 0x4000"⟩] := by
  refine ⟨⟨by decide +kernel, by decide +kernel, by decide +kernel⟩, by decide +kernel, by decide +kernel, by decide +kernel, by decide +kernel⟩

end Mips
