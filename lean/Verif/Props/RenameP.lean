/-
**C64** — the names of labels do not matter: a program in which the labels are renamed consistently has the same verdict and the
same code.
-/
import Verif.Lemmas.RenameL2
import Verif.Lemmas.RenameL3
import Verif.Props.CodeP
import Verif.Props.ReportP
import Verif.Props.WarningsP

namespace Mips
open Source Syntax Branch Operands Rename

/-- **C64**.  Two programs that differ in the names of their labels are accepted with the same code, refused, or end the program
alike. -/
theorem C64_renaming [Unicode] (rt : Rt) (m : Mipsasm) (text text' : Str) (R : Str → Str → Prop) (hR : Renaming m.syms R)
    (h : NewFile m.syms R (lines text) (lines text')) :
    (assemble rt m text).words = (assemble rt m text').words ∧
    ((∃ es ws, assemble rt m text = .err es ws) ↔ ∃ es ws, assemble rt m text' = .err es ws) ∧
    (assemble rt m text = .panic ↔ assemble rt m text' = .panic) := by
  have hc := corr_of (ovf := rt.ovf) (b := m.base) hR h
  have hf := files_new (ovf := rt.ovf) (b := m.base) hR h
  have hf' := files_new (ovf := rt.ovf) (b := m.base) hR.symm h.symm
  refine ⟨?_, ?_, ?_⟩
  · have key : ∀ ws, (assemble rt m text).words = some ws ↔ (assemble rt m text').words = some ws := by
      intro ws
      rw [C57_program, C57_program]
      constructor
      · rintro ⟨h1, h2⟩
        exact ⟨hf.2.2 h1, by rw [← h.length]; exact generates_new hc h2⟩
      · rintro ⟨h1, h2⟩
        exact ⟨hf'.2.2 h1, by rw [h.length]; exact generates_new hc.symm h2⟩
    cases h1 : (assemble rt m text).words with
    | some ws => exact ((key ws).1 h1).symm
    | none =>
      cases h2 : (assemble rt m text').words with
      | none => rfl
      | some ws => rw [(key ws).2 h2] at h1; cases h1
  · rw [(C56_verdict rt m text).2.1, (C56_verdict rt m text').2.1]
    exact ⟨hf.2.1, hf'.2.1⟩
  · rw [(C56_verdict rt m text).1, (C56_verdict rt m text').1]
    exact ⟨hf.1, hf'.1⟩

/-- **C64**.  Renaming in the other direction is a renaming, too. -/
theorem C64_back [Unicode] (syms : List (BitVec 32 × Str)) (R : Str → Str → Prop) (ls ls' : List Str) (hR : Renaming syms R)
    (h : NewFile syms R ls ls') : Renaming syms (fun a b => R b a) ∧ NewFile syms (fun a b => R b a) ls' ls := ⟨hR.symm, h.symm⟩

/-- **C64**.  The errors correspond one by one: the same kinds, the same lines, in the same order, with the labels renamed. -/
theorem C64_errors [Unicode] (rt : Rt) (m : Mipsasm) (text text' : Str) (R : Str → Str → Prop) (hR : Renaming m.syms R)
    (h : NewFile m.syms R (lines text) (lines text')) (es : List ParserError) (he : (assemble rt m text).errors = some es) :
    ∃ es', (assemble rt m text').errors = some es' ∧ Paired (SameError m.syms R) es es' := by
  have hc := corr_of (ovf := rt.ovf) (b := m.base) hR h
  have hf' := files_new (ovf := rt.ovf) (b := m.base) hR.symm h.symm
  obtain ⟨h1, h2⟩ := (C58_report rt m text es).1 he
  obtain ⟨es', h3, h4⟩ := reports_new hc h h2
  exact ⟨es', (C58_report rt m text' es').2 ⟨fun hp => h1 (hf'.1 hp), h3⟩, h4⟩

/-- **C64**.  So do the warnings. -/
theorem C64_warnings [Unicode] (rt : Rt) (m : Mipsasm) (text text' : Str) (R : Str → Str → Prop) (hR : Renaming m.syms R)
    (h : NewFile m.syms R (lines text) (lines text')) (ws : List ParserWarning) (he : (assemble rt m text).warnings = some ws) :
    ∃ ws', (assemble rt m text').warnings = some ws' ∧ Paired SameWarning ws ws' := by
  have hc := corr_of (ovf := rt.ovf) (b := m.base) hR h
  have hf' := files_new (ovf := rt.ovf) (b := m.base) hR.symm h.symm
  obtain ⟨h1, h2⟩ := (C59_warnings rt m text ws).1 he
  obtain ⟨ws', h3, h4⟩ := warns_new hc h h2
  exact ⟨ws', (C59_warnings rt m text' ws').2 ⟨fun hp => h1 (hf'.1 hp), by unfold Lang.Warns; rw [show (lines text').length = (lines text).length from h.length.symm]; exact h3⟩, h4⟩

/-! ### Example -/

/-- decides `Name` -/
def nameB (syms : List (BitVec 32 × Str)) (l : Str) : Bool :=
  (Lang.symbol syms l).isNone && (match l with | [] => false | c :: _ => isAscii c && !isDigit c && c != '+' && c != '-') &&
  !(l.contains '(') && !(l.contains ')') && !(contains c!"0x" l)

theorem name_iff (syms : List (BitVec 32 × Str)) (l : Str) : nameB syms l = true ↔ Name syms l := by
  cases l with
  | nil =>
    refine ⟨fun h => by simp [nameB] at h, fun h => ?_⟩
    obtain ⟨c, t, e, _⟩ := h.head
    cases e
  | cons c t =>
    simp only [nameB, Bool.and_eq_true, Bool.not_eq_true', Option.isNone_iff_eq_none, bne_iff_ne, ne_eq, List.contains_eq_mem,
      decide_eq_false_iff_not]
    constructor
    · rintro ⟨⟨⟨⟨h1, ⟨⟨h2, h3⟩, h4⟩, h5⟩, h6⟩, h7⟩, h8⟩
      exact ⟨h1, ⟨c, t, rfl, h2, h3, h4, h5⟩, h6, h7, h8⟩
    · rintro ⟨h1, ⟨c', t', e, h2, h3, h4, h5⟩, h6, h7, h8⟩
      cases e
      exact ⟨⟨⟨⟨h1, ⟨⟨h2, h3⟩, h4⟩, h5⟩, h6⟩, h7⟩, h8⟩

instance (syms : List (BitVec 32 × Str)) (l : Str) : Decidable (Name syms l) := decidable_of_iff _ (name_iff syms l)

/-- `loop` becomes `again`, `@@x` becomes `@@skip`, `done` becomes `t0` (which is also the name of a register). -/
def exNames (a b : Str) : Prop := (a, b) ∈ [(c!"loop", c!"again"), (c!"@@x", c!"@@skip"), (c!"done", c!"t0")]

instance (a b : Str) : Decidable (exNames a b) := by unfold exNames; infer_instance

instance (s s' : Str) : Decidable (NewOperand [] exNames s s') := by unfold NewOperand; infer_instance

def exOld : Str := c!"loop:\naddiu t0, t0, -1\nbeq t0, zero, @@x\nnop\n@@x:\nbne t0, a0, loop\nlw t1, loop(t0)\ndone:\nj done\nadd.s f0, f0, f2\n"
def exNew : Str := c!"again:; renamed\naddiu t0, t0, -1\nbeq t0, zero,  @@skip\nnop\n@@skip:\nbne t0, a0, again\nlw t1, again(t0)\nt0:\nj t0\nadd.s f0, f0, f2\n"

theorem exNames_renaming : Renaming [] exNames := by
  have cs : ∀ a b, exNames a b → (a = c!"loop" ∧ b = c!"again") ∨ (a = c!"@@x" ∧ b = c!"@@skip") ∨ (a = c!"done" ∧ b = c!"t0") := by
    intro a b h
    simpa [exNames] using h
  refine ⟨?_, ?_, ?_, ?_, ?_⟩
  · intro a b c h1 h2
    rcases cs _ _ h1 with ⟨rfl, rfl⟩ | ⟨rfl, rfl⟩ | ⟨rfl, rfl⟩ <;> rcases cs _ _ h2 with ⟨e, rfl⟩ | ⟨e, rfl⟩ | ⟨e, rfl⟩ <;>
      first | rfl | (revert e; decide)
  · intro a b c h1 h2
    rcases cs _ _ h1 with ⟨rfl, rfl⟩ | ⟨rfl, rfl⟩ | ⟨rfl, rfl⟩ <;> rcases cs _ _ h2 with ⟨rfl, e⟩ | ⟨rfl, e⟩ | ⟨rfl, e⟩ <;>
      first | rfl | (revert e; decide)
  · intro a b h
    rcases cs _ _ h with ⟨rfl, rfl⟩ | ⟨rfl, rfl⟩ | ⟨rfl, rfl⟩ <;> decide
  · intro a b h
    rcases cs _ _ h with ⟨rfl, rfl⟩ | ⟨rfl, rfl⟩ | ⟨rfl, rfl⟩ <;> decide
  · intro a b h
    rcases cs _ _ h with ⟨rfl, rfl⟩ | ⟨rfl, rfl⟩ | ⟨rfl, rfl⟩ <;> decide

theorem exNames_file : letI := asciiUnicode; NewFile [] exNames (lines exOld) (lines exNew) := by
  letI := asciiUnicode
  have e1 : lines exOld = [c!"loop:", c!"addiu t0, t0, -1", c!"beq t0, zero, @@x", c!"nop", c!"@@x:", c!"bne t0, a0, loop", c!"lw t1, loop(t0)",
    c!"done:", c!"j done", c!"add.s f0, f0, f2"] := by decide +kernel
  have e2 : lines exNew = [c!"again:; renamed", c!"addiu t0, t0, -1", c!"beq t0, zero,  @@skip", c!"nop", c!"@@skip:", c!"bne t0, a0, again",
    c!"lw t1, again(t0)", c!"t0:", c!"j t0", c!"add.s f0, f0, f2"] := by decide +kernel
  rw [e1, e2]
  have gpr : ∀ s rs l l', NewTexts [] exNames rs l l' → NewTexts [] exNames (.gpr :: rs) (s :: l) (s :: l') := fun s rs l l' h =>
    .cons .gpr s s rs l l' rfl h
  have three : ∀ a b t t' role, (role = .simm ∨ role = .addr) → NewOperand [] exNames t t' →
      NewTexts [] exNames [.gpr, .gpr, role] [a, b, t] [a, b, t'] := by
    intro a b t t' role hr h
    refine gpr a _ _ _ (gpr b _ _ _ (.cons _ _ _ _ _ _ ?_ .nil))
    rcases hr with rfl | rfl <;> exact h
  refine .cons _ _ _ _ (.label c!"loop" c!"again" (by decide +kernel) (by decide +kernel) (.inl (by decide))) ?_
  refine .cons _ _ _ _ (.code (by decide +kernel) (by decide +kernel) (by decide +kernel)
    (.known [.gpr, .gpr, .simm] (by decide +kernel) (three c!"t0" c!" t0" c!" -1" c!" -1" _ (.inl rfl) (by decide +kernel)))) ?_
  refine .cons _ _ _ _ (.code (by decide +kernel) (by decide +kernel) (by decide +kernel)
    (.known [.gpr, .gpr, .addr] (by decide +kernel) (three c!"t0" c!" zero" c!" @@x" c!"  @@skip" _ (.inr rfl) (by decide +kernel)))) ?_
  refine .cons _ _ _ _ (.code (by decide +kernel) (by decide +kernel) (by decide +kernel)
    (.other (by decide +kernel) (by
      intro sig h
      exact absurd (show mnemonic (body c!"nop") ∈ Names.none by decide +kernel) (sig_names_aux _ h).1) (by decide +kernel))) ?_
  refine .cons _ _ _ _ (.label c!"@@x" c!"@@skip" (by decide +kernel) (by decide +kernel) (.inl (by decide))) ?_
  refine .cons _ _ _ _ (.code (by decide +kernel) (by decide +kernel) (by decide +kernel)
    (.known [.gpr, .gpr, .addr] (by decide +kernel) (three c!"t0" c!" a0" c!" loop" c!" again" _ (.inr rfl) (by decide +kernel)))) ?_
  refine .cons _ _ _ _ (.code (by decide +kernel) (by decide +kernel) (by decide +kernel)
    (.known [.gpr, .mem] (by decide +kernel) (gpr c!"t1" _ _ _ (.cons .mem c!" loop(t0)" c!" again(t0)" _ _ _
      (.inl ⟨c!" loop", c!" again", c!"t0)", by decide, by decide, by decide, by decide +kernel⟩) .nil)))) ?_
  refine .cons _ _ _ _ (.label c!"done" c!"t0" (by decide +kernel) (by decide +kernel) (.inl (by decide))) ?_
  refine .cons _ _ _ _ (.code (by decide +kernel) (by decide +kernel) (by decide +kernel)
    (.known [.target] (by decide +kernel) (.cons .target c!"done" c!"t0" _ _ _ (show NewOperand [] exNames _ _ by decide +kernel) .nil))) ?_
  refine .cons _ _ _ _ (.code (by decide +kernel) (by decide +kernel) (by decide +kernel)
    (.known [.fpr, .fpr, .fpr] (by decide +kernel) (.cons .fpr c!"f0" c!"f0" _ _ _ rfl (.cons .fpr c!" f0" c!" f0" _ _ _ rfl
      (.cons .fpr c!" f2" c!" f2" _ _ _ rfl .nil))))) ?_
  exact .nil

/-- The hypotheses of `C64_renaming` are met, and the code is not empty. -/
example : letI := asciiUnicode
    Renaming Mipsasm.new.syms exNames ∧ NewFile Mipsasm.new.syms exNames (lines exOld) (lines exNew) ∧
    (assemble (idRt true) Mipsasm.new exOld).words = some [0x2508FFFF#32, 0x11000001#32, 0#32, 0x1504FFFC#32, 0x8D09FFFB#32, 0x08000005#32, 0x46020000#32] := by
  letI := asciiUnicode
  exact ⟨exNames_renaming, exNames_file, by decide +kernel⟩

/-- The hypotheses of `C64_errors` and `C64_warnings` are met by files with errors and warnings. -/
example : letI := asciiUnicode
    NewFile Mipsasm.new.syms exNames (lines c!"loop:\nb @@x\nloop:\nj 0x2") (lines c!"again:\nb @@skip\nagain:\nj 0x2") ∧
    (assemble (idRt true) Mipsasm.new c!"loop:\nb @@x\nloop:\nj 0x2").errors =
      some [.multipleLabelDefinition ⟨3, c!"loop:"⟩ c!"loop" ⟨1, c!"loop:"⟩, .undefinedLabel ⟨2, c!"b @@x"⟩ c!"@@x"] ∧
    (assemble (idRt true) Mipsasm.new c!"again:\nb @@skip\nagain:\nj 0x2").errors =
      some [.multipleLabelDefinition ⟨3, c!"again:"⟩ c!"again" ⟨1, c!"again:"⟩, .undefinedLabel ⟨2, c!"b @@skip"⟩ c!"@@skip"] ∧
    (assemble (idRt true) Mipsasm.new c!"loop:\nb @@x\nloop:\nj 0x2").warnings =
      some [.unalignedJump ⟨4, c!"j 0x2"⟩ c!"0x2"] ∧
    (assemble (idRt true) Mipsasm.new c!"again:\nb @@skip\nagain:\nj 0x2").warnings =
      some [.unalignedJump ⟨4, c!"j 0x2"⟩ c!"0x2"] := by
  letI := asciiUnicode
  refine ⟨?_, by decide +kernel⟩
  have e1 : lines c!"loop:\nb @@x\nloop:\nj 0x2" = [c!"loop:", c!"b @@x", c!"loop:", c!"j 0x2"] := by decide +kernel
  have e2 : lines c!"again:\nb @@skip\nagain:\nj 0x2" = [c!"again:", c!"b @@skip", c!"again:", c!"j 0x2"] := by decide +kernel
  rw [e1, e2]
  refine .cons _ _ _ _ (.label c!"loop" c!"again" (by decide +kernel) (by decide +kernel) (.inl (by decide))) ?_
  refine .cons _ _ _ _ (.code (by decide +kernel) (by decide +kernel) (by decide +kernel)
    (.known [.addr] (by decide +kernel) (.cons .addr c!"@@x" c!"@@skip" _ _ _ (show NewOperand [] exNames _ _ by decide +kernel) .nil))) ?_
  refine .cons _ _ _ _ (.label c!"loop" c!"again" (by decide +kernel) (by decide +kernel) (.inl (by decide))) ?_
  refine .cons _ _ _ _ (.code (by decide +kernel) (by decide +kernel) (by decide +kernel)
    (.known [.target] (by decide +kernel) (.cons .target c!"0x2" c!"0x2" _ _ _ (show NewOperand [] exNames _ _ by decide +kernel) .nil))) ?_
  exact .nil

/-- Two labels must not become one: the code of `b x` is another one if `y` is renamed to `x`, too. -/
example : letI := asciiUnicode
    (assemble (idRt true) Mipsasm.new c!"x:\nnop\ny:\nnop\nb y\n").words = some [0#32, 0#32, 0x1000FFFE#32] ∧
    (assemble (idRt true) Mipsasm.new c!"x:\nnop\nx:\nnop\nb x\n").words = none := by decide +kernel

/-- A label must not become a number: `b 4` branches to the address 4. -/
example : letI := asciiUnicode
    (assemble (idRt true) Mipsasm.new c!"x:\nnop\nnop\nb x\n").words = some [0#32, 0#32, 0x1000FFFD#32] ∧
    (assemble (idRt true) Mipsasm.new c!"4:\nnop\nnop\nb 4\n").words = none := by decide +kernel

end Mips
