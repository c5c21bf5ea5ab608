/-
SPECIFICATION (not a model of the code): a file in which lines are blanked, and the errors that remain.
-/
import Verif.Spec.Report

namespace Mips.Recover

/-- The lines with the indices in `S` are blanked, the others are the same. -/
def Blanked (S : Nat → Bool) (ls ls' : List Str) : Prop :=
  ls'.length = ls.length ∧ ∀ k raw, ls[k]? = some raw → ls'[k]? = some (if S k then [] else raw)

/-- An error that quotes a second line (where a label is defined first, where the program ends): that line may be blank now. -/
def requote (S : Nat → Bool) : ParserError → ParserError
  | .multipleLabelDefinition l x first => .multipleLabelDefinition l x ⟨first.num, if S (first.num - 1) then [] else first.content⟩
  | .branchOutOfBounds l x lo hi => .branchOutOfBounds ⟨l.num, if S (l.num - 1) then [] else l.content⟩ x lo hi
  | e => e

/-- The errors that remain: those about lines that are not blanked, and all that are about places referred to. -/
def remaining (S : Nat → Bool) (es : List ParserError) : List ParserError :=
  (es.filter fun e => e.isRef || !(S (e.line.num - 1))).map (requote S)

/-- The line a warning is about. -/
def about : ParserWarning → Nat
  | .invalidInstructionInDelaySlot _ l => l.num
  | .unalignedBranch l _ => l.num
  | .unalignedJump l _ => l.num

/-- The line above that a warning quotes may be blank now. -/
def requoteWarning (S : Nat → Bool) : ParserWarning → ParserWarning
  | .invalidInstructionInDelaySlot a l => .invalidInstructionInDelaySlot ⟨a.num, if S (a.num - 1) then [] else a.content⟩ l
  | w => w

/-- The warnings that remain: those about lines that are not blanked. -/
def remainingWarnings (S : Nat → Bool) (ws : List ParserWarning) : List ParserWarning :=
  (ws.filter fun w => !(S (about w - 1))).map (requoteWarning S)

end Mips.Recover
