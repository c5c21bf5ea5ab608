/-
SPECIFICATION (not a model of the code): a file into which a blank line is inserted, and the messages about it.
-/
import Verif.Spec.Report
import Verif.Spec.Source

namespace Mips.Insert
open Mips.Source

/-- `ls'` is `ls` with the blank line or comment `x` behind the first `n` lines. -/
def Inserted (n : Nat) (x : Str) (ls ls' : List Str) : Prop := n ≤ ls.length ∧ kind x = .blank ∧ ls' = ls.take n ++ x :: ls.drop n

/-- The line where it stands then: one further down, unless it is one of the first `n`. -/
def down (n : Nat) (l : Line) : Line := if l.num ≤ n then l else ⟨l.num + 1, l.content⟩

/-- The line with the number `k`. -/
def lineNo (ls : List Str) (k : Nat) : Line := ⟨k, (ls[k - 1]?).getD []⟩

/-- The error then.  It is about the same line, where that stands now, except that a branch out of the program is always said to be on the last
line, and a first definition is said to be on the line with the same number as before. -/
def error (n : Nat) (ls' : List Str) : ParserError → ParserError
  | .multipleLabelDefinition l x f => .multipleLabelDefinition (down n l) x (lineNo ls' f.num)
  | .invalidLabel l x => .invalidLabel (down n l) x
  | .invalidInstruction l => .invalidInstruction (down n l)
  | .invalidOperandCount l a b x => .invalidOperandCount (down n l) a b x
  | .invalidOpcode l x => .invalidOpcode (down n l) x
  | .invalidRegister l x => .invalidRegister (down n l) x
  | .invalidTargetAddress l x => .invalidTargetAddress (down n l) x
  | .invalidImmediate l x => .invalidImmediate (down n l) x
  | .invalidFloatCond l x => .invalidFloatCond (down n l) x
  | .branchOutOfBounds _ x a b => .branchOutOfBounds (lineNo ls' ls'.length) x a b
  | .localLabelOutOfScope l x => .localLabelOutOfScope (down n l) x
  | .undefinedLabel l x => .undefinedLabel (down n l) x

/-- The warning then.  The line quoted in front of an instruction in a delay slot is the one directly above it. -/
def warning (n : Nat) (ls' : List Str) : ParserWarning → ParserWarning
  | .invalidInstructionInDelaySlot _ l => .invalidInstructionInDelaySlot (lineNo ls' ((down n l).num - 1)) (down n l)
  | .unalignedBranch l x => .unalignedBranch (down n l) x
  | .unalignedJump l x => .unalignedJump (down n l) x

/-- The result then. -/
def result (n : Nat) (ls' : List Str) : AsmOut → AsmOut
  | .ok is ws => .ok is (ws.map (warning n ls'))
  | .err es ws => .err (es.map (error n ls')) (ws.map (warning n ls'))
  | .panic => .panic

end Mips.Insert
