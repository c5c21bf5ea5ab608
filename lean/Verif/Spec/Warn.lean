/-
SPECIFICATION (not a model of the code): which instructions transfer control, and what the warnings are about.
-/
import Verif.Spec.Words
import Verif.Spec.Report

namespace Mips

/-- The line of the instruction a warning is about. -/
def ParserWarning.about : ParserWarning → Line
  | .invalidInstructionInDelaySlot _ l => l
  | .unalignedBranch l _ => l
  | .unalignedJump l _ => l

/-- Is it the delay-slot warning? -/
def ParserWarning.isDelay : ParserWarning → Bool
  | .invalidInstructionInDelaySlot .. => true
  | _ => false

/-- Is it one of the two alignment warnings? -/
def ParserWarning.isAlign : ParserWarning → Bool
  | .unalignedBranch .. | .unalignedJump .. => true
  | _ => false

namespace Branch
open Source

/-- The instructions that transfer control with a delay slot: jumps and branches. -/
def transfers : List Str := [c!"j", c!"jal", c!"jr", c!"jalr"] ++ branchNames

/-- Those whose delay slot the assembler does not know of. -/
def forgotten : List Str := [c!"b", c!"bal", c!"beqzl", c!"bnezl"] ++ cmpBranchNames

/-- The instruction line in front of line `k`. -/
def before (ls : List Str) (k : Nat) : Option Str := ((ls.take k).filter isCode).getLast?

/-- The delay-slot warnings printed for line number `n`. -/
def delayWarnings (ws : List ParserWarning) (n : Nat) : List ParserWarning :=
  ws.filter fun w => w.about.num = n && w.isDelay

/-- The alignment warnings printed for line number `n`. -/
def alignWarnings (ws : List ParserWarning) (n : Nat) : List ParserWarning :=
  ws.filter fun w => w.about.num = n && w.isAlign

end Branch
end Mips
