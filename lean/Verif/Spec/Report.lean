/-
SPECIFICATION vocabulary for errors and results: which errors concern a single line and which concern
a reference between lines, and what a result reports.
-/
import Verif.Model.Lib

namespace Mips

/-- Errors about references between lines (as opposed to errors of one line). -/
def ParserError.isRef : ParserError → Bool
  | .branchOutOfBounds .. | .localLabelOutOfScope .. | .undefinedLabel .. => true
  | _ => false

/-- The errors a call reports; `none` if it panics. -/
def AsmOut.errors : AsmOut → Option (List ParserError)
  | .ok _ _ => some []
  | .err es _ => some es
  | .panic => none

/-- The machine words a call produces. -/
def AsmOut.words : AsmOut → Option (List Word)
  | .ok is _ => some (getBytes is)
  | _ => none

/-- The warnings a call prints; `none` if it panics. -/
def AsmOut.warnings : AsmOut → Option (List ParserWarning)
  | .ok _ ws => some ws
  | .err _ ws => some ws
  | .panic => none

/-- The errors of single lines among the reported errors. -/
def lineErrors (es : List ParserError) : List ParserError := es.filter fun e => !e.isRef

/-- An instruction value none of whose operands is a label. -/
def NoLabel : Instruction → Prop
  | .imm _ _ _ i _ => i.isLabel = false
  | .jump _ t _ => t.isLabel = false
  | _ => True

end Mips
