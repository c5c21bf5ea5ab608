/-
SPECIFICATION vocabulary: results up to the line numbers and the quoted lines in their diagnostics, and programs that consist of the
same instructions.
-/
import Verif.Spec.Report
import Verif.Spec.Source

namespace Mips

/-- A location that is not looked at. -/
def noLine : Line := ⟨0, []⟩

/-- An error without its line numbers and quoted lines. -/
def ParserError.erase : ParserError → ParserError
  | .multipleLabelDefinition _ l _ => .multipleLabelDefinition noLine l noLine
  | .invalidLabel _ l => .invalidLabel noLine l
  | .invalidInstruction _ => .invalidInstruction noLine
  | .invalidOperandCount _ e f o => .invalidOperandCount noLine e f o
  | .invalidOpcode _ o => .invalidOpcode noLine o
  | .invalidRegister _ r => .invalidRegister noLine r
  | .invalidTargetAddress _ a => .invalidTargetAddress noLine a
  | .invalidImmediate _ i => .invalidImmediate noLine i
  | .invalidFloatCond _ c => .invalidFloatCond noLine c
  | .branchOutOfBounds _ _ lo hi => .branchOutOfBounds noLine [] lo hi
  | .localLabelOutOfScope _ l => .localLabelOutOfScope noLine l
  | .undefinedLabel _ l => .undefinedLabel noLine l

/-- A warning without its line numbers and quoted lines. -/
def ParserWarning.erase : ParserWarning → ParserWarning
  | .invalidInstructionInDelaySlot _ _ => .invalidInstructionInDelaySlot noLine noLine
  | .unalignedBranch _ o => .unalignedBranch noLine o
  | .unalignedJump _ t => .unalignedJump noLine t

/-- A result without line numbers and quoted lines: the instructions (with their words), the errors and the warnings. -/
def AsmOut.erase : AsmOut → AsmOut
  | .ok is ws => .ok is (ws.map ParserWarning.erase)
  | .err es ws => .err (es.map ParserError.erase) (ws.map ParserWarning.erase)
  | .panic => .panic

/-- An error without its line numbers and quotations: only its kind (and the numbers in it). -/
def ParserError.bare : ParserError → ParserError
  | .multipleLabelDefinition _ _ _ => .multipleLabelDefinition noLine [] noLine
  | .invalidLabel _ _ => .invalidLabel noLine []
  | .invalidInstruction _ => .invalidInstruction noLine
  | .invalidOperandCount _ e f _ => .invalidOperandCount noLine e f []
  | .invalidOpcode _ _ => .invalidOpcode noLine []
  | .invalidRegister _ _ => .invalidRegister noLine []
  | .invalidTargetAddress _ _ => .invalidTargetAddress noLine []
  | .invalidImmediate _ _ => .invalidImmediate noLine []
  | .invalidFloatCond _ _ => .invalidFloatCond noLine []
  | .branchOutOfBounds _ _ lo hi => .branchOutOfBounds noLine [] lo hi
  | .localLabelOutOfScope _ _ => .localLabelOutOfScope noLine []
  | .undefinedLabel _ _ => .undefinedLabel noLine []

/-- A warning without its line numbers and quotations: only its kind. -/
def ParserWarning.bare : ParserWarning → ParserWarning
  | .invalidInstructionInDelaySlot _ _ => .invalidInstructionInDelaySlot noLine noLine
  | .unalignedBranch _ _ => .unalignedBranch noLine []
  | .unalignedJump _ _ => .unalignedJump noLine []

/-- A result without quotations from the source: the instructions (with their words), the kinds of the errors and of the warnings. -/
def AsmOut.bare : AsmOut → AsmOut
  | .ok is ws => .ok is (ws.map ParserWarning.bare)
  | .err es ws => .err (es.map ParserError.bare) (ws.map ParserWarning.bare)
  | .panic => .panic

namespace Source

/-- Two files whose non-blank lines are related by `R`, in order. -/
inductive SameLines (R : Str → Str → Prop) : List Str → List Str → Prop
  | nil : SameLines R [] []
  | left (raw : Str) (ls ls' : List Str) : kind raw = .blank → SameLines R ls ls' → SameLines R (raw :: ls) ls'
  | right (raw : Str) (ls ls' : List Str) : kind raw = .blank → SameLines R ls ls' → SameLines R ls (raw :: ls')
  | both (raw raw' : Str) (ls ls' : List Str) : R raw raw' → SameLines R ls ls' → SameLines R (raw :: ls) (raw' :: ls')

end Source
end Mips
