/-
SPECIFICATION (not a model of the code): what a diagnostic looks like on the terminal, and when a row of markers stands below a
piece of text.
-/
import Verif.Spec.Shown

namespace Mips.Diag
open Mips.Shown

/-- The text as a terminal shows it: without the colour codes, which start with the escape character and end with `m`. -/
def visibleFrom : Bool → Str → Str
  | _, [] => []
  | false, c :: s => if c = Char.ofNat 27 then visibleFrom true s else c :: visibleFrom false s
  | true, c :: s => visibleFrom (c != 'm') s
/-- see `visibleFrom` -/
def visible (s : Str) : Str := visibleFrom false s

/-- Only ASCII characters, and no escape character. -/
def Simple (s : Str) : Prop := ∀ c ∈ s, isAscii c = true ∧ c ≠ Char.ofNat 27

/-- `shown` contains a row that quotes line `l` behind its number and, below it, a row of markers `mark` that stand exactly below
the first occurrence of `u` in the line, followed by `note`. -/
def Marked (shown : Str) (l : Line) (u : Str) (mark : Char) (note : Str) : Prop :=
  ∃ pre post a b number gutter,
    shown = pre ++ '\n' :: (number ++ c!" | " ++ l.content) ++ '\n' ::
      (gutter ++ c!" | " ++ List.replicate a.length ' ' ++ List.replicate u.length mark ++ ' ' :: note) ++ '\n' :: post ∧
    l.content = a ++ u ++ b ∧ (∀ a' b', l.content = a' ++ u ++ b' → a.length ≤ a'.length) ∧
    (∃ k, number = List.replicate k ' ' ++ decimal l.num) ∧ (∀ c ∈ gutter, c = ' ') ∧ gutter.length = number.length

/-- The first row of an error message. -/
def headline : ParserError → Str
  | .multipleLabelDefinition _ s _ => c!"error: label `" ++ s ++ c!"` defined multiple times"
  | .invalidLabel _ s => c!"error: label `" ++ s ++ c!"` must start with a letter"
  | .invalidInstruction l => c!"error: invalid instruction `" ++ trim l.content ++ c!"`"
  | .invalidOperandCount l _ _ _ => c!"error: invalid number of operands `" ++ l.content ++ c!"`"
  | .invalidOpcode _ s => c!"error: invalid opcode `" ++ s ++ c!"`"
  | .invalidRegister _ s => c!"error: invalid register `" ++ s ++ c!"`"
  | .invalidTargetAddress _ s => c!"error: invalid target address `" ++ s ++ c!"`"
  | .invalidImmediate _ s => c!"error: invalid immediate `" ++ s ++ c!"`"
  | .invalidFloatCond _ s => c!"error: invalid float compare condition `" ++ s ++ c!"`"
  | .branchOutOfBounds _ s _ _ => c!"error: branch `" ++ s ++ c!"` out of bounds"
  | .localLabelOutOfScope _ s => c!"error: local label `" ++ s ++ c!"` used outside of its scope"
  | .undefinedLabel _ s => c!"error: label `" ++ s ++ c!"` is not defined"

/-- What is said next to the markers, in the order of `marks`. -/
def notes : ParserError → List (Char × Str)
  | .multipleLabelDefinition _ _ _ => [('-', c!"first defined here"), ('^', c!"redefined here")]
  | .invalidLabel _ _ => [('^', c!"defined here")]
  | .invalidOperandCount _ e f _ => [('^', c!"expected " ++ decimal e ++ c!" operands, found " ++ decimal f)]
  | .branchOutOfBounds _ _ lo hi =>
    [('^', c!"should be between 0x" ++ zeroPad 8 (hexLower lo.toNat) ++ c!" and 0x" ++ zeroPad 8 (hexLower hi.toNat))]
  | .undefinedLabel _ _ => [('^', c!"used here")]
  | _ => [('^', [])]

/-- The first row of a warning. -/
def warnHeadline : ParserWarning → Str
  | .invalidInstructionInDelaySlot _ d => c!"warning: instruction `" ++ trim d.content ++ c!"` cannot be in a delay slot"
  | .unalignedBranch _ o => c!"warning: branch offset `" ++ o ++ c!"` is not aligned to a 4-byte boundary"
  | .unalignedJump _ t => c!"warning: jump target `" ++ t ++ c!"` is not aligned to a 4-byte boundary"

/-- What a warning marks: the text, its line, the marker and what is said next to it. -/
def warnMarks : ParserWarning → List (Str × Line × Char × Str)
  | .invalidInstructionInDelaySlot l d =>
    [(trim d.content, d, '^', c!"this instruction cannot be in a delay slot"),
     (trim l.content, l, '-', c!"delay slot occurs after this instruction")]
  | .unalignedBranch l o => [(o, l, '-', c!"offset is not divisible by 4")]
  | .unalignedJump l t => [(t, l, '-', c!"target is not divisible by 4")]

end Mips.Diag
