/-
Model of src/error.rs: error and warning values and their `Display` implementations.
-/
import Verif.Model.Num

namespace Mips

/-- `Line` (src/error.rs:168-172). -/
structure Line where
  num : Nat
  content : Str
  deriving DecidableEq, Repr

/-- `ParserWarning` (src/error.rs:180-185). -/
inductive ParserWarning where
  | invalidInstructionInDelaySlot (line delaySlotInst : Line)
  | unalignedBranch (line : Line) (offset : Str)
  | unalignedJump (line : Line) (target : Str)
  deriving DecidableEq, Repr

/-- `ParserError` (src/error.rs:268-321). -/
inductive ParserError where
  | multipleLabelDefinition (line : Line) (label : Str) (first : Line)
  | invalidLabel (line : Line) (label : Str)
  | invalidInstruction (line : Line)
  | invalidOperandCount (line : Line) (expected found : Nat) (ops : Str)
  | invalidOpcode (line : Line) (opcode : Str)
  | invalidRegister (line : Line) (register : Str)
  | invalidTargetAddress (line : Line) (address : Str)
  | invalidImmediate (line : Line) (immediate : Str)
  | invalidFloatCond (line : Line) (cond : Str)
  | branchOutOfBounds (line : Line) (branch : Str) (lo hi : BitVec 32)
  | localLabelOutOfScope (line : Line) (label : Str)
  | undefinedLabel (line : Line) (label : Str)
  deriving DecidableEq, Repr

/-- The escape character `\x1b` starting the colour codes of src/error.rs. -/
def esc : Str := [Char.ofNat 27]

/-- `\x1b[94m` -/
def blue : Str := esc ++ c!"[94m"
/-- `\x1b[91m` -/
def red : Str := esc ++ c!"[91m"
/-- `\x1b[0m` -/
def reset : Str := esc ++ c!"[0m"

/-- `{:>w$}`: pad on the left with spaces. -/
def padLeft (w : Nat) (s : Str) : Str := List.replicate (w - s.length) ' ' ++ s

/-- `fmt_line` (src/error.rs:541-585); `none` is the panic when `underline` does not occur in
`content`. -/
def fmtLine (num : Nat) (content : Str) (margin : Nat) (errUnderline : Bool) (msg : Str)
    (firstSpace : Bool) (underline : Str) : Option Str :=
  match findStr underline content with
  | none => none
  | some start =>
    let pad := padLeft margin []
    some <|
      (if firstSpace then blue ++ pad ++ c!" |" ++ reset ++ ['\n'] else []) ++
      (blue ++ padLeft margin (decimal num) ++ c!" |" ++ reset ++ c!" " ++ content ++ ['\n']) ++
      (if errUnderline then
        blue ++ pad ++ c!" | " ++ List.replicate start ' ' ++ List.replicate (byteLen underline) '-' ++
          c!" " ++ msg ++ reset ++ ['\n']
      else
        blue ++ pad ++ c!" | " ++ List.replicate start ' ' ++ red ++
          List.replicate (byteLen underline) '^' ++ c!" " ++ msg ++ reset ++ ['\n']) ++
      (blue ++ pad ++ c!" |" ++ reset)

/-- The `warning: ...` / `error: ...` headline followed by the text of one `fmt_line` and a newline
(the two `writeln!` of each arm). -/
def headed (head : Str) (body : Option Str) : Option Str :=
  body.map fun b => head ++ ['\n'] ++ b ++ ['\n']

/-- Two located lines separated by a blue `...` line (src/error.rs:197-226, 333-355). -/
def headed2 (head : Str) (first second : Option Str) : Option Str :=
  match first, second with
  | some a, some b => some (head ++ ['\n'] ++ a ++ ['\n'] ++ blue ++ c!"..." ++ reset ++ ['\n'] ++ b ++ ['\n'])
  | _, _ => none

/-- `num.to_string().len()` -/
def marginOf (n : Nat) : Nat := (decimal n).length

/-- `Display for ParserWarning` (src/error.rs:187-266); `none` is a panic. -/
def ParserWarning.display : ParserWarning → Option Str
  | .invalidInstructionInDelaySlot l d =>
    let margin := marginOf l.num
    headed2 (c!"warning: instruction `" ++ trim d.content ++ c!"` cannot be in a delay slot")
      (fmtLine d.num d.content margin false c!"this instruction cannot be in a delay slot" true
        (trim d.content))
      (fmtLine l.num l.content margin true c!"delay slot occurs after this instruction" false
        (trim l.content))
  | .unalignedBranch l o =>
    headed (c!"warning: branch offset `" ++ o ++ c!"` is not aligned to a 4-byte boundary")
      (fmtLine l.num l.content (marginOf l.num) true c!"offset is not divisible by 4" false o)
  | .unalignedJump l t =>
    headed (c!"warning: jump target `" ++ t ++ c!"` is not aligned to a 4-byte boundary")
      (fmtLine l.num l.content (marginOf l.num) true c!"target is not divisible by 4" false t)

/-- The red `error` word. -/
def errHead : Str := red ++ c!"error" ++ reset

/-- The common one-line error layout. -/
def errLine (l : Line) (head msg underline : Str) : Option Str :=
  headed (errHead ++ head) (fmtLine l.num l.content (marginOf l.num) false msg true underline)

/-- `Display for ParserError` (src/error.rs:323-539); `none` is a panic. -/
def ParserError.display : ParserError → Option Str
  | .multipleLabelDefinition l lbl f =>
    let margin := max (marginOf l.num) (marginOf f.num)
    headed2 (errHead ++ c!": label `" ++ lbl ++ c!"` defined multiple times")
      (fmtLine f.num f.content margin true c!"first defined here" true lbl)
      (fmtLine l.num l.content margin false c!"redefined here" false lbl)
  | .invalidLabel l lbl =>
    errLine l (c!": label `" ++ lbl ++ c!"` must start with a letter") c!"defined here" lbl
  | .invalidInstruction l =>
    errLine l (c!": invalid instruction `" ++ trim l.content ++ c!"`") [] (trim l.content)
  | .invalidOperandCount l e f ops =>
    errLine l (c!": invalid number of operands `" ++ l.content ++ c!"`")
      (c!"expected " ++ decimal e ++ c!" operands, found " ++ decimal f) ops
  | .invalidOpcode l o => errLine l (c!": invalid opcode `" ++ o ++ c!"`") [] o
  | .invalidRegister l r => errLine l (c!": invalid register `" ++ r ++ c!"`") [] r
  | .invalidTargetAddress l a => errLine l (c!": invalid target address `" ++ a ++ c!"`") [] a
  | .invalidImmediate l i => errLine l (c!": invalid immediate `" ++ i ++ c!"`") [] i
  | .invalidFloatCond l x => errLine l (c!": invalid float compare condition `" ++ x ++ c!"`") [] x
  | .branchOutOfBounds l b lo hi =>
    errLine l (c!": branch `" ++ b ++ c!"` out of bounds")
      (c!"should be between 0x" ++ zeroPad 8 (hexLower lo.toNat) ++ c!" and 0x" ++
        zeroPad 8 (hexLower hi.toNat)) b
  | .localLabelOutOfScope l lbl =>
    errLine l (c!": local label `" ++ lbl ++ c!"` used outside of its scope") [] lbl
  | .undefinedLabel l lbl => errLine l (c!": label `" ++ lbl ++ c!"` is not defined") c!"used here" lbl

/-- The line an error points at. -/
def ParserError.line : ParserError → Line
  | .multipleLabelDefinition l _ _ => l
  | .invalidLabel l _ => l
  | .invalidInstruction l => l
  | .invalidOperandCount l _ _ _ => l
  | .invalidOpcode l _ => l
  | .invalidRegister l _ => l
  | .invalidTargetAddress l _ => l
  | .invalidImmediate l _ => l
  | .invalidFloatCond l _ => l
  | .branchOutOfBounds l _ _ _ => l
  | .localLabelOutOfScope l _ => l
  | .undefinedLabel l _ => l

end Mips
