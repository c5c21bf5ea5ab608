/-
SPECIFICATION (not a model of the code): when the text an error message underlines stands in the line it quotes.  Refers
only to character-level definitions.
-/
import Verif.Spec.Operands

namespace Mips.Shown
open Mips.Isa Mips.Syntax Mips.Source Mips.Branch Mips.Names Mips.Operands

/-- `0x` occurs in `s` at most at the start. -/
def Lead (s : Str) : Prop := ¬ c!"0x" <:+: s ∨ ∃ t, s = c!"0x" ++ t ∧ ¬ c!"0x" <:+: t

/-- An operand without parentheses, or with one pair of them, in which `0x` occurs at most at the start of the operand and
at the start of the text between the parentheses. -/
inductive PlainOp : Str → Prop
  | bare (s : Str) : '(' ∉ s → Lead (trim s) → PlainOp s
  | paren (o b q : Str) : (∀ c ∈ o ++ b ++ q, c ≠ '(' ∧ c ≠ ')' ∧ c ≠ '\n') → Lead (trim o) → Lead b →
      PlainOp (o ++ '(' :: b ++ ')' :: q)

/-- The text of a register operand without blanks and dollars. -/
def core (s : Str) : Str := (trim s).dropWhile (· == '$')

/-- A register text in lower case which is not a hexadecimal number with letters. -/
structure PlainReg [Unicode] (s : Str) : Prop where
  low : Unicode.lower (core s) = core s
  hex : ∀ n, Plus hexDigits (core s) n → ∃ m, Plus decDigits (core s) m

/-- Operand `i` of mnemonic `mn` is a floating-point or coprocessor 0 register. -/
def SystemPos (mn : Str) (i : Nat) : Prop :=
  (mn ∈ [c!"mfc0", c!"mtc0", c!"dmfc0", c!"dmtc0", c!"cfc0", c!"ctc0", c!"mfc1", c!"mtc1", c!"dmfc1", c!"dmtc1", c!"cfc1",
     c!"ctc1"] ∧ i = 1) ∨
  (mn ∈ [c!"ldc1", c!"lwc1", c!"sdc1", c!"swc1"] ∧ i = 0) ∨ '.' ∈ mn ∨ mn ∉ Names.all

/-- A line whose operand texts appear in error messages as they are. -/
structure PlainLine [Unicode] (raw : Str) : Prop where
  ops : ∀ s ∈ operands (body raw), PlainOp s
  regs : ∀ (i : Nat) s, (operands (body raw))[i]? = some s → SystemPos (mnemonic (body raw)) i → PlainReg s
  word : mnemonic (body raw) = c!".word" → (operands (body raw)).length = 1
  jump : mnemonic (body raw) ∈ [c!"j", c!"jal"] → ∀ s ∈ operands (body raw), Lead (trim s)

/-- The two errors that quote a line other than the offending one. -/
def OtherLine : ParserError → Prop
  | .multipleLabelDefinition _ _ _ => True
  | .branchOutOfBounds _ _ _ _ => True
  | _ => False

/-- The text an error message underlines, and the line it underlines it in. -/
def marks : ParserError → List (Str × Line)
  | .multipleLabelDefinition l s f => [(s, f), (s, l)]
  | .invalidLabel l s => [(s, l)]
  | .invalidInstruction l => [(trim l.content, l)]
  | .invalidOperandCount l _ _ s => [(s, l)]
  | .invalidOpcode l s => [(s, l)]
  | .invalidRegister l s => [(s, l)]
  | .invalidTargetAddress l s => [(s, l)]
  | .invalidImmediate l s => [(s, l)]
  | .invalidFloatCond l s => [(s, l)]
  | .branchOutOfBounds l s _ _ => [(s, l)]
  | .localLabelOutOfScope l s => [(s, l)]
  | .undefinedLabel l s => [(s, l)]

end Mips.Shown
