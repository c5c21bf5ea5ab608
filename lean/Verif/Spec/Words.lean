/-
SPECIFICATION (not a model of the code): the parts of the text of an instruction line.  Refers only to character-level
definitions.
-/
import Verif.Spec.Jump

namespace Mips.Branch
open Mips.Isa Mips.Syntax Mips.Source

/-- The text in front of the first space. -/
def firstWord : Str → Str
  | [] => []
  | c :: s => if c = ' ' then [] else c :: firstWord s

/-- The text behind the first space. -/
def operandText : Str → Str
  | [] => []
  | c :: s => if c = ' ' then s else operandText s

/-- The operands: what stands between commas. -/
def operands (s : Str) : List Str := split ',' (operandText s)

/-- The mnemonic of an instruction line, in lower case. -/
def mnemonic [Unicode] (s : Str) : Str := trim (Unicode.lower (firstWord s))

/-- The compare-and-branch pseudo-instructions. -/
def cmpBranchNames : List Str :=
  [c!"bge", c!"bgt", c!"ble", c!"blt", c!"bgeu", c!"bgtu", c!"bleu", c!"bltu", c!"bgel", c!"bgtl", c!"blel", c!"bltl",
   c!"bgeul", c!"bgtul", c!"bleul", c!"bltul"]

/-- All branch mnemonics of the language. -/
def branchNames : List Str :=
  nativeBranches ++ [c!"b", c!"bal", c!"beqz", c!"bnez", c!"beqzl", c!"bnezl"] ++ cmpBranchNames

/-- The last operand of line `k` is the name of a local label or of a global label defined on an earlier line. -/
def ToLabel (ls : List Str) (k : Nat) (raw : Str) : Prop :=
  ∃ t, (operands (body raw)).getLast? = some t ∧
    (isLocal (trim t) = true ∨ ∃ d, d < k ∧ Defines ls d (trim t))

end Mips.Branch
