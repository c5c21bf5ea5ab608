/-
SPECIFICATION (not a model of the code): changing the letter case of a mnemonic.
-/
import Verif.Spec.Words

namespace Mips.Case
open Mips.Syntax Mips.Source Mips.Branch

/-- The characters of mnemonics: ASCII letters, digits and the dot. -/
def mnChar (c : Char) : Bool := c.isAlphanum || c == '.'

/-- The logical instructions with an immediate operand. -/
def logicalNames : List Str := [c!"andi", c!"ori", c!"xori"]

/-- Line `raw'` is the instruction line `raw` with the letters of its mnemonic `op` in another case, `op'`.  `andi`, `ori` and `xori`
must be given a non-negative constant below 32768. -/
structure Recased (raw raw' op op' r : Str) : Prop where
  code : kind raw = .code
  text : body raw = op ++ r
  text' : body raw' = op' ++ r
  sep : r = [] ∨ r.head? = some ' '
  chars : ∀ c ∈ op, mnChar c = true
  case : op.map asciiLower = op'.map asciiLower
  logical : op.map asciiLower ∈ logicalNames → ∃ (c : Str) (n : Nat), (operands (body raw)).getLast? = some c ∧ PNum c n ∧ n < 32768

/-- Lines that are equal or differ in the letter case of the mnemonic. -/
def SameLine (raw raw' : Str) : Prop := raw = raw' ∨ ∃ op op' r, Recased raw raw' op op' r

/-- Files that differ only in the letter case of mnemonics. -/
inductive SameFile : List Str → List Str → Prop
  | nil : SameFile [] []
  | cons (raw raw' : Str) (ls ls' : List Str) : SameLine raw raw' → SameFile ls ls' → SameFile (raw :: ls) (raw' :: ls')

end Mips.Case
