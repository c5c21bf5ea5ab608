/-
SPECIFICATION (not a model of the code): changing the letter case of mnemonics, whatever their operands.
-/
import Verif.Spec.Case
import Verif.Spec.Language

namespace Mips.Case
open Mips.Syntax Mips.Source Mips.Branch

/-- Line `raw'` is the instruction line `raw` with the letters of its mnemonic `op` in another case, `op'`. -/
structure Cased (raw raw' op op' r : Str) : Prop where
  code : kind raw = .code
  text : body raw = op ++ r
  text' : body raw' = op' ++ r
  sep : r = [] ∨ r.head? = some ' '
  chars : ∀ c ∈ op, mnChar c = true
  case : op.map asciiLower = op'.map asciiLower

/-- Files that differ only in the letter case of mnemonics. -/
inductive CasedFile : List Str → List Str → Prop
  | nil : CasedFile [] []
  | same (raw : Str) (ls ls' : List Str) : CasedFile ls ls' → CasedFile (raw :: ls) (raw :: ls')
  | cased (raw raw' op op' r : Str) (ls ls' : List Str) : Cased raw raw' op op' r → CasedFile ls ls' → CasedFile (raw :: ls) (raw' :: ls')

/-- The numbers that `andi`, `ori` and `xori`, spelled `w`, take: unsigned ones if `w` is in lower case, signed ones otherwise. -/
def numbers (w : Str) : Lang.Range := if w ∈ logicalNames then Lang.uimm else Lang.simm

end Mips.Case
