/-
SPECIFICATION (not a model of the code): programs that differ in the blanks around their operands.
-/
import Verif.Spec.Words
import Verif.Spec.Same

namespace Mips.Blanks
open Mips.Syntax Mips.Source Mips.Branch

/-- The same text with other blanks around it; in front of an opening parenthesis there are blanks in both or in neither. -/
inductive SameText : Str → Str → Prop
  | mk (p q p' q' t : Str) : Blank p → Blank q → Blank p' → Blank q' → (t.head? = some '(' → (p = [] ↔ p' = [])) → SameText (p ++ t ++ q) (p' ++ t ++ q')

/-- The same for lists of operands. -/
inductive SameTexts : List Str → List Str → Prop
  | nil : SameTexts [] []
  | cons (s s' : Str) (l l' : List Str) : SameText s s' → SameTexts l l' → SameTexts (s :: l) (s' :: l')

/-- Two instruction lines with the same mnemonic and the same operands up to the blanks around them.  A bare `break` or `syscall` has no blanks
behind it (apart from the one that ends the mnemonic); the operand of `.word` reaches to the end of the line. -/
structure Respaced [Unicode] (raw raw' : Str) : Prop where
  code : kind raw = .code
  code' : kind raw' = .code
  word : firstWord (body raw) = firstWord (body raw')
  ops : SameTexts (operands (body raw)) (operands (body raw'))
  bare : mnemonic (body raw) = c!"break" ∨ mnemonic (body raw) = c!"syscall" → (operandText (body raw) = [] ↔ operandText (body raw') = [])
  whole : mnemonic (body raw) = c!".word" → SameText (operandText (body raw)) (operandText (body raw'))

/-- The two lines define the same label, or are such instructions. -/
def SameLine [Unicode] (raw raw' : Str) : Prop := (∃ l, kind raw = .label l ∧ kind raw' = .label l) ∨ Respaced raw raw'

end Mips.Blanks
