/-
SPECIFICATION (not a model of the code): ways to lay out a program — indentation, blank lines and comments.  Refers only to
character-level definitions.
-/
import Verif.Spec.Words

namespace Mips.Decor
open Mips.Syntax Mips.Source Mips.Branch

/-- A comment: `//` or `;` and anything up to the end of the line. -/
def Comment (c : Str) : Prop := '\n' ∉ c ∧ (startsWith c!"//" c = true ∨ startsWith c!";" c = true)

/-- The text of a statement (an instruction or a label definition): no blanks at either end, no comment in it. -/
structure Statement (t : Str) : Prop where
  nonempty : t ≠ []
  first : ∀ c, t.head? = some c → isWs c = false
  last : ∀ c, t.getLast? = some c → isWs c = false
  clean : uncomment t = t
  line : '\n' ∉ t

/-- Statement `t` on a line of its own: indented, followed by blanks, or by blanks and a comment.  `F t q` says which blanks `q` may
stand between a statement and a comment. -/
inductive OnLine (F : Str → Str → Prop) (t : Str) : Str → Prop
  | plain (p q : Str) : Blank p → Blank q → OnLine F t (p ++ t ++ q)
  | comment (p q c : Str) : Blank p → Blank q → Comment c → F t q → OnLine F t (p ++ t ++ q ++ c)

/-- A line with nothing on it, or just a comment. -/
inductive Empty : Str → Prop
  | blank (p : Str) : Blank p → Empty p
  | comment (p c : Str) : Blank p → Comment c → Empty (p ++ c)

/-- The lines are the statements, one per line, and empty lines. -/
inductive LayoutOf (F : Str → Str → Prop) : List Str → List Str → Prop
  | nil : LayoutOf F [] []
  | skip (raw : Str) (ts ls : List Str) : Empty raw → LayoutOf F ts ls → LayoutOf F ts (raw :: ls)
  | cons (t raw : Str) (ts ls : List Str) : Statement t → OnLine F t raw → LayoutOf F ts ls → LayoutOf F (t :: ts) (raw :: ls)

/-- The comment follows the statement directly. -/
def Glued (t q : Str) : Prop := q = [] ∧ t.getLast? ≠ some '/'

/-- The comment follows the statement directly, or the statement is an instruction and there are blanks in between: any blanks behind
an operand; behind a bare mnemonic they must start with a space (and be a single space if it is `break` or `syscall`). -/
def Follow [Unicode] (t q : Str) : Prop :=
  t.getLast? ≠ some '/' ∧ (q = [] ∨
    (endsWith ':' t = false ∧ (' ' ∈ t ∨ ∃ q', q = ' ' :: q' ∧ (q' = [] ∨ mnemonic t ≠ c!"break" ∧ mnemonic t ≠ c!"syscall"))))

end Mips.Decor
