/-
SPECIFICATION (not a model of the code): edits that replace instructions by instructions, line by line.
-/
import Verif.Spec.Source

namespace Mips.Edit
open Mips.Source

/-- The two files have blank lines, instructions and definitions of the same labels on the same lines. -/
def SameOutline (a b : List Str) : Prop := a.map kind = b.map kind

/-- Every line of `c` is the line of `a` or the line of `b` in its place. -/
def Mixed (a b c : List Str) : Prop := c.length = a.length ∧ ∀ (k : Nat) (raw : Str), c[k]? = some raw → a[k]? = some raw ∨ b[k]? = some raw

end Mips.Edit
