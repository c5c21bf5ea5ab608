/-
SPECIFICATION (not a model of the code): what a listing shows of the place of the code.
-/
import Verif.Spec.Columns

namespace Mips.Listing
open Mips.Isa

/-- `j` or `jal` -/
def IsJump (w : BitVec 32) : Prop := fOp w = 2#6 ∨ fOp w = 3#6

/-- A line of a listing without the name, if it is a label. -/
def unnamed (l : Str) : Str := if endsWith ':' l then c!":" else l

end Mips.Listing
