/-
SPECIFICATION (not a model of the code): words that are branches.
-/
import Verif.Spec.Isa

namespace Mips.Listing
open Mips.Isa

/-- The word is a branch: the instruction set decodes it with a branch offset as an operand. -/
def BranchWord (w : BitVec 32) : Prop := ∃ mn args v, decoding w = some (mn, args) ∧ Arg.off v ∈ args

/-- There is no branch among the words. -/
def NoBranches (ws : List (BitVec 32)) : Prop := ∀ w ∈ ws, ¬ BranchWord w

end Mips.Listing
