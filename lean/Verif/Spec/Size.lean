/-
SPECIFICATION (not a model of the code): how many words each mnemonic is assembled to.
-/
import Verif.Spec.Words
import Verif.Spec.Mnemonics

namespace Mips.Size
open Mips.Branch

/-- The mnemonics of fixed size that take more than one word. -/
def long : List (Str × Nat) :=
  cmpBranchNames.map (·, 2) ++
  [(c!"mul", 2), (c!"mulu", 2), (c!"dmul", 2), (c!"dmulu", 2),
   (c!"seq", 2), (c!"sne", 2), (c!"sge", 2), (c!"sgeu", 2), (c!"sle", 2), (c!"sleu", 2),
   (c!"abs", 3), (c!"dabs", 3), (c!"remu", 3), (c!"dremu", 3),
   (c!"drol", 4), (c!"dror", 4), (c!"mulou", 4), (c!"dmulou", 4),
   (c!"mulo", 6), (c!"dmulo", 6), (c!"dli", 6), (c!"rem", 8), (c!"drem", 8)]

/-- The divisions, with the size of the expansion of the three-operand form. -/
def division : List (Str × Nat) := [(c!"divu", 3), (c!"ddivu", 3), (c!"div", 8), (c!"ddiv", 8)]

/-- The mnemonics whose size depends on an operand, with the larger size; the smaller one is 1. -/
def varying : List (Str × Nat) := [(c!"li", 2), (c!"liu", 2)] ++ division

/-- The number of words of a mnemonic of fixed size. -/
def words (mn : Str) : Nat := (long.lookup mn).getD 1

/-- The mnemonics that are always one word long. -/
def Short (mn : Str) : Prop := mn ∉ long.map (·.1) ∧ mn ∉ varying.map (·.1)

instance (mn : Str) : Decidable (Short mn) := by unfold Short; infer_instance

end Mips.Size
