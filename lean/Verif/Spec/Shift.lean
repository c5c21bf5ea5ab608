/-
SPECIFICATION (not a model of the code): lines with a constant shift amount.
-/
import Verif.Spec.Program

namespace Mips.Shift
open Mips.Isa Mips.Syntax

/-- The shifts by a constant. -/
def shiftNames : List Str := [c!"sll", c!"srl", c!"sra", c!"dsll", c!"dsrl", c!"dsra", c!"dsll32", c!"dsrl32", c!"dsra32"]

/-- The text `s` is the shift `mn rd, rt, c`. -/
def ShiftText (s mn : Str) (rd rt : BitVec 5) (c : Str) : Prop :=
  ∃ mn' a b, s = mn' ++ ' ' :: (a ++ ',' :: (b ++ ',' :: c)) ∧ SameName mn' mn ∧ Reg GprCore a rd ∧ Reg GprCore b rt ∧ ',' ∉ c

end Mips.Shift
