/-
SPECIFICATION (not a model of the code): a program that can be cut in two.
-/
import Verif.Spec.Link
import Verif.Spec.Scope

namespace Mips.Link
open Mips.Source Mips.Branch Mips.Operands
open Mips.Lang (plan Numeral)
open Mips.Fresh (Mentions)

/-- The two parts do not get in each other's way (`Apart`), and each has what it needs. -/
structure Cut [Unicode] (base : BitVec 32) (syms : List (BitVec 32 × Str)) (a b : List Str) : Prop where
  apart : Apart syms a b
  /-- no global label of the second part is mentioned in the first, unless it is a symbol that a jump goes to -/
  front : ∀ e l, isLocal l = false → Defines b e l → ∀ raw ∈ a, Mentions raw l → Calls syms raw l
  /-- branches of the first part to a number do not go beyond its end -/
  inside : ∀ raw ∈ a, ∀ st t (v : Nat), plan (body raw) = some st → .const Lang.addr t ∈ st → Numeral false (trim t) v →
    v ≤ base.toNat + 4 * codeCount a
  /-- in a part that mentions local labels, some local label is followed by a global one -/
  closed : ∀ raw ∈ a, ∀ x, isLocal x = true → Mentions raw x → HasClosedScope a
  closed' : ∀ raw ∈ b, ∀ x, isLocal x = true → Mentions raw x → HasClosedScope b

end Mips.Link
