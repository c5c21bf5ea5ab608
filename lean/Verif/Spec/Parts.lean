/-
SPECIFICATION (not a model of the code): programs that can be put one behind the other, in any number and any order.
-/
import Verif.Spec.Link

namespace Mips.Parts
open Mips.Source Mips.Branch Mips.Operands
open Mips.Lang (plan Numeral LabelName)
open Mips.Fresh (Mentions)
open Mips.Link (Calls)

/-- A part of a program: it begins with a global label, its first instruction mentions no local label, and no branch is given a number. -/
structure IsPart [Unicode] (b : List Str) : Prop where
  starts : ∃ raw g rest, b = raw :: rest ∧ kind raw = .label g ∧ isLocal g = false
  first : ∀ (k : Nat) raw x, b[k]? = some raw → isLocal x = true → Mentions raw x → ∃ j r, j < k ∧ b[j]? = some r ∧ kind r = .code
  numbers : ∀ raw ∈ b, ∀ st t v, plan (body raw) = some st → .const Lang.addr t ∈ st → ¬ Numeral false (trim t) v

/-- No global label of the one is defined in the other, or mentioned in it unless it is a symbol that a jump goes to. -/
structure Strange [Unicode] (syms : List (BitVec 32 × Str)) (a b : List Str) : Prop where
  defined : ∀ d e l, isLocal l = false → Defines a d l → ¬ Defines b e l
  unused : ∀ d l, isLocal l = false → Defines a d l → ∀ raw ∈ b, Mentions raw l → Calls syms raw l

/-- Jumps do not go to labels (but to symbols and addresses). -/
def NoLabelJumps [Unicode] (syms : List (BitVec 32 × Str)) (b : List Str) : Prop :=
  ∀ raw ∈ b, ∀ st t, plan (body raw) = some st → .target t ∈ st → ¬ LabelName syms (trim t)

end Mips.Parts
