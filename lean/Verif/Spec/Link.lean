/-
SPECIFICATION (not a model of the code): two programs that do not get in each other's way when one is put behind the other.
-/
import Verif.Spec.Fresh

namespace Mips.Link
open Mips.Names hiding none
open Mips.Source Mips.Branch Mips.Operands
open Mips.Lang (plan Numeral)
open Mips.Fresh (Mentions)

/-- The line jumps to an address (`j`, `jal`), and the text is a symbol. -/
def Calls [Unicode] (syms : List (BitVec 32 × Str)) (raw l : Str) : Prop :=
  (∃ t w, plan (body raw) = some [.target t, .name w]) ∧ Lang.symbol syms l ≠ Option.none

/-- The second program does not get in the way of the first, nor the first in the way of the second. -/
structure Apart [Unicode] (syms : List (BitVec 32 × Str)) (a b : List Str) : Prop where
  /-- no global label of the first is defined in the second -/
  defined : ∀ d e l, isLocal l = false → Defines a d l → ¬ Defines b e l
  /-- or mentioned in it, unless it is a symbol that a jump goes to -/
  unused : ∀ d l, isLocal l = false → Defines a d l → ∀ raw ∈ b, Mentions raw l → Calls syms raw l
  /-- the local labels of the second stand behind its first global label -/
  behind : ∀ e x, isLocal x = true → Defines b e x → scope b e ≠ 0
  /-- no local label of the first is visible from a line of the second that mentions it -/
  hidden : ∀ d k x raw, isLocal x = true → Defines a d x → b[k]? = some raw → Mentions raw x → ¬ Visible (a ++ b) (a.length + k) d
  /-- no branch of the second is given a number -/
  numbers : ∀ raw ∈ b, ∀ st t v, plan (body raw) = some st → .const Lang.addr t ∈ st → ¬ Numeral false (trim t) v

/-- The everyday case: the second program begins with a global label, and the first one's labels occur nowhere in it; no branch of
the second is given a number. -/
structure Modules [Unicode] (a b : List Str) : Prop where
  starts : ∃ raw g rest, b = raw :: rest ∧ kind raw = .label g ∧ isLocal g = false
  defined : ∀ d e l, Defines a d l → ¬ Defines b e l
  unused : ∀ d l, Defines a d l → ∀ raw ∈ b, ¬ Mentions raw l
  numbers : ∀ raw ∈ b, ∀ st t v, plan (body raw) = some st → .const Lang.addr t ∈ st → ¬ Numeral false (trim t) v

end Mips.Link
