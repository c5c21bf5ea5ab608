/-
SPECIFICATION (not a model of the code): the rule, in terms of the lines of the file, by which a reference to a local label finds
its definition.
-/
import Verif.Spec.Branch

namespace Mips.Branch
open Mips.Source

/-- A definition on line `d` is visible from line `k`: it lies in front of all global labels; or its scope is that of line `k`
or an earlier one, and no instruction stands between the end of that scope and line `k`. -/
def Visible (ls : List Str) (k d : Nat) : Prop :=
  scope ls d = 0 ∨
  (scope ls d ≤ scope ls k ∧ ∀ j raw, j < k → ls[j]? = some raw → kind raw = .code → scope ls j ≤ scope ls d)

/-- Line `d` is the definition a reference to `x` on line `k` resolves to: it is visible, no visible definition of `x` has an earlier
scope, and it is the last definition of `x` in its scope. -/
def Chosen (ls : List Str) (k d : Nat) (x : Str) : Prop :=
  Defines ls d x ∧ Visible ls k d ∧ (∀ d', Defines ls d' x → Visible ls k d' → scope ls d ≤ scope ls d') ∧
  ∀ d', d < d' → Defines ls d' x → scope ls d' ≠ scope ls d

/-- Some local label of the file is followed by a global label. -/
def HasClosedScope (ls : List Str) : Prop :=
  ∃ d g y, Defines ls d y ∧ isLocal y = true ∧ d < g ∧ scope ls d < scope ls g

/-- The added lines define, ahead of their first global label, no local label that is defined in the last scope of the file. -/
def NoClash (ls more : List Str) : Prop :=
  ∀ d e x, isLocal x = true → Defines ls d x → scope ls d = scope ls ls.length → Defines more e x → scope more e ≠ 0

end Mips.Branch
