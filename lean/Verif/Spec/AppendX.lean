/-
SPECIFICATION (not a model of the code): local labels that are defined again in lines added at the end of a file.
-/
import Verif.Spec.Scope

namespace Mips.Branch
open Mips.Source

/-- The added lines define, ahead of their first global label, the local label `x`, which the last scope of the file defines. -/
def Redefined (ls more : List Str) (x : Str) : Prop :=
  ∃ d e, Defines ls d x ∧ scope ls d = scope ls ls.length ∧ Defines more e x ∧ scope more e = 0

end Mips.Branch
