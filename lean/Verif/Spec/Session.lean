/-
SPECIFICATION (not a model of the code): many runs of the command-line tool, one after the other.
-/
import Verif.Spec.Parallel
import Verif.Spec.Rerun

namespace Mips.Cli

/-- The runs `js`, one after the other, none with a failing operation, started on the disk `d`: the last moment of each of them, and the disk at the end. -/
inductive Session [Unicode] : Disk → List Launch → List St → Disk → Prop
  | nil (d : Disk) : Session d [] [] d
  | cons {d d' : Disk} {j : Launch} {js : List Launch} {s : St} {ss : List St} : Reach true (j.alone d) s → ((∃ n, s.io = .exit n) ∨ s.io = .panic) →
      Session s.disk js ss d' → Session d (j :: js) (s :: ss) d'

/-- No run reads a file that one of them writes. -/
def NoneReads (js : List Launch) : Prop := ∀ j ∈ js, ∀ k ∈ js, ∀ p, k.cmd.output = some p → j.cmd.input ≠ p ∧ j.cmd.syms ≠ some p

/-- On the disk `d`, the run is successful and leaves the contents `bs` in the file `p`. -/
def Writes [Unicode] (j : Launch) (d : Disk) (p : Str) (bs : Bytes) : Prop :=
  j.cmd.output = some p ∧ ∃ u, Reach true (j.alone d) u ∧ u.io = .exit 0 ∧ u.disk p = some bs

end Mips.Cli
