/-
SPECIFICATION (not a model of the code): repeated runs of the command-line tool.
-/
import Verif.Spec.Io

namespace Mips.Cli

/-- The disk `d'` is left behind by any number of runs with the same command line, one after the other, starting on the disk `d`.  Each of them may have been
stopped at any moment (the machine loses power, say), with any of its operations on files failing, or have ended in any way.  The libraries need not even be the
same ones. -/
inductive Attempts [Unicode] (c : Cmd) : Disk → Disk → Prop
  | none (d : Disk) : Attempts c d d
  | one {d d' : Disk} (rt : Rt) (L : Lib) (s : St) : Reach false (start rt L c d) s → Attempts c s.disk d' → Attempts c d d'

/-- The libraries read the same YAML files, and have the same error text.  The hash map of the symbols is iterated in the same order, or, as every run has its own
order, no two addresses of the symbol file have the same name. -/
def SameLib (c : Cmd) (d : Disk) (L L' : Lib) : Prop :=
  L.yaml = L'.yaml ∧ L.badUtf8 = L'.badUtf8 ∧
  (L.order = L'.order ∨ ∀ text y, SymText c d text → L.yaml text = some y → ((loadSyms y).map (·.2)).Nodup)

/-- The files that are read are not the one that is written. -/
def Apart (c : Cmd) : Prop := c.output ≠ some c.input ∧ ∀ p, c.syms = some p → c.output ≠ some p

/-- The same end on the disk `now`: a successful run leaves the same disk, any other leaves `now` as it is. -/
def again (now : Disk) : End → End
  | .status 0 disk out err => .status 0 disk out err
  | .status (n + 1) _ out err => .status (n + 1) now out err
  | .panic => .panic

/-- The same end on another disk `now`: a successful run gives the output file, if there is one, the same contents; nothing else is changed. -/
def onDisk (c : Cmd) (now : Disk) : End → End
  | .status 0 disk out err => .status 0 (match c.output with | some p => now.set p ((disk p).getD []) | none => now) out err
  | .status (n + 1) _ out err => .status (n + 1) now out err
  | .panic => .panic

end Mips.Cli
