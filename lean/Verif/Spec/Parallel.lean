/-
SPECIFICATION (not a model of the code): several runs of the command-line tool at the same time.
-/
import Verif.Spec.Io

namespace Mips.Cli

/-- One of the runs: what remains to be done, and what it has written to its standard output and standard error. -/
structure Proc where
  io : Io
  out : Bytes
  err : Bytes

/-- A moment of several runs, numbered by `ι`, that share the disk. -/
structure Par (ι : Type) where
  disk : Disk
  proc : ι → Proc

/-- A run and the disk it sees. -/
def Par.view {ι : Type} (s : Par ι) (i : ι) : St := ⟨(s.proc i).io, s.disk, (s.proc i).out, (s.proc i).err⟩

/-- Any one of the runs does its next operation; `ParStep true` if it succeeds. -/
inductive ParStep {ι : Type} (b : Bool) (s t : Par ι) : Prop
  | run (i : ι) : Step b (s.view i) (t.view i) → (∀ j, j ≠ i → t.proc j = s.proc j) → ParStep b s t

/-- The moments of all schedules; with `ParReach true`, of those in which no operation fails. -/
inductive ParReach {ι : Type} (ok : Bool) (s : Par ι) : Par ι → Prop
  | here : ParReach ok s s
  | next {t u : Par ι} (b : Bool) : ParReach ok s t → (ok = true → b = true) → ParStep b t u → ParReach ok s u

/-- A run to be started. -/
structure Launch where
  rt : Rt
  lib : Lib
  cmd : Cmd

/-- All runs are started on the disk `d`. -/
def together [Unicode] {ι : Type} (jobs : ι → Launch) (d : Disk) : Par ι := ⟨d, fun i => ⟨program (jobs i).rt (jobs i).lib (jobs i).cmd, [], []⟩⟩

/-- This run alone. -/
def Launch.alone [Unicode] (j : Launch) (d : Disk) : St := start j.rt j.lib j.cmd d

/-- No run reads or writes the file that another one writes. -/
def Independent {ι : Type} (jobs : ι → Launch) : Prop :=
  ∀ i j, i ≠ j → ∀ p, (jobs i).cmd.output = some p → (jobs j).cmd.input ≠ p ∧ (jobs j).cmd.syms ≠ some p ∧ (jobs j).cmd.output ≠ some p

end Mips.Cli
