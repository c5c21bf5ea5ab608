/-
SPECIFICATION (not a model of the code): writing out the lines of a file, for C82.
-/
import Verif.Spec.Back
import Verif.Spec.Report

namespace Mips.Shorthand
open Mips.Listing

/-- The same settings, with debug mode switched on. -/
def debugging (m : Mipsasm) : Mipsasm := { m with debug := true }

/-- `out` is what the disassembler shows, in debug mode, of the words that the line gives when it is assembled alone; all of them words that the
notation of the assembler can express. -/
def Shows [Unicode] (rt : Rt) (m : Mipsasm) (raw : Str) (out : List Str) : Prop :=
  ∃ ws, (assemble rt m raw).words = some ws ∧ (∀ w ∈ ws, Returns m.syms m.base w) ∧ disassemble rt (debugging m) ws = some out

/-- Some lines of a file are written out: each of them is replaced by the listing of its words. -/
inductive WrittenOut [Unicode] (rt : Rt) (m : Mipsasm) : List Str → List Str → Prop
  | nil : WrittenOut rt m [] []
  | keep (raw : Str) {ls ls' : List Str} : WrittenOut rt m ls ls' → WrittenOut rt m (raw :: ls) (raw :: ls')
  | write (raw : Str) (out : List Str) {ls ls' : List Str} : Shows rt m raw out → WrittenOut rt m ls ls' → WrittenOut rt m (raw :: ls) (out ++ ls')

end Mips.Shorthand
