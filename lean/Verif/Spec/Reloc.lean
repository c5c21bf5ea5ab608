/-
SPECIFICATION (not a model of the code): moving assembled code to another base address.
-/
import Verif.Spec.Code

namespace Mips.Reloc
open Mips.Syntax Mips.Source Mips.Branch Mips.Operands Mips.Lang

/-- Line `k` is a jump (`j` or `jal`) to a label of the file. -/
def JumpsToLabel [Unicode] (f : File) (k : Nat) : Prop :=
  ∃ raw t, f.ls[k]? = some raw ∧ kind raw = .code ∧ mnemonic (body raw) ∈ [c!"j", c!"jal"] ∧ operands (body raw) = [t] ∧ LabelName f.syms (trim t)

/-- Word `i` of the code is that of a jump to a label. -/
def Site [Unicode] (f : File) (i : Nat) : Prop := ∃ k out, Generates f k out ∧ out.length = i ∧ JumpsToLabel f k

/-- The word of a jump, for code that has been moved from the address `b` to the address `b'`: the difference, in words, is added to the
lower 24 bits. -/
def moved (b b' : BitVec 32) (w : BitVec 32) : BitVec 32 :=
  w.extractLsb' 24 8 ++ (w.extractLsb' 0 24 + b'.extractLsb' 2 24 - b.extractLsb' 2 24)

/-- The code, with the words at the places `R` changed to those for the new base address. -/
def relocate (R : List Nat) (b b' : BitVec 32) (ws : List (BitVec 32)) : List (BitVec 32) :=
  ws.mapIdx fun i w => if i ∈ R then moved b b' w else w

end Mips.Reloc
