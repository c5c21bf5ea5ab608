/-
SPECIFICATION (not a model of the code): how jumps are written and where they go.
-/
import Verif.Spec.Branch
import Verif.Spec.Listing

namespace Mips.Branch
open Mips.Isa Mips.Syntax Mips.Source

/-- The two jumps. -/
def jumpOps : List Str := [c!"j", c!"jal"]

/-- Line `k` of the file is the jump `mn t`, `mn` in any letter case. -/
def JumpAt (ls : List Str) (k : Nat) (mn t : Str) : Prop :=
  mn ∈ jumpOps ∧ ',' ∉ t ∧ ∃ raw mn', ls[k]? = some raw ∧ kind raw = .code ∧ SameName mn' mn ∧ body raw = mn' ++ ' ' :: t

/-- Instruction `i` of the emitted code is the jump `mn` with instruction index `idx`. -/
def HasTarget (is : List Instruction) (i : Nat) (mn : Str) (idx : BitVec 26) : Prop :=
  ∃ w, encoding mn [.target idx] = some w ∧ (is[i]?).map Instruction.getBytes = some [w]

/-- Instruction `i` of the emitted code is the jump `mn`, and, executed at an address whose top four bits are those of `pc`, it
goes to the address `a`. -/
def JumpsTo (is : List Instruction) (i : Nat) (mn : Str) (pc a : BitVec 32) : Prop :=
  ∃ idx, HasTarget is i mn idx ∧ Listing.jumpAddr pc idx = a

/-- Bits 2..25 of an address. -/
def index24 (a : BitVec 32) : BitVec 26 := (a.extractLsb' 2 24).setWidth 26

/-- The addresses that can be reached from the 256 MB region of `pc` by an instruction index below 2^24: multiples of 4 in the
lowest 64 MB of the region. -/
def Low (pc a : BitVec 32) : Prop := a.toNat % 4 = 0 ∧ a.toNat / 2 ^ 28 = pc.toNat / 2 ^ 28 ∧ a.toNat % 2 ^ 28 < 2 ^ 26

/-- Instruction `i` of the emitted code is the branch `mn regs`, and, the code being placed at `base`, it goes to the address `a`. -/
def BranchesTo (is : List Instruction) (i : Nat) (base : BitVec 32) (mn : Str) (regs : List (BitVec 5)) (a : BitVec 32) : Prop :=
  ∃ o, HasOffset is i mn regs o ∧ base + BitVec.ofNat 32 (4 * (wordIndex is i + 1)) + BitVec.ofInt 32 (4 * o.toInt) = a

end Mips.Branch
