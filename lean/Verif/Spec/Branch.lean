/-
SPECIFICATION (not a model of the code): how branches and jumps are written, the instruction each branch mnemonic stands
for, and where labels are.
-/
import Verif.Spec.Syntax
import Verif.Spec.Source
import Verif.Model.Lib

namespace Mips.Branch
open Mips.Isa Mips.Syntax Mips.Source

/-- `BrText s mn regs t`: the text `s` of an instruction line is the branch mnemonic `mn` (in any letter case), one space,
the registers `regs` and the target text `t`, separated by commas. -/
inductive BrText : Str → Str → List (BitVec 5) → Str → Prop
  | r0 (mn' mn t : Str) : SameName mn' mn → ',' ∉ t → BrText (mn' ++ ' ' :: t) mn [] t
  | r1 (mn' mn a t : Str) (r : BitVec 5) : SameName mn' mn → Reg GprCore a r → ',' ∉ t →
      BrText (mn' ++ ' ' :: (a ++ ',' :: t)) mn [r] t
  | r2 (mn' mn a b t : Str) (r q : BitVec 5) : SameName mn' mn → Reg GprCore a r → Reg GprCore b q → ',' ∉ t →
      BrText (mn' ++ ' ' :: (a ++ ',' :: (b ++ ',' :: t))) mn [r, q] t

/-- The branches of the instruction set. -/
def nativeBranches : List Str :=
  [c!"beq", c!"bne", c!"beql", c!"bnel", c!"bgez", c!"bgezal", c!"bgezall", c!"bgezl", c!"bltz", c!"bltzal", c!"bltzall",
   c!"bltzl", c!"bgtz", c!"bgtzl", c!"blez", c!"blezl", c!"bc0f", c!"bc0t", c!"bc0fl", c!"bc0tl", c!"bc1f", c!"bc1t",
   c!"bc1fl", c!"bc1tl"]

/-- The instruction that a branch mnemonic with register operands stands for. -/
def expand (mn : Str) (regs : List (BitVec 5)) : Option (Str × List (BitVec 5)) :=
  if mn = c!"b" ∧ regs = [] then some (c!"beq", [0, 0])
  else if mn = c!"bal" ∧ regs = [] then some (c!"bgezal", [0])
  else match regs with
    | [r] =>
      if mn = c!"beqz" then some (c!"beq", [r, 0])
      else if mn = c!"bnez" then some (c!"bne", [r, 0])
      else if mn = c!"beqzl" then some (c!"beql", [r, 0])
      else if mn = c!"bnezl" then some (c!"bnel", [r, 0])
      else if mn ∈ nativeBranches then some (mn, regs) else none
    | _ => if mn ∈ nativeBranches then some (mn, regs) else none

/-- The word of the branch `mn regs` with offset `o`. -/
def branchWord (mn : Str) (regs : List (BitVec 5)) (o : BitVec 16) : Option (BitVec 32) :=
  (expand mn regs).bind fun p => encoding p.1 (p.2.map Arg.gpr ++ [.off o])

/-- A branch of the instruction set, or `b`, `bal`, `beqz`, `bnez`, `beqzl`, `bnezl`, with the right number of registers. -/
def IsBranch (mn : Str) (regs : List (BitVec 5)) : Prop := (branchWord mn regs 0).isSome = true

/-- The number of words emitted for the first `j` instructions: the index, in the emitted code, of the first word of
instruction `j`. -/
def wordIndex (is : List Instruction) (j : Nat) : Nat := (getBytes (is.take j)).length

/-- Instruction `i` of the emitted code is the branch `mn regs` with offset `o`. -/
def HasOffset (is : List Instruction) (i : Nat) (mn : Str) (regs : List (BitVec 5)) (o : BitVec 16) : Prop :=
  ∃ w, branchWord mn regs o = some w ∧ (is[i]?).map Instruction.getBytes = some [w]

/-- Instruction `i` of the emitted code is the branch `mn regs`, and it goes to the first word of instruction `n`. -/
def Reaches (is : List Instruction) (i n : Nat) (mn : Str) (regs : List (BitVec 5)) : Prop :=
  ∃ o, HasOffset is i mn regs o ∧ (wordIndex is i : Int) + 1 + o.toInt = wordIndex is n

/-- Instructions `a ≤ j < b` are one word long each. -/
def Single (is : List Instruction) (a b : Nat) : Prop :=
  ∀ (j : Nat) (x : Instruction), a ≤ j → j < b → is[j]? = some x → x.getBytes.length = 1

/-- Line `d` of the file defines the label `l`. -/
def Defines (ls : List Str) (d : Nat) (l : Str) : Prop := ∃ raw, ls[d]? = some raw ∧ kind raw = .label l

/-- Line `k` of the file is the branch `mn regs, t`. -/
def BranchAt (ls : List Str) (k : Nat) (mn : Str) (regs : List (BitVec 5)) (t : Str) : Prop :=
  ∃ raw, ls[k]? = some raw ∧ kind raw = .code ∧ BrText (body raw) mn regs t

/-- The scope of line `k`: the number of global labels defined on earlier lines. -/
def scope (ls : List Str) (k : Nat) : Nat := (globals (ls.take k)).length

/-- A name that cannot be read as a number or as `%hi(..)`/`%lo(..)`: it has no parenthesis, and some character that occurs in
no numeral. -/
def Wordy (l : Str) : Prop := '(' ∉ l ∧ ∃ c ∈ l, c ∉ c!"0123456789abcdefABCDEFx+-"

/-- No definition of the local label `x` outside the scope of line `k` gets in the way of a reference from line `k`: `x` is not
defined in front of all global labels (unless line `k` is there, too), and either line `k` is not the first instruction of its
scope or `x` is not defined in an earlier scope. -/
def Undisturbed (ls : List Str) (k : Nat) (x : Str) : Prop :=
  (∀ d, Defines ls d x → scope ls d = 0 → scope ls k = 0) ∧
  ((∃ j raw, j < k ∧ ls[j]? = some raw ∧ kind raw = .code ∧ scope ls j = scope ls k) ∨
    ∀ d, Defines ls d x → scope ls k ≤ scope ls d)

/-- Line `d` is the last definition of `x` in the scope of line `k`. -/
def LastIn (ls : List Str) (k d : Nat) (x : Str) : Prop :=
  Defines ls d x ∧ scope ls d = scope ls k ∧ ∀ d', d < d' → Defines ls d' x → scope ls d' ≠ scope ls k

end Mips.Branch
