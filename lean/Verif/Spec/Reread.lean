/-
SPECIFICATION (not a model of the code): what the printed text of any word is when it is read again.
-/
import Verif.Spec.Back

namespace Mips.Listing
open Mips.Isa Mips.Syntax

/-- The symbols can be written as targets of jumps: plain names that are no upper-case hexadecimal numbers, one address for each. -/
structure JumpSyms (syms : List (BitVec 32 × Str)) : Prop where
  plain : ∀ e ∈ syms, Plain e.2
  word : ∀ e ∈ syms, ∀ n, e.2 ≠ hexTextU n
  unique : ∀ e ∈ syms, ∀ e' ∈ syms, e.2 = e'.2 → e.1 = e'.1

/-- A signed number as it comes back: 32767 is printed as -32767. -/
def rereadInt (v : BitVec 16) : BitVec 16 := if v = 0x7FFF#16 then 0x8001#16 else v

/-- An operand as it comes back, if it does: the printed text of the operand of the `i`-th (from 0) of `n` words, read in a program with the base
address `base`.
A branch offset is printed as an offset and read as an address, which has to lie within the program; of a jump the low 24 bits come
back; a `break` code needs 16 bits, a coprocessor 0 register a name. -/
def reread (base : BitVec 32) (n i : Nat) : Arg → Option Arg
  | .simm v => some (.simm (rereadInt v))
  | .mem v b => some (.mem (rereadInt v) b)
  | .off v =>
    if v.toNat < 0x7FFF ∧ base.toNat ≤ v.toNat ∧ v.toNat ≤ base.toNat + 4 * n then
      some (.off (BitVec.ofInt 16 (((v.toNat : Int) - ((i : Int) + 1)).tdiv 4)))
    else none
  | .code v => if v.toNat < 0x10000 then some (.code v) else none
  | .c0 r => if (c0Names.lookup r.toNat).isSome then some (.c0 r) else none
  | .target t => some (.target (BitVec.ofNat 26 (t.toNat % 2 ^ 24)))
  | a => some a

/-- The word that is assembled from the printed text of the word `w`, if there is one.  A reserved word has none, but some of coprocessor 0 are
printed as instructions. -/
def comesBack (base : BitVec 32) (n i : Nat) (w : BitVec 32) : Option (BitVec 32) :=
  match decoding w with
  | some (mn, args) => (args.mapM (reread base n i)).bind (encoding mn)
  | none =>
    if fOp w = copOp 0 ∧ fRs w < 16#5 then (cp0Map.find? fun e => e.2 = (fFn w).toNat).bind fun e => encoding e.1 []
    else none

/-- All of the words, if all of them come back. -/
def allBack (base : BitVec 32) (ws : List (BitVec 32)) : Option (List (BitVec 32)) :=
  ws.zipIdx.mapM fun p => comesBack base ws.length p.2 p.1

/-- The word that is assembled from the line of the word `w` in a listing, if there is one: as above, but a floating-point comparison that is
printed with a tab does not come back. -/
def listedBack (base : BitVec 32) (n i : Nat) (w : BitVec 32) : Option (BitVec 32) :=
  match decoding w with
  | some (mn, _) => if '\t' ∈ gap mn then none else comesBack base n i w
  | none => comesBack base n i w

/-- All of the words of a listing, if all of them come back. -/
def allListed (base : BitVec 32) (ws : List (BitVec 32)) : Option (List (BitVec 32)) :=
  ws.zipIdx.mapM fun p => listedBack base ws.length p.2 p.1

/-- The operand of the `i`-th word (from 0) survives: not the signed value 32767, a `break` code of 16 bits, a named coprocessor 0 register, a jump
target below 2^24; a branch offset only if it is 0, in one of the first three words, with the base address 0. -/
def Kept (base : BitVec 32) (i : Nat) : Arg → Prop
  | .simm v => v ≠ 0x7FFF
  | .mem v _ => v ≠ 0x7FFF
  | .off v => v = 0 ∧ i < 3 ∧ base = 0
  | .code v => v.toNat < 0x10000
  | .c0 r => (c0Names.lookup r.toNat).isSome = true
  | .target t => t.toNat < 2 ^ 24
  | _ => True

end Mips.Listing
