/-
SPECIFICATION (not a model of the code): the layout of a disassembly split into functions.
-/
import Verif.Spec.Listing

namespace Mips.Listing
open Mips.Isa

/-- The label line of an address: its symbol, or `func_` and the address. -/
def labelText (sym : BitVec 32 → Option Str) (a : BitVec 32) : Str :=
  (sym a).getD (c!"func_" ++ (hex8 a).drop 2) ++ c!":"

/-- The lines of a listing: the texts in order; after the text of index `i`, if `brk i` holds and it is not the last,
an empty line and the label `label (i + 1)`. -/
def render (label : Nat → Str) (brk : Nat → Bool) : Nat → List Str → List Str
  | _, [] => []
  | i, t :: ts => t :: ((if brk i && !ts.isEmpty then [[], label (i + 1)] else []) ++ render label brk (i + 1) ts)

/-- The word at index `i` is an unconditional jump (`j` or `jr`) that leaves the function that starts at index `lo`:
`jr` always, `j` if it goes in front of the start or beyond the jump itself. -/
def leaves (base : BitVec 32) (ws : List (BitVec 32)) (lo i : Nat) : Bool :=
  match ws[i]? with
  | none => false
  | some w =>
    (fOp w = 0#6 && fFn w = 8#6) ||
    (fOp w = 2#6 && (decide ((jumpAddr base (fTarget w)).toNat < base.toNat + 4 * lo) ||
      decide (base.toNat + 4 * i < (jumpAddr base (fTarget w)).toNat)))

/-- Walking down the listing: the index at which the current function starts, and whether index `i` is the delay slot
of a jump that leaves it.  `next i` is where the next function starts if `i` is such a delay slot. -/
def walk (next : Nat → Nat) (base : BitVec 32) (ws : List (BitVec 32)) : Nat → Nat × Bool
  | 0 => (0, false)
  | i + 1 =>
    if (walk next base ws i).2 then (next i, false)
    else ((walk next base ws i).1, leaves base ws (walk next base ws i).1 i)

/-- A label belongs after index `i`: it is the delay slot of a jump that leaves the current function (the next function
starts behind the delay slot). -/
def ends (base : BitVec 32) (ws : List (BitVec 32)) (i : Nat) : Bool := (walk (· + 1) base ws i).2

end Mips.Listing
