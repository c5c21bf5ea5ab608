/-
SPECIFICATION (not a model of the code): the exact text of a disassembly, in columns and with labels, as it really is printed (with its deviations
from the listing of `Spec.Listing` and the layout of `Spec.Layout`), and when there is none.
-/
import Verif.Spec.Layout

namespace Mips.Listing
open Mips.Isa Mips.Syntax

/-- The blanks between a mnemonic and its operands: operands start in column 12; behind the rounding instructions in column 13; behind a
floating-point comparison follow a tab (not behind `c.ngle`) and four spaces. -/
def gap (mn : Str) : Str :=
  if c!"c.".isPrefixOf mn then (if c!"c.ngle.".isPrefixOf mn then [] else ['\t']) ++ c!"    "
  else if mn.take 5 ∈ [c!"ceil.", c!"floor", c!"round", c!"trunc"] then List.replicate (12 - mn.length) ' '
  else List.replicate (11 - mn.length) ' '

/-- A signed operand; 32767 gets a minus sign. -/
def offText (v : BitVec 16) : Str := if v = 0x7FFF#16 then c!"-0x7fff" else intText v.toInt

/-- An operand. -/
def argCol (sym : BitVec 32 → Option Str) (base : BitVec 32) : Arg → Str
  | .simm v => offText v
  | .off v => offText v
  | .mem v b => offText v ++ c!"(" ++ gprText b ++ c!")"
  | a => argText sym base a

/-- An instruction in columns. -/
def colInst (sym : BitVec 32 → Option Str) (base : BitVec 32) (mn : Str) (args : List Arg) : Str :=
  if shown mn args = [] then mn
  else mn ++ gap mn ++ c!", ".intercalate ((shown mn args).map (argCol sym base))

/-- A word that is no instruction. -/
def colWord (w : BitVec 32) : Str := c!".word" ++ gap c!".word" ++ hex8 w

/-- The line of a word, in columns. -/
def colText (sym : BitVec 32 → Option Str) (base w : BitVec 32) : Str :=
  match decoding w with
  | none =>
    if fOp w = copOp 0 ∧ fRs w < 16#5 then
      match cp0Map.find? (fun e => e.2 = (fFn w).toNat) with
      | some (mn, _) => mn
      | none => colWord w
    else colWord w
  | some (mn, args) => match c0Arg args with
    | some r =>
      if (c0Names.lookup r.toNat).isSome then colInst sym base mn args
      else colWord w ++ c!"          # " ++ mn ++ gap mn ++ gprText (fRt w) ++ c!", 0x" ++
        [Nat.digitChar (r.toNat / 16), Nat.digitChar (r.toNat % 16)]
    | none => colInst sym base mn args

/-- The address of the word at index `k`, modulo 2^32. -/
def addrOf (base : BitVec 32) (k : Nat) : BitVec 32 := base + BitVec.ofNat 32 (4 * k)

/-- The word `w` at index `i` is a jump that leaves the function that starts at index `lo`: `jr`, or `j` in front of the start or beyond the jump. -/
def leavesAt (base : BitVec 32) (lo i : Nat) (w : BitVec 32) : Bool :=
  (fOp w = 0#6 && fFn w = 8#6) ||
  (fOp w = 2#6 && (decide (jumpAddr base (fTarget w) < addrOf base lo) || decide (addrOf base i < jumpAddr base (fTarget w))))

/-- Walking down the listing: where the current function is taken to start, and whether index `i` is the delay slot of a jump that leaves it.
The function behind such a slot is taken to start at the slot. -/
def trail (base : BitVec 32) (ws : List (BitVec 32)) : Nat → Nat × Bool
  | 0 => (0, false)
  | i + 1 =>
    if (trail base ws i).2 then (i, false)
    else ((trail base ws i).1, match ws[i]? with | some w => leavesAt base (trail base ws i).1 i w | none => false)

/-- Adding the address of index `k` up needs more than 32 bits (of `4 * k` only the low 32 bits are added). -/
def TooHigh (base : BitVec 32) (k : Nat) : Prop := 2 ^ 32 ≤ base.toNat + 4 * k % 2 ^ 32

/-- Computing the address of index `k` needs more than 32 bits. -/
def OutOfSpace (base : BitVec 32) (k : Nat) : Prop := 2 ^ 32 ≤ 4 * (k % 2 ^ 32) ∨ TooHigh base k

/-- There is no listing: a `j` goes to a symbol, or (where arithmetic is checked) an address that is computed needs more than 32 bits, namely
the start of the function of a jump, the address of a `j` that does not go in front of it, or the address of a label. -/
def NoListing (checked : Bool) (sym : BitVec 32 → Option Str) (base : BitVec 32) (ws : List (BitVec 32)) : Prop :=
  ∃ i w, ws[i]? = some w ∧
    (((trail base ws i).2 = false ∧ fOp w = 2#6 ∧ (sym (jumpAddr base (fTarget w))).isSome) ∨
     (checked = true ∧ (trail base ws i).2 = false ∧ (fOp w = 2#6 ∨ fOp w = 0#6 ∧ fFn w = 8#6) ∧ TooHigh base (trail base ws i).1) ∨
     (checked = true ∧ (trail base ws i).2 = false ∧ fOp w = 2#6 ∧ ¬ jumpAddr base (fTarget w) < addrOf base (trail base ws i).1 ∧ OutOfSpace base i) ∨
     (checked = true ∧ (trail base ws i).2 = true ∧ i + 1 < ws.length ∧ OutOfSpace base (i + 1)))

/-- The lines of a listing. -/
def listing (sym : BitVec 32 → Option Str) (base : BitVec 32) (ws : List (BitVec 32)) : List Str :=
  labelText sym base ::
    render (fun k => labelText sym (addrOf base k)) (fun i => (trail base ws i).2) 0 (ws.map (colText sym base))

end Mips.Listing
