/-
SPECIFICATION (not a model of the code): what the pseudo-instructions compute with `$at` (which their expansions use) or `$zero` as an
operand, where that is not the documented function; for C14, C16, C17, C18.
-/
import Verif.Spec.Pseudo

namespace Mips.Pseudo
open Mips.Machine

/-- Shift left or right by the low six bits of a register. -/
def shiftBy (left : Bool) (x n : W64) : W64 := if left then x <<< (n.toNat % 64) else x >>> (n.toNat % 64)

/-- What `drol` (`left`) and `dror` leave in the destination, given which operands are `$at`: the first step overwrites `$at` with the
negated amount, the second with the source shifted the other way. -/
def rotReal (left dAt aAt bAt : Bool) (a b : W64) : W64 :=
  let n := 0 - b
  let p := shiftBy (!left) (if aAt then n else a) n
  let q := shiftBy left (if aAt then p else a) (if bAt then p else b)
  if dAt then q else q ||| p

/-- The multiplications that should trap, with `$at` as destination: the signed ones never trap, the unsigned ones trap unless the low
word (doubleword) of the product is 0. -/
def mulAtOps : List (Str × (W64 → W64 → Val)) :=
  [(c!"mulo", fun a b => if IsWord a ∧ IsWord b then .ok (sext (low a * low b)) else .undef),
   (c!"mulou", fun a b => if IsWord a ∧ IsWord b then if low a * low b = 0 then .ok 0 else .trap else .undef),
   (c!"dmulo", fun a b => .ok (a * b)),
   (c!"dmulou", fun a b => if a * b = 0 then .ok 0 else .trap)]

/-- The signed ones with `$zero` as destination: they trap unless the product is an unsigned number of the width. -/
def mulZeroOps : List (Str × (W64 → W64 → Val)) :=
  [(c!"mulo", fun a b => if IsWord a ∧ IsWord b then
      if 0 ≤ a.toInt * b.toInt ∧ a.toInt * b.toInt < 2 ^ 32 then .ok 0 else .trap else .undef),
   (c!"dmulo", fun a b => if 0 ≤ a.toInt * b.toInt ∧ a.toInt * b.toInt < 2 ^ 64 then .ok 0 else .trap)]

/-- The signed divisions with `$at` as divisor: they trap for the least dividend, whatever the divisor. -/
def sdivAtOps : List (Str × (W64 → W64 → Val)) :=
  [(c!"div", fun a b => if IsWord a ∧ IsWord b then
      if b = 0 ∨ a = minWord then .trap else .ok (BitVec.ofInt 64 (a.toInt.tdiv b.toInt)) else .undef),
   (c!"rem", fun a b => if IsWord a ∧ IsWord b then
      if b = 0 ∨ a = minWord then .trap else .ok (BitVec.ofInt 64 (a.toInt.tmod b.toInt)) else .undef),
   (c!"ddiv", fun a b => if b = 0 ∨ a = BitVec.intMin 64 then .trap else .ok (BitVec.ofInt 64 (a.toInt.tdiv b.toInt))),
   (c!"drem", fun a b => if b = 0 ∨ a = BitVec.intMin 64 then .trap else .ok (BitVec.ofInt 64 (a.toInt.tmod b.toInt)))]

/-- The machine's divisions of two registers: quotient and remainder, where they are defined. -/
def twoOps : List (Str × (W64 → W64 → Option (W64 × W64))) :=
  [(c!"div", fun a b => if IsWord a ∧ IsWord b ∧ b ≠ 0 ∧ ¬ (a = minWord ∧ b = -1) then
      some (BitVec.ofInt 64 (a.toInt.tdiv b.toInt), BitVec.ofInt 64 (a.toInt.tmod b.toInt)) else none),
   (c!"divu", fun a b => if IsWord a ∧ IsWord b ∧ b ≠ 0 then
      some (sext (BitVec.ofNat 32 ((low a).toNat / (low b).toNat)), sext (BitVec.ofNat 32 ((low a).toNat % (low b).toNat))) else none),
   (c!"ddiv", fun a b => if b ≠ 0 ∧ ¬ (a = BitVec.intMin 64 ∧ b = -1) then
      some (BitVec.ofInt 64 (a.toInt.tdiv b.toInt), BitVec.ofInt 64 (a.toInt.tmod b.toInt)) else none),
   (c!"ddivu", fun a b => if b ≠ 0 then some (BitVec.ofNat 64 (a.toNat / b.toNat), BitVec.ofNat 64 (a.toNat % b.toNat)) else none)]

end Mips.Pseudo
