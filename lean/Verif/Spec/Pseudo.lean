/-
SPECIFICATION (not a model of the code): the documented functions of the pseudo-instructions, on 64-bit
register values.  32-bit operations are defined only on operands that hold sign-extended words (`IsWord`);
`Val.undef` marks operands for which the documentation promises nothing.
-/
import Verif.Spec.Machine

namespace Mips.Pseudo
open Mips.Machine

/-- Executing `ws` from state `s` has the documented outcome `v`: either control falls through, `rd` holds
the value (unless `rd` is register 0), and no register outside `rd :: clob` changes - nor HI and LO, unless
`hilo` is set - or it traps. -/
def Computes (ws : List W32) (s : Cpu) (rd : BitVec 5) (clob : List (BitVec 5)) (hilo : Bool) : Val → Prop
  | .ok v => ∃ s', Falls ws s s' ∧ (rd ≠ 0 → s'.get rd = v) ∧ Keeps s s' (rd :: clob) ∧
      (hilo = false → s'.hi = s.hi ∧ s'.lo = s.lo)
  | .trap => Traps ws s
  | .undef => True

/-- The assembler temporary. -/
def at' : BitVec 5 := 1

/-- `op rd, rs, rt` sets `rd` to 1 or 0: the predicate. -/
def setOps : List (Str × (W64 → W64 → Bool)) :=
  [(c!"seq", fun a b => decide (a = b)), (c!"sne", fun a b => decide (a ≠ b)),
   (c!"sge", fun a b => decide (b.toInt ≤ a.toInt)), (c!"sgeu", fun a b => decide (b.toNat ≤ a.toNat)),
   (c!"sgt", fun a b => decide (b.toInt < a.toInt)), (c!"sgtu", fun a b => decide (b.toNat < a.toNat)),
   (c!"sle", fun a b => decide (a.toInt ≤ b.toInt)), (c!"sleu", fun a b => decide (a.toNat ≤ b.toNat))]

/-- The least 32-bit word, sign-extended. -/
def minWord : W64 := sext (BitVec.intMin 32)

/-- `op rd, rs`: the 64-bit functions and the 32-bit functions. -/
def unaryOps : List (Str × (W64 → Val)) :=
  [(c!"move", fun a => .ok a), (c!"dmove", fun a => .ok a), (c!"not", fun a => .ok (~~~ a)),
   (c!"neg", fun a => if ¬ IsWord a then .undef else if a = minWord then .trap else .ok (BitVec.ofInt 64 (- a.toInt))),
   (c!"negu", fun a => if ¬ IsWord a then .undef else .ok (sext (BitVec.ofInt 32 (- a.toInt)))),
   (c!"dneg", fun a => if a = BitVec.intMin 64 then .trap else .ok (BitVec.ofInt 64 (- a.toInt))),
   (c!"dnegu", fun a => .ok (BitVec.ofInt 64 (- a.toInt))),
   (c!"abs", fun a => if ¬ IsWord a ∨ a = minWord then .undef else .ok (BitVec.ofInt 64 a.toInt.natAbs)),
   (c!"dabs", fun a => if a = BitVec.intMin 64 then .trap else .ok (BitVec.ofInt 64 a.toInt.natAbs))]

/-- Is the integer a signed `n`-bit number? -/
def fits (n : Nat) (x : Int) : Bool := decide (-2 ^ (n - 1) ≤ x ∧ x < 2 ^ (n - 1))

/-- `op rt, rs, imm` subtracting a signed 16-bit immediate. -/
def subOps : List (Str × (W64 → Int → Val)) :=
  [(c!"subi", fun a i => if ¬ IsWord a then .undef else if fits 32 (a.toInt - i) then .ok (BitVec.ofInt 64 (a.toInt - i)) else .trap),
   (c!"subiu", fun a i => if ¬ IsWord a then .undef else .ok (sext (BitVec.ofInt 32 (a.toInt - i)))),
   (c!"dsubi", fun a i => if fits 64 (a.toInt - i) then .ok (BitVec.ofInt 64 (a.toInt - i)) else .trap),
   (c!"dsubiu", fun a i => .ok (BitVec.ofInt 64 (a.toInt - i)))]

/-- `op rd, rs, rt`: the low word of the product. -/
def mulOps : List (Str × (W64 → W64 → Val)) :=
  [(c!"mul", fun a b => if IsWord a ∧ IsWord b then .ok (sext (low a * low b)) else .undef),
   (c!"mulu", fun a b => if IsWord a ∧ IsWord b then .ok (sext (low a * low b)) else .undef),
   (c!"dmul", fun a b => .ok (a * b)), (c!"dmulu", fun a b => .ok (a * b))]

/-- `op rd, rs, rt`: the product, with a trap if it does not fit. -/
def mulTrapOps : List (Str × (W64 → W64 → Val)) :=
  [(c!"mulo", fun a b => if IsWord a ∧ IsWord b then
      if fits 32 (a.toInt * b.toInt) then .ok (BitVec.ofInt 64 (a.toInt * b.toInt)) else .trap else .undef),
   (c!"mulou", fun a b => if IsWord a ∧ IsWord b then
      if (low a).toNat * (low b).toNat < 2 ^ 32 then .ok (sext (BitVec.ofNat 32 ((low a).toNat * (low b).toNat))) else .trap else .undef),
   (c!"dmulo", fun a b => if fits 64 (a.toInt * b.toInt) then .ok (BitVec.ofInt 64 (a.toInt * b.toInt)) else .trap),
   (c!"dmulou", fun a b => if a.toNat * b.toNat < 2 ^ 64 then .ok (BitVec.ofNat 64 (a.toNat * b.toNat)) else .trap)]

/-- `op rd, rs, rt`: unsigned quotient or remainder, with a trap on division by zero. -/
def udivOps : List (Str × (W64 → W64 → Val)) :=
  [(c!"divu", fun a b => if IsWord a ∧ IsWord b then
      if b = 0 then .trap else .ok (sext (BitVec.ofNat 32 ((low a).toNat / (low b).toNat))) else .undef),
   (c!"remu", fun a b => if IsWord a ∧ IsWord b then
      if b = 0 then .trap else .ok (sext (BitVec.ofNat 32 ((low a).toNat % (low b).toNat))) else .undef),
   (c!"ddivu", fun a b => if b = 0 then .trap else .ok (BitVec.ofNat 64 (a.toNat / b.toNat))),
   (c!"dremu", fun a b => if b = 0 then .trap else .ok (BitVec.ofNat 64 (a.toNat % b.toNat)))]

/-- `op rd, rs, rt`: signed quotient or remainder (truncating), with a trap on division by zero and on
overflow. -/
def sdivOps : List (Str × (W64 → W64 → Val)) :=
  [(c!"div", fun a b => if IsWord a ∧ IsWord b then
      if b = 0 ∨ a = minWord ∧ b = -1 then .trap else .ok (BitVec.ofInt 64 (a.toInt.tdiv b.toInt)) else .undef),
   (c!"rem", fun a b => if IsWord a ∧ IsWord b then
      if b = 0 ∨ a = minWord ∧ b = -1 then .trap else .ok (BitVec.ofInt 64 (a.toInt.tmod b.toInt)) else .undef),
   (c!"ddiv", fun a b => if b = 0 ∨ a = BitVec.intMin 64 ∧ b = -1 then .trap else .ok (BitVec.ofInt 64 (a.toInt.tdiv b.toInt))),
   (c!"drem", fun a b => if b = 0 ∨ a = BitVec.intMin 64 ∧ b = -1 then .trap else .ok (BitVec.ofInt 64 (a.toInt.tmod b.toInt)))]

/-- `op rd, rs, rt`: rotation by `rt` modulo 64. -/
def rotOps : List (Str × (W64 → W64 → W64)) :=
  [(c!"drol", fun a b => a.rotateLeft (b.toNat % 64)), (c!"dror", fun a b => a.rotateRight (b.toNat % 64))]

end Mips.Pseudo
