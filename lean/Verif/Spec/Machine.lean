/-
SPECIFICATION (not a model of the code): execution of the integer instructions of MIPS III in 64-bit mode,
transcribed from the operation sections of the processor manual: 64-bit registers, HI/LO, branch delay
slots, traps.  Loads, stores, jumps, the linking branches, coprocessors and the HI/LO access hazards are left out (executing one of those
instructions is `undef`).  Refers only to `Spec/Isa.lean`.
-/
import Verif.Spec.Isa

namespace Mips.Machine
open Mips.Isa

abbrev W32 := BitVec 32
abbrev W64 := BitVec 64

/-- Processor state while a sequence of words is executed.  `pc` and `npc` are word indices relative to the
first word of the sequence: the instruction executed now and the one executed next. `none` in `hi`/`lo`
stands for an unpredictable value. -/
structure Cpu where
  gpr : BitVec 5 → W64
  hi : Option W64
  lo : Option W64
  pc : Int
  npc : Int

/-- Reading a register: register 0 is zero. -/
def Cpu.get (s : Cpu) (r : BitVec 5) : W64 := if r = 0 then 0 else s.gpr r

/-- Writing a register: writes to register 0 are ignored. -/
def Cpu.set (s : Cpu) (r : BitVec 5) (v : W64) : Cpu :=
  if r = 0 then s else { s with gpr := fun q => if q = r then v else s.gpr q }

/-- Go on to the next instruction. -/
def Cpu.next (s : Cpu) : Cpu := { s with pc := s.npc, npc := s.npc + 1 }

/-- Sign extension of a 32-bit word. -/
def sext (w : W32) : W64 := w.signExtend 64
/-- The low word. -/
def low (v : W64) : W32 := v.setWidth 32
/-- Holds a sign-extended 32-bit word, as the 32-bit instructions require of their operands. -/
def IsWord (v : W64) : Prop := sext (low v) = v
instance (v : W64) : Decidable (IsWord v) := inferInstanceAs (Decidable (_ = _))

/-- The result of a computation. -/
inductive Val where
  | ok (v : W64)
  | trap
  | undef

/-- The effect of one instruction. -/
inductive Step where
  | next (s : Cpu)
  | trap
  | undef

/-- A 32-bit operation on sign-extended words. -/
def op32 (f : W32 → W32 → W32) (a b : W64) : Val :=
  if IsWord a ∧ IsWord b then .ok (sext (f (low a) (low b))) else .undef

/-- A 32-bit addition or subtraction that traps on overflow. -/
def op32t (f : W32 → W32 → W32) (ovf : W32 → W32 → Bool) (a b : W64) : Val :=
  if IsWord a ∧ IsWord b then
    if ovf (low a) (low b) then .trap else .ok (sext (f (low a) (low b)))
  else .undef

/-- A 64-bit addition or subtraction that traps on overflow. -/
def op64t (f : W64 → W64 → W64) (ovf : W64 → W64 → Bool) (a b : W64) : Val :=
  if ovf a b then .trap else .ok (f a b)

/-- Truth value as a register value. -/
def flag (b : Bool) : W64 := if b then 1 else 0

/-- `op rd, rs, rt` -/
def alu3 : List (Str × (W64 → W64 → Val)) :=
  [(c!"add", op32t (· + ·) BitVec.saddOverflow), (c!"addu", op32 (· + ·)),
   (c!"sub", op32t (· - ·) BitVec.ssubOverflow), (c!"subu", op32 (· - ·)),
   (c!"and", fun a b => .ok (a &&& b)), (c!"or", fun a b => .ok (a ||| b)),
   (c!"xor", fun a b => .ok (a ^^^ b)), (c!"nor", fun a b => .ok (~~~(a ||| b))),
   (c!"slt", fun a b => .ok (flag (a.slt b))), (c!"sltu", fun a b => .ok (flag (a.ult b))),
   (c!"dadd", op64t (· + ·) BitVec.saddOverflow), (c!"daddu", fun a b => .ok (a + b)),
   (c!"dsub", op64t (· - ·) BitVec.ssubOverflow), (c!"dsubu", fun a b => .ok (a - b))]

/-- `op rd, rt, sa`: operand and amount. -/
def shiftImm : List (Str × (W64 → Nat → Val)) :=
  [(c!"sll", fun a n => .ok (sext (low a <<< n))),
   (c!"srl", fun a n => if IsWord a then .ok (sext (low a >>> n)) else .undef),
   (c!"sra", fun a n => if IsWord a then .ok (sext ((low a).sshiftRight n)) else .undef),
   (c!"dsll", fun a n => .ok (a <<< n)), (c!"dsrl", fun a n => .ok (a >>> n)),
   (c!"dsra", fun a n => .ok (a.sshiftRight n)),
   (c!"dsll32", fun a n => .ok (a <<< (n + 32))), (c!"dsrl32", fun a n => .ok (a >>> (n + 32))),
   (c!"dsra32", fun a n => .ok (a.sshiftRight (n + 32)))]

/-- `op rd, rt, rs`: operand `rt` and amount register `rs` (taken modulo the width). -/
def shiftVar : List (Str × (W64 → W64 → Val)) :=
  [(c!"sllv", fun a b => .ok (sext (low a <<< (b.toNat % 32)))),
   (c!"srlv", fun a b => if IsWord a then .ok (sext (low a >>> (b.toNat % 32))) else .undef),
   (c!"srav", fun a b => if IsWord a then .ok (sext ((low a).sshiftRight (b.toNat % 32))) else .undef),
   (c!"dsllv", fun a b => .ok (a <<< (b.toNat % 64))), (c!"dsrlv", fun a b => .ok (a >>> (b.toNat % 64))),
   (c!"dsrav", fun a b => .ok (a.sshiftRight (b.toNat % 64)))]

/-- `op rt, rs, imm` with a sign-extended immediate. -/
def aluS : List (Str × (W64 → W64 → Val)) :=
  [(c!"addi", op32t (· + ·) BitVec.saddOverflow), (c!"addiu", op32 (· + ·)),
   (c!"daddi", op64t (· + ·) BitVec.saddOverflow), (c!"daddiu", fun a b => .ok (a + b)),
   (c!"slti", fun a b => .ok (flag (a.slt b))), (c!"sltiu", fun a b => .ok (flag (a.ult b)))]

/-- `op rt, rs, imm` with a zero-extended immediate. -/
def aluU : List (Str × (W64 → W64 → Val)) :=
  [(c!"andi", fun a b => .ok (a &&& b)), (c!"ori", fun a b => .ok (a ||| b)), (c!"xori", fun a b => .ok (a ^^^ b))]

/-- `op rs, rt` for the multiply and divide instructions: the new HI and LO, `none` if undefined. -/
def mulDiv : List (Str × (W64 → W64 → Option (Option W64 × Option W64))) :=
  [(c!"mult", fun a b => if IsWord a ∧ IsWord b then some (some (sext (low ((a * b) >>> 32))), some (sext (low (a * b)))) else none),
   (c!"multu", fun a b => if IsWord a ∧ IsWord b then
      let p : W64 := (low a).setWidth 64 * (low b).setWidth 64
      some (some (sext (low (p >>> 32))), some (sext (low p))) else none),
   (c!"dmult", fun a b => let p : BitVec 128 := a.signExtend 128 * b.signExtend 128
      some (some (p.extractLsb' 64 64), some (p.setWidth 64))),
   (c!"dmultu", fun a b => let p : BitVec 128 := a.setWidth 128 * b.setWidth 128
      some (some (p.extractLsb' 64 64), some (p.setWidth 64))),
   (c!"div", fun a b => if IsWord a ∧ IsWord b then
      if low b = 0 ∨ low a = BitVec.intMin 32 ∧ low b = -1 then some (none, none)
      else some (some (sext ((low a).srem (low b))), some (sext ((low a).sdiv (low b)))) else none),
   (c!"divu", fun a b => if IsWord a ∧ IsWord b then
      if low b = 0 then some (none, none)
      else some (some (sext (low a % low b)), some (sext (low a / low b))) else none),
   (c!"ddiv", fun a b => if b = 0 ∨ a = BitVec.intMin 64 ∧ b = -1 then some (none, none)
      else some (some (a.srem b), some (a.sdiv b))),
   (c!"ddivu", fun a b => if b = 0 then some (none, none) else some (some (a % b), some (a / b)))]

/-- `op rs, rt`: conditional traps. -/
def traps : List (Str × (W64 → W64 → Bool)) :=
  [(c!"teq", fun a b => a == b), (c!"tne", fun a b => a != b), (c!"tge", fun a b => b.sle a), (c!"tgeu", fun a b => b.ule a),
   (c!"tlt", fun a b => a.slt b), (c!"tltu", fun a b => a.ult b)]

/-- `op rs, rt, off`: conditional branches; the flag says whether the branch is "likely". -/
def branch2 : List (Str × Bool × (W64 → W64 → Bool)) :=
  [(c!"beq", false, fun a b => a == b), (c!"bne", false, fun a b => a != b),
   (c!"beql", true, fun a b => a == b), (c!"bnel", true, fun a b => a != b)]

/-- `op rs, off`: conditional branches on the sign of one register; the flag says whether the branch is "likely". -/
def branch1 : List (Str × Bool × (W64 → Bool)) :=
  [(c!"bgez", false, fun a => decide (0 ≤ a.toInt)), (c!"bltz", false, fun a => decide (a.toInt < 0)),
   (c!"bgtz", false, fun a => decide (0 < a.toInt)), (c!"blez", false, fun a => decide (a.toInt ≤ 0)),
   (c!"bgezl", true, fun a => decide (0 ≤ a.toInt)), (c!"bltzl", true, fun a => decide (a.toInt < 0)),
   (c!"bgtzl", true, fun a => decide (0 < a.toInt)), (c!"blezl", true, fun a => decide (a.toInt ≤ 0))]

/-- Write a computed value and go on. -/
def Cpu.write (s : Cpu) (r : BitVec 5) : Val → Step
  | .ok v => .next (s.set r v).next
  | .trap => .trap
  | .undef => .undef

/-- A conditional branch: the delay slot comes next; a branch "likely" that is not taken skips it. -/
def Cpu.branch (s : Cpu) (likely taken : Bool) (off : BitVec 16) : Step :=
  if taken then .next { s with pc := s.npc, npc := s.pc + 1 + off.toInt }
  else if likely then .next { s with pc := s.npc + 1, npc := s.npc + 2 }
  else .next s.next

/-- Execute one instruction. -/
def exec (s : Cpu) (mn : Str) (args : List Arg) : Step :=
  match args with
  | [.gpr rd, .gpr a, .gpr b] => match alu3.lookup mn with
    | some f => s.write rd (f (s.get a) (s.get b))
    | none => match shiftVar.lookup mn with
      | some f => s.write rd (f (s.get a) (s.get b))
      | none => .undef
  | [.gpr rd, .gpr rt, .sa n] => match shiftImm.lookup mn with
    | some f => s.write rd (f (s.get rt) n.toNat)
    | none => .undef
  | [.gpr rt, .gpr rs, .simm v] => match aluS.lookup mn with
    | some f => s.write rt (f (s.get rs) (v.signExtend 64))
    | none => .undef
  | [.gpr rt, .gpr rs, .uimm v] => match aluU.lookup mn with
    | some f => s.write rt (f (s.get rs) (v.setWidth 64))
    | none => .undef
  | [.gpr rt, .uimm v] => if mn = c!"lui" then s.write rt (.ok (sext (v.setWidth 32 <<< 16))) else .undef
  | [.gpr rs, .gpr rt] => match mulDiv.lookup mn with
    | some f => match f (s.get rs) (s.get rt) with
      | some (h, l) => .next { s with hi := h, lo := l }.next
      | none => .undef
    | none => match traps.lookup mn with
      | some f => if f (s.get rs) (s.get rt) then .trap else .next s.next
      | none => .undef
  | [.gpr r] =>
    if mn = c!"mfhi" then match s.hi with | some v => s.write r (.ok v) | none => .undef
    else if mn = c!"mflo" then match s.lo with | some v => s.write r (.ok v) | none => .undef
    else if mn = c!"mthi" then .next { s with hi := some (s.get r) }.next
    else if mn = c!"mtlo" then .next { s with lo := some (s.get r) }.next
    else .undef
  | [.gpr rs, .gpr rt, .off o] => match branch2.lookup mn with
    | some (likely, f) => s.branch likely (f (s.get rs) (s.get rt)) o
    | none => .undef
  | [.gpr rs, .off o] => match branch1.lookup mn with
    | some (likely, f) => s.branch likely (f (s.get rs)) o
    | none => .undef
  | _ => .undef

/-- How an execution ends. -/
inductive Out where
  /-- control has left the sequence -/
  | done (s : Cpu)
  | trap
  | undef
  /-- not finished -/
  | running

/-- Execute at most `n` instructions of the sequence `ws`. -/
def run (ws : List W32) : Nat → Cpu → Out
  | 0, _ => .running
  | n + 1, s =>
    if s.pc < 0 then .done s
    else match ws[s.pc.toNat]? with
      | none => .done s
      | some w => match decoding w with
        | none => .undef
        | some (mn, args) => match exec s mn args with
          | .next s' => run ws n s'
          | .trap => .trap
          | .undef => .undef

/-- The state in which a sequence is entered. -/
def Cpu.Entry (s : Cpu) : Prop := s.pc = 0 ∧ s.npc = 1

/-- The sequence, entered in `s`, leaves its end in a state `s'`, with control falling through. -/
def Falls (ws : List W32) (s s' : Cpu) : Prop :=
  (∃ n, run ws n s = .done s') ∧ s'.pc = ws.length ∧ s'.npc = ws.length + 1

/-- The sequence, entered in `s`, traps. -/
def Traps (ws : List W32) (s : Cpu) : Prop := ∃ n, run ws n s = .trap

/-- All registers except those listed keep their value. -/
def Keeps (s s' : Cpu) (rs : List (BitVec 5)) : Prop := ∀ r, r ∉ rs → s'.get r = s.get r

end Mips.Machine
