/-
SPECIFICATION (not a model of the code): executing a source file line by line, and executing the emitted words.

The machine is the integer machine of `Spec/Machine.lean`, extended by an arbitrary interpretation `ext` of the instructions it
leaves open (loads, stores, coprocessor instructions, ...) on an arbitrary further state `σ` (memory, devices, ...).
-/
import Verif.Spec.Pseudo
import Verif.Spec.CmpBranch
import Verif.Spec.Branch
import Verif.Spec.Jump
import Verif.Spec.HiLo
import Verif.Spec.Program
import Verif.Spec.Scope
import Verif.Spec.Size

namespace Mips.Exec
open Mips.Isa Mips.Machine Mips.Pseudo Mips.Syntax Mips.Source Mips.Branch

/-- The state of the whole machine: the integer unit, and everything else. -/
structure St (σ : Type) where
  cpu : Cpu
  env : σ

/-- An interpretation of the other instructions. -/
structure Ext (σ : Type) where
  /-- the new registers and the new rest of the state, `none` if undefined; given the registers, but not the program counter (see
  `bare`) -/
  exec : Str → List Arg → Cpu → σ → Option (Cpu × σ)
  /-- the condition signal of coprocessor 1 (`true`) or 0 (`false`), which the coprocessor branches test -/
  signal : Bool → σ → Bool
  /-- what `eret` does: the address returned to and the new rest of the state, `none` if undefined -/
  eret : σ → Option (BitVec 32 × σ)

/-- How an execution stands. -/
inductive Res (σ : Type) where
  /-- still running, in this state -/
  | at (s : St σ)
  /-- control has left the program, in this state -/
  | left (s : St σ)
  | trap
  /-- something happened whose outcome nobody promises -/
  | undef

/-- The registers without the program counter. -/
def bare (s : Cpu) : Cpu := { s with pc := 0, npc := 1 }

/-- The instructions without sequential flow that the integer machine does not interpret. -/
def control : List Str :=
  [c!"j", c!"jal", c!"jr", c!"jalr", c!"bgezal", c!"bgezall", c!"bltzal", c!"bltzall", c!"bc0f", c!"bc0t", c!"bc0fl", c!"bc0tl",
   c!"bc1f", c!"bc1t", c!"bc1fl", c!"bc1tl", c!"eret"]

/-- Execute one instruction with sequential flow, or a branch: as the integer machine says, or else as `ext` says. -/
def plain {σ : Type} (ext : Ext σ) (s : St σ) (mn : Str) (as : List Arg) : Res σ :=
  match exec s.cpu mn as with
  | .next c => .at ⟨c, s.env⟩
  | .trap => .trap
  | .undef =>
    if mn ∈ control then .undef
    else match ext.exec mn as (bare s.cpu) s.env with
      | some (c, e) => .at ⟨{ c with pc := s.cpu.npc, npc := s.cpu.npc + 1 }, e⟩
      | none => .undef

/-- The address of the word with index `i`, the first word being at `base`. -/
def address (base : BitVec 32) (i : Int) : BitVec 32 := base + BitVec.ofInt 32 (4 * i)

/-- The index of the word at an address, if the address is aligned. -/
def index (base a : BitVec 32) : Option Int := if (a - base).toNat % 4 = 0 then some ((a - base).toNat / 4 : Nat) else none

/-- Put the address behind the delay slot into register `link`. -/
def linked (base : BitVec 32) (s : Cpu) : Option (BitVec 5) → Cpu
  | some r => s.set r (sext (address base (s.pc + 2)))
  | none => s

/-- Jump to the address `a`, after the delay slot, leaving the address behind the delay slot in register `link`. -/
def jumpTo {σ : Type} (base : BitVec 32) (s : St σ) (link : Option (BitVec 5)) (a : BitVec 32) : Res σ :=
  match index base a with
  | none => .undef
  | some i => .at ⟨{ linked base s.cpu link with pc := s.cpu.npc, npc := i }, s.env⟩

/-- `op rs, off`: the branches that leave a return address in register 31. -/
def linking : List (Str × Bool × (W64 → Bool)) :=
  [(c!"bgezal", false, fun a => decide (0 ≤ a.toInt)), (c!"bltzal", false, fun a => decide (a.toInt < 0)),
   (c!"bgezall", true, fun a => decide (0 ≤ a.toInt)), (c!"bltzall", true, fun a => decide (a.toInt < 0))]

/-- `op off`: the coprocessor branches.  Are they likely branches, which coprocessor do they ask, and for which signal? -/
def coprocessor : List (Str × Bool × Bool × Bool) :=
  [(c!"bc0f", false, false, false), (c!"bc0t", false, false, true), (c!"bc0fl", true, false, false), (c!"bc0tl", true, false, true),
   (c!"bc1f", false, true, false), (c!"bc1t", false, true, true), (c!"bc1fl", true, true, false), (c!"bc1tl", true, true, true)]

/-- Execute one of the `control` instructions.  A register jump goes to the address in the register, which has to be a sign-extended
word; register 31 may not be an operand of a linking branch, nor may the two registers of `jalr` be the same. -/
def transfer {σ : Type} (base : BitVec 32) (ext : Ext σ) (s : St σ) (mn : Str) (as : List Arg) : Res σ :=
  match as with
  | [.target t] =>
    if mn = c!"j" then jumpTo base s none (Listing.jumpAddr (address base (s.cpu.pc + 1)) t)
    else if mn = c!"jal" then jumpTo base s (some 31) (Listing.jumpAddr (address base (s.cpu.pc + 1)) t)
    else .undef
  | [.gpr r] =>
    if mn = c!"jr" ∧ IsWord (s.cpu.get r) then jumpTo base s none (low (s.cpu.get r)) else .undef
  | [.gpr rd, .gpr rs] =>
    if mn = c!"jalr" ∧ rd ≠ rs ∧ IsWord (s.cpu.get rs) then jumpTo base s (some rd) (low (s.cpu.get rs)) else .undef
  | [.gpr rs, .off o] => match linking.lookup mn with
    | some (likely, f) =>
      if rs = 31 then .undef
      else match (s.cpu.set 31 (sext (address base (s.cpu.pc + 2)))).branch likely (f (s.cpu.get rs)) o with
        | .next c => .at ⟨c, s.env⟩
        | _ => .undef
    | none => .undef
  | [.off o] => match coprocessor.lookup mn with
    | some (likely, unit, wanted) => match s.cpu.branch likely (ext.signal unit s.env == wanted) o with
      | .next c => .at ⟨c, s.env⟩
      | _ => .undef
    | none => .undef
  | [] =>
    if mn = c!"eret" then match ext.eret s.env with
      | none => .undef
      | some (a, e) => match index base a with
        | none => .undef
        | some i => .at ⟨{ s.cpu with pc := i, npc := i + 1 }, e⟩
    else .undef
  | _ => .undef

/-- Execute one instruction, the program being at `base`. -/
def step {σ : Type} (base : BitVec 32) (ext : Ext σ) (s : St σ) (mn : Str) (as : List Arg) : Res σ :=
  if mn ∈ control then transfer base ext s mn as else plain ext s mn as

/-- The element with index `pc`. -/
def fetch {α : Type} (l : List α) (pc : Int) : Option α := if pc < 0 then none else l[pc.toNat]?

/-- Execute `n` of the words `ws` (fewer, if control leaves them). -/
def go {σ : Type} (base : BitVec 32) (ext : Ext σ) (ws : List W32) : Nat → St σ → Res σ
  | 0, s => .at s
  | n + 1, s => match fetch ws s.cpu.pc with
    | none => .left s
    | some w => match decoding w with
      | none => .undef
      | some (mn, as) => match step base ext s mn as with
        | .at s' => go base ext ws n s'
        | r => r

/-! ### Source level -/

/-- Where a jump goes. -/
inductive Dest where
  /-- to an instruction line -/
  | line (i : Nat)
  | address (a : BitVec 32)
  /-- to the address in a register -/
  | reg (r : BitVec 5)

/-- What a line does, in terms of the register values `g`. -/
inductive Act where
  /-- one instruction of the instruction set, not a branch -/
  | native (mn : Str) (as : List Arg)
  /-- compute a value into `rd`; the registers `clob`, and HI and LO if `hilo`, are left with any value -/
  | compute (rd : BitVec 5) (clob : List (BitVec 5)) (hilo : Bool) (f : (BitVec 5 → W64) → Val)
  /-- branch to the instruction line with index `target`, after the instruction in the delay slot; `clob` is left with any value -/
  | branch (likely : Bool) (cond : (BitVec 5 → W64) → Bool) (clob : List (BitVec 5)) (target : Nat)
  /-- the same, leaving the address of the line behind the delay slot in register 31 -/
  | call (likely : Bool) (rs : BitVec 5) (cond : W64 → Bool) (target : Nat)
  /-- branch, after the instruction in the delay slot, if a coprocessor signals what is wanted -/
  | cobranch (likely unit wanted : Bool) (target : Nat)
  /-- return from an exception, at once -/
  | eret
  /-- jump, after the instruction in the delay slot, leaving the address of the line behind it in the register `link` -/
  | jump (link : Option (BitVec 5)) (dest : Dest)

/-- The layout of a program: its address, the number of its lines and of its words, and the number of words in front of each line. -/
structure Code where
  base : BitVec 32
  lines : Nat
  words : Nat
  start : Nat → Nat

/-- The address of a line. -/
def Code.addr (c : Code) (i : Int) : BitVec 32 := Mips.Exec.address c.base (c.start i.toNat)

/-- The value of the source program counter when control is outside of the program, at the address `a`. -/
def away (a : BitVec 32) : Int := -1 - (a.toNat : Int)

/-- Control at the address `a` is at place `p` of the source: a line (or the end), or outside. -/
def Lands (c : Code) (a : BitVec 32) (p : Int) : Prop :=
  (0 ≤ p ∧ p ≤ c.lines ∧ a = c.addr p) ∨ (p = away a ∧ ∃ j, index c.base a = some j ∧ c.words ≤ j)

/-- The address a jump goes to, if it has one. -/
def Goes (c : Code) (s : Cpu) : Dest → BitVec 32 → Prop
  | .line i, a => a = c.addr i
  | .address b, a => a = b
  | .reg r, a => s.get r = sext a

/-- The registers `rs` may change, HI and LO if `hilo`, nothing else. -/
def Changes (s s' : Cpu) (rs : List (BitVec 5)) (hilo : Bool) : Prop :=
  Keeps s s' rs ∧ (hilo = false → s'.hi = s.hi ∧ s'.lo = s.lo)

/-- What executing a line in a state may lead to; `pc` and `npc` count instruction lines. -/
inductive Does {σ : Type} (k : Code) (ext : Ext σ) (s : St σ) : Act → Res σ → Prop
  | native (mn as) : Does k ext s (.native mn as) (plain ext s mn as)
  | computed (rd clob hilo f v c) : f s.cpu.get = .ok v → (rd ≠ 0 → c.get rd = v) → Changes s.cpu c (rd :: clob) hilo →
      c.pc = s.cpu.npc → c.npc = s.cpu.npc + 1 → Does k ext s (.compute rd clob hilo f) (.at ⟨c, s.env⟩)
  | trapped (rd clob hilo f) : f s.cpu.get = .trap → Does k ext s (.compute rd clob hilo f) .trap
  | undefined (rd clob hilo f) : f s.cpu.get = .undef → Does k ext s (.compute rd clob hilo f) .undef
  | taken (likely cond clob target c) : cond s.cpu.get = true → Changes s.cpu c clob false →
      c.pc = s.cpu.npc → c.npc = (target : Nat) → Does k ext s (.branch likely cond clob target) (.at ⟨c, s.env⟩)
  | notTaken (likely cond clob target c) : cond s.cpu.get = false → Changes s.cpu c clob false →
      c.pc = (if likely then s.cpu.npc + 1 else s.cpu.npc) → c.npc = c.pc + 1 →
      Does k ext s (.branch likely cond clob target) (.at ⟨c, s.env⟩)
  | called (likely rs cond target c) : rs ≠ 31 → cond (s.cpu.get rs) = true → Changes s.cpu c [31] false →
      c.get 31 = sext (k.addr (s.cpu.pc + 2)) →
      c.pc = s.cpu.npc → c.npc = (target : Nat) → Does k ext s (.call likely rs cond target) (.at ⟨c, s.env⟩)
  | notCalled (likely rs cond target c) : rs ≠ 31 → cond (s.cpu.get rs) = false → Changes s.cpu c [31] false →
      c.get 31 = sext (k.addr (s.cpu.pc + 2)) →
      c.pc = (if likely then s.cpu.npc + 1 else s.cpu.npc) → c.npc = c.pc + 1 →
      Does k ext s (.call likely rs cond target) (.at ⟨c, s.env⟩)
  | call31 (likely cond target) : Does k ext s (.call likely 31 cond target) .undef
  | coTaken (likely unit wanted target) : ext.signal unit s.env = wanted →
      Does k ext s (.cobranch likely unit wanted target) (.at ⟨{ s.cpu with pc := s.cpu.npc, npc := (target : Nat) }, s.env⟩)
  | coNotTaken (likely unit wanted target) (p : Int) : ext.signal unit s.env ≠ wanted →
      p = (if likely then s.cpu.npc + 1 else s.cpu.npc) →
      Does k ext s (.cobranch likely unit wanted target) (.at ⟨{ s.cpu with pc := p, npc := p + 1 }, s.env⟩)
  | returned (a p e) : ext.eret s.env = some (a, e) → Lands k a p →
      Does k ext s .eret (.at ⟨{ s.cpu with pc := p, npc := p + 1 }, e⟩)
  | noReturn : (∀ a e p, ext.eret s.env = some (a, e) → ¬ Lands k a p) → Does k ext s .eret .undef
  | jumped (link dest a p c) : Goes k s.cpu dest a → Lands k a p → (∀ r, link = some r → dest ≠ .reg r) →
      Changes s.cpu c link.toList false → (∀ r, link = some r → r ≠ 0 → c.get r = sext (k.addr (s.cpu.pc + 2))) →
      c.pc = s.cpu.npc → c.npc = p → Does k ext s (.jump link dest) (.at ⟨c, s.env⟩)
  | lost (link dest) : (∀ a p, Goes k s.cpu dest a → ¬ Lands k a p) ∨ (∃ r, link = some r ∧ dest = .reg r) →
      Does k ext s (.jump link dest) .undef

/-- Execute `n` lines (fewer, if the program is left, traps, or does something undefined). -/
inductive Runs {σ : Type} (k : Code) (ext : Ext σ) (prog : List Act) : Nat → St σ → Res σ → Prop
  | zero (s) : Runs k ext prog 0 s (.at s)
  | step (n s a s' r) : fetch prog s.cpu.pc = some a → Does k ext s a (.at s') → Runs k ext prog n s' r → Runs k ext prog (n + 1) s r
  | trap (n s a) : fetch prog s.cpu.pc = some a → Does k ext s a .trap → Runs k ext prog (n + 1) s .trap
  | undef (n s a) : fetch prog s.cpu.pc = some a → Does k ext s a .undef → Runs k ext prog (n + 1) s .undef
  | left (n s) : fetch prog s.cpu.pc = none → Runs k ext prog (n + 1) s (.left s)

/-! ### The meaning of lines -/

/-- The condition of a branch of the instruction set, in terms of the register values. -/
inductive Cond : Str → List (BitVec 5) → Bool → ((BitVec 5 → W64) → Bool) → Prop
  | two (mn likely f a b) : (mn, likely, f) ∈ branch2 → Cond mn [a, b] likely (fun g => f (g a) (g b))
  | one (mn likely f a) : (mn, likely, f) ∈ branch1 → Cond mn [a] likely (fun g => f (g a))

/-- Line `k` refers to the label whose definition on line `d` it is resolved to: a global label defined above, or a local label
(`Chosen`). -/
def Refers (ls : List Str) (k d : Nat) (t : Str) : Prop :=
  (isLocal (trim t) = false ∧ d < k ∧ Defines ls d (trim t)) ∨ (isLocal (trim t) = true ∧ Chosen ls k d (trim t))

/-- All instruction lines between lines `d` and `k` have one-word mnemonics, and there are fewer than 2^15 lines between. -/
def Near [Unicode] (ls : List Str) (k d : Nat) : Prop :=
  k < d + 32767 ∧ d < k + 32767 ∧
  ∀ (j : Nat) raw, min d k < j → j < max d k → ls[j]? = some raw → kind raw = .code → Size.Short (mnemonic (body raw))

/-- The value of a function where the assembler's expansion is known to be right, undefined elsewhere. -/
def promised (c : Prop) [Decidable c] (v : Val) : Val := if c then v else .undef

/-- The text of a jump to `t`, and the register that receives the return address. -/
def Jump (s mn : Str) (link : Option (BitVec 5)) (t : Str) : Prop :=
  (mn, link) ∈ [(c!"j", none), (c!"jal", some (31 : BitVec 5))] ∧ ',' ∉ t ∧ ∃ mn', SameName mn' mn ∧ s = mn' ++ ' ' :: t

/-- What instruction line `k` means, the program being assembled with the settings `m`. -/
inductive Means [Unicode] (m : Mipsasm) (ls : List Str) (k : Nat) (s : Str) : Act → Prop
  | native (mn as) : InstrText s mn as → (encoding mn as).isSome = true → mn ∉ control → Means m ls k s (.native mn as)
  | hi (r a) (v l : BitVec 16) : HiLo.HiText m.syms s r a → (m.syms.map (·.2)).Nodup → HiLo.NoParenLabel ls → HiLo.address v l = a →
      Means m ls k s (.native c!"lui" [.gpr r, .uimm v])
  | lo (mn args a) (v l : BitVec 16) : HiLo.LoText m.syms a s mn args → (m.syms.map (·.2)).Nodup → HiLo.NoParenLabel ls →
      HiLo.address v l = a → Means m ls k s (.native mn (args l))
  | set (mn f rd a b) : (mn, f) ∈ setOps → InstrText s mn [.gpr rd, .gpr a, .gpr b] →
      Means m ls k s (.compute rd [] false fun g => .ok (flag (f (g a) (g b))))
  | unary (mn f rd a) : (mn, f) ∈ unaryOps → mn ≠ c!"dabs" → InstrText s mn [.gpr rd, .gpr a] →
      Means m ls k s (.compute rd (if mn = c!"abs" then [at'] else []) false fun g =>
        promised ((mn = c!"move" → IsWord (g a)) ∧ (mn = c!"abs" → rd ≠ at' ∧ a ≠ at')) (f (g a)))
  | dabs (rd a) : InstrText s c!"dabs" [.gpr rd, .gpr a] →
      Means m ls k s (.compute rd [at'] false fun g =>
        promised (IsWord (g a) ∧ rd ≠ at' ∧ a ≠ at') (.ok (BitVec.ofInt 64 (g a).toInt.natAbs)))
  | clear (rd) : InstrText s c!"clear" [.gpr rd] → Means m ls k s (.compute rd [] false fun _ => .ok 0)
  | sub (mn f rd a) (v : BitVec 16) : (mn, f) ∈ subOps → InstrText s mn [.gpr rd, .gpr a, .simm v] →
      Means m ls k s (.compute rd [] false fun g => promised (v.toInt ≠ -32768) (f (g a) v.toInt))
  | mul (mn f rd a b) : (mn, f) ∈ mulOps → InstrText s mn [.gpr rd, .gpr a, .gpr b] →
      Means m ls k s (.compute rd [] true fun g => f (g a) (g b))
  | mulo (mn f rd a b) : (mn, f) ∈ mulTrapOps → InstrText s mn [.gpr rd, .gpr a, .gpr b] →
      Means m ls k s (.compute rd [at'] true fun g =>
        promised (rd ≠ at' ∧ (mn = c!"mulo" ∨ mn = c!"dmulo" → rd ≠ 0)) (f (g a) (g b)))
  | udiv (mn f rd a b) : (mn, f) ∈ udivOps → InstrText s mn [.gpr rd, .gpr a, .gpr b] →
      Means m ls k s (.compute rd [] true fun g => promised (mn = c!"divu" ∨ mn = c!"ddivu" → b ≠ 0) (f (g a) (g b)))
  | sdiv (mn f rd a b) : (mn, f) ∈ sdivOps → InstrText s mn [.gpr rd, .gpr a, .gpr b] →
      Means m ls k s (.compute rd [at'] true fun g =>
        promised (a ≠ at' ∧ b ≠ at' ∧ (mn = c!"div" ∨ mn = c!"ddiv" → b ≠ 0) ∧ (g b = 0 ∨ g b = -1)) (f (g a) (g b)))
  | rot (mn f rd a b) : (mn, f) ∈ rotOps → InstrText s mn [.gpr rd, .gpr a, .gpr b] →
      Means m ls k s (.compute rd [at'] false fun g => promised (rd ≠ at' ∧ a ≠ at' ∧ b ≠ at') (.ok (f (g a) (g b))))
  | li (rd) (n : Int) : ConstText s c!"li" rd n →
      Means m ls k s (.compute rd [] false fun _ => promised (n < 0xFFFF8000) (.ok (sext (BitVec.ofInt 32 n))))
  | liu (rd) (n : Int) : ConstText s c!"liu" rd n → Means m ls k s (.compute rd [] false fun _ => .ok (sext (BitVec.ofInt 32 n)))
  | dli (rd) (n : Int) : ConstText s c!"dli" rd n → Means m ls k s (.compute rd [] false fun _ => .ok (BitVec.ofInt 64 n))
  | lli (rd) (n : Int) : ConstText s c!"lli" rd n → Means m ls k s (.compute rd [] false fun _ => .ok (BitVec.ofInt 64 n))
  | branch (mn regs t mn' regs' likely cond d) : BrText s mn regs t → expand mn regs = some (mn', regs') →
      Cond mn' regs' likely cond → Refers ls k d t → Near ls k d →
      Means m ls k s (.branch likely cond [] (codeCount (ls.take d)))
  | cmp (mn likely f a b t d) : (mn, likely, f) ∈ cmpOps → BrText s mn [a, b] t →
      isLocal (trim t) = false → d < k → Defines ls d (trim t) → Near ls k d →
      Means m ls k s (.branch likely (fun g => f (g a) (g b)) [at'] (codeCount (ls.take d)))
  | call (mn regs t mn' rs likely cond d) : BrText s mn regs t → expand mn regs = some (mn', [rs]) →
      (mn', likely, cond) ∈ linking → Refers ls k d t → Near ls k d →
      Means m ls k s (.call likely rs cond (codeCount (ls.take d)))
  | cobranch (mn t likely unit wanted d) : BrText s mn [] t → (mn, likely, unit, wanted) ∈ coprocessor → Refers ls k d t → Near ls k d →
      Means m ls k s (.cobranch likely unit wanted (codeCount (ls.take d)))
  | eret : InstrText s c!"eret" [] → Means m ls k s .eret
  | jump (mn link t l d) : Jump s mn link t → trim t = l → Defines ls d l → isLocal l = false → (∀ e ∈ m.syms, e.2 ≠ l) →
      (∀ (j : Nat) raw, j < d → ls[j]? = some raw → kind raw = .code → Size.Short (mnemonic (body raw))) →
      Means m ls k s (.jump link (.line (codeCount (ls.take d))))
  | jumpSym (mn link t a) : Jump s mn link t → (a, trim t) ∈ m.syms → (m.syms.map (·.2)).Nodup → Low m.base a →
      Means m ls k s (.jump link (.address a))
  | jumpNum (mn link t) (n : Nat) : Jump s mn link t → UNum (trim t) n → n < 2 ^ 32 → (∀ e ∈ m.syms, e.2 ≠ trim t) →
      Low m.base (BitVec.ofNat 32 n) → Means m ls k s (.jump link (.address (BitVec.ofNat 32 n)))
  | jr (r) : InstrText s c!"jr" [.gpr r] → Means m ls k s (.jump none (.reg r))
  | jalr (rd r) : InstrText s c!"jalr" [.gpr rd, .gpr r] → Means m ls k s (.jump (some rd) (.reg r))

/-- Does a line have a delay slot? -/
def Act.slot : Act → Bool
  | .native .. => false
  | .compute .. => false
  | .eret => false
  | _ => true

/-- The source program: what every instruction line means, in order, the line after every branch and jump being a single native
instruction. -/
structure Program [Unicode] (m : Mipsasm) (ls : List Str) (prog : List Act) : Prop where
  length : prog.length = codeCount ls
  means : ∀ (k : Nat) raw, ls[k]? = some raw → kind raw = .code →
    ∃ a, prog[codeCount (ls.take k)]? = some a ∧ Means m ls k (body raw) a
  slots : ∀ (i : Nat) a, prog[i]? = some a → a.slot = true → ∃ mn as, prog[i + 1]? = some (.native mn as)

/-- The layout of the emitted code. -/
def code (base : BitVec 32) (is : List Instruction) : Code := ⟨base, is.length, (getBytes is).length, wordIndex is⟩

/-- The code lies within the lowest 64 MB of a 256 MB region, as the jumps of the assembler require (C07). -/
def InRegion (base : BitVec 32) (is : List Instruction) : Prop :=
  base.toNat % 4 = 0 ∧ base.toNat % 2 ^ 28 + 4 * ((getBytes is).length + 1) < 2 ^ 26

/-- The word index `q` of the machine is the place `p` of the source. -/
def At (c : Code) (p q : Int) : Prop :=
  (0 ≤ p ∧ p ≤ c.lines ∧ q = c.start p.toNat) ∨ ∃ a, p = away a ∧ index c.base a = some q ∧ c.words ≤ q

/-- The machine is where the source program is: same registers, same memory, and about to execute the first word of the line the
source program is about to execute (or at the same address outside of the program). -/
def Same {σ : Type} (c : Code) (s t : St σ) : Prop :=
  t.cpu.gpr = s.cpu.gpr ∧ t.cpu.hi = s.cpu.hi ∧ t.cpu.lo = s.cpu.lo ∧ t.env = s.env ∧ At c s.cpu.pc t.cpu.pc

/-- From `t`, the words `ws` do what `n` lines of the source program do. -/
def Follows {σ : Type} (c : Code) (ext : Ext σ) (ws : List W32) (n : Nat) (t : St σ) : Res σ → Prop
  | .at s' => ∃ j, n ≤ j ∧ ∃ t', go c.base ext ws j t = .at t' ∧ Same c s' t'
  | .left s' => ∃ j t', go c.base ext ws j t = .left t' ∧ Same c s' t'
  | .trap => ∃ j, go c.base ext ws j t = .trap
  | .undef => True

/-- The source program is about to execute a line (not in a delay slot), and the machine the first word of it, in the same state. -/
def Start {σ : Type} (c : Code) (s t : St σ) : Prop :=
  Same c s t ∧ 0 ≤ s.cpu.pc ∧ s.cpu.pc ≤ c.lines ∧ s.cpu.npc = s.cpu.pc + 1 ∧ t.cpu.npc = t.cpu.pc + 1

end Mips.Exec
