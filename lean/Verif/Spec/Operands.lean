/-
SPECIFICATION (not a model of the code): the kinds of the operands of each mnemonic, lines that differ in the spelling of
registers, and the register texts the assembler takes.  Refers only to character-level definitions.
-/
import Verif.Spec.Mnemonics
import Verif.Spec.Syntax

namespace Mips.Operands
open Mips.Isa Mips.Syntax Mips.Source Mips.Branch Mips.Names

/-- The kinds of operands. -/
inductive Role
  /-- general-purpose register -/ | gpr
  /-- floating-point register -/ | fpr
  /-- coprocessor 0 register -/ | c0
  /-- signed 16-bit constant -/ | simm
  /-- unsigned 16-bit constant -/ | uimm
  /-- constant of `li`, `liu`, `dli` -/ | wide
  /-- shift amount -/ | shamt
  /-- code of `break` and `syscall` -/ | code
  /-- operation of `cache` -/ | cop
  /-- offset and base register -/ | mem
  /-- place to branch to -/ | addr
  /-- place to jump to -/ | target
  deriving DecidableEq

/-- The operands of each mnemonic, in order. -/
def groups : List (List Str × List Role) :=
  [([c!"lb", c!"lbu", c!"ld", c!"ldl", c!"ldr", c!"lh", c!"lhu", c!"ll", c!"lld", c!"lw", c!"lwl", c!"lwr", c!"lwu",
     c!"sb", c!"sc", c!"scd", c!"sd", c!"sdl", c!"sdr", c!"sh", c!"sw", c!"swl", c!"swr"], [.gpr, .mem]),
   ([c!"cache"], [.cop, .mem]),
   ([c!"ldc1", c!"lwc1", c!"sdc1", c!"swc1"], [.fpr, .mem]),
   ([c!"addi", c!"addiu", c!"slti", c!"sltiu", c!"daddi", c!"daddiu", c!"subi", c!"subiu", c!"dsubi", c!"dsubiu"],
     [.gpr, .gpr, .simm]),
   ([c!"andi", c!"ori", c!"xori"], [.gpr, .gpr, .uimm]),
   ([c!"lui", c!"lli"], [.gpr, .uimm]),
   ([c!"li", c!"liu", c!"dli"], [.gpr, .wide]),
   ([c!"teqi", c!"tgei", c!"tgeiu", c!"tlti", c!"tltiu", c!"tnei"], [.gpr, .simm]),
   ([c!"bgez", c!"bgezal", c!"bgezall", c!"bgezl", c!"bltz", c!"bltzal", c!"bltzall", c!"bltzl", c!"bgtz", c!"bgtzl",
     c!"blez", c!"blezl", c!"beqz", c!"bnez", c!"beqzl", c!"bnezl"], [.gpr, .addr]),
   ([c!"beq", c!"beql", c!"bne", c!"bnel"] ++ cmpBranchNames, [.gpr, .gpr, .addr]),
   ([c!"b", c!"bal", c!"bc0f", c!"bc0fl", c!"bc0t", c!"bc0tl", c!"bc1f", c!"bc1fl", c!"bc1t", c!"bc1tl"], [.addr]),
   ([c!"j", c!"jal"], [.target]),
   ([c!"add", c!"addu", c!"sub", c!"subu", c!"dadd", c!"daddu", c!"dsub", c!"dsubu", c!"and", c!"or", c!"xor", c!"nor",
     c!"slt", c!"sltu", c!"mul", c!"mulu", c!"mulo", c!"mulou", c!"dmul", c!"dmulu", c!"dmulo", c!"dmulou",
     c!"rem", c!"remu", c!"drem", c!"dremu", c!"drol", c!"dror",
     c!"seq", c!"sne", c!"sge", c!"sgeu", c!"sgt", c!"sgtu", c!"sle", c!"sleu",
     c!"sllv", c!"srlv", c!"srav", c!"dsllv", c!"dsrlv", c!"dsrav",
     c!"div", c!"divu", c!"ddiv", c!"ddivu"], [.gpr, .gpr, .gpr]),
   ([c!"sll", c!"srl", c!"sra", c!"dsll", c!"dsrl", c!"dsra", c!"dsll32", c!"dsrl32", c!"dsra32"], [.gpr, .gpr, .shamt]),
   ([c!"break", c!"syscall"], [.code]),
   ([c!"mult", c!"multu", c!"dmult", c!"dmultu", c!"div", c!"divu", c!"ddiv", c!"ddivu",
     c!"teq", c!"tge", c!"tgeu", c!"tlt", c!"tltu", c!"tne", c!"jalr",
     c!"abs", c!"dabs", c!"move", c!"dmove", c!"neg", c!"negu", c!"dneg", c!"dnegu", c!"not"], [.gpr, .gpr]),
   ([c!"jalr", c!"jr", c!"mthi", c!"mtlo", c!"clear", c!"mfhi", c!"mflo"], [.gpr]),
   ([c!"mfc0", c!"mtc0", c!"dmfc0", c!"dmtc0", c!"cfc0", c!"ctc0"], [.gpr, .c0]),
   ([c!"mfc1", c!"mtc1", c!"dmfc1", c!"dmtc1", c!"cfc1", c!"ctc1"], [.gpr, .fpr]),
   (names [c!"add", c!"sub", c!"mul", c!"div"] [c!".s", c!".d"], [.fpr, .fpr, .fpr]),
   (names [c!"abs", c!"mov", c!"neg", c!"sqrt", c!"round.l", c!"round.w", c!"trunc.l", c!"trunc.w", c!"ceil.l", c!"ceil.w",
      c!"floor.l", c!"floor.w", c!"cvt.l", c!"cvt.w"] [c!".s", c!".d"] ++
    [c!"cvt.s.d", c!"cvt.s.w", c!"cvt.s.l", c!"cvt.d.s", c!"cvt.d.w", c!"cvt.d.l"] ++ compares, [.fpr, .fpr])]

/-- Mnemonic and kinds of its operands. -/
def signatures : List (Str × List Role) := groups.flatMap fun g => g.1.map fun n => (n, g.2)

/-! ### Lines that differ in the spelling of registers -/

/-- Two texts of an operand of the given kind: the same text, or two spellings of the same register; for an address, the
same offset and two spellings of the base register. -/
inductive SameOperand : Role → Str → Str → Prop
  | same (role : Role) (s : Str) : SameOperand role s s
  | gpr (s s' : Str) (r : BitVec 5) : Reg GprCore s r → Reg GprCore s' r → SameOperand .gpr s s'
  | fpr (s s' : Str) (r : BitVec 5) : Reg FprCore s r → Reg FprCore s' r → SameOperand .fpr s s'
  | c0 (s s' : Str) (r : BitVec 5) : Reg C0Core s r → Reg C0Core s' r → SameOperand .c0 s s'
  | mem (o b b' q q' : Str) (r : BitVec 5) : '(' ∉ o → '\n' ∉ o → Reg GprCore b r → Reg GprCore b' r → Blank q → Blank q' →
      SameOperand .mem (o ++ '(' :: b ++ ')' :: q) (o ++ '(' :: b' ++ ')' :: q')

/-- The same for lists of operands. -/
inductive SameOperands : List Role → List Str → List Str → Prop
  | nil : SameOperands [] [] []
  | cons (role : Role) (s s' : Str) (rs : List Role) (l l' : List Str) : SameOperand role s s' → SameOperands rs l l' →
      SameOperands (role :: rs) (s :: l) (s' :: l')

/-- Two instruction lines with the same mnemonic that differ in the spelling of registers. -/
structure Respelled (raw raw' : Str) : Prop where
  code : kind raw = .code
  code' : kind raw' = .code
  word : firstWord (body raw) = firstWord (body raw')
  ops : ∃ mn sig, (mn, sig) ∈ signatures ∧ Calls (body raw) mn ∧ SameOperands sig (operands (body raw)) (operands (body raw'))

/-- Two files that differ in the spelling of registers. -/
inductive SameFile : List Str → List Str → Prop
  | nil : SameFile [] []
  | cons (raw raw' : Str) (ls ls' : List Str) : raw = raw' ∨ Respelled raw raw' → SameFile ls ls' →
      SameFile (raw :: ls) (raw' :: ls')

/-! ### Texts taken as registers -/

/-- Digits, possibly after a plus sign. -/
def Plus (ds s : Str) (n : Nat) : Prop := Digits ds s n ∨ ∃ t, s = '+' :: t ∧ Digits ds t n

/-- Texts taken as the general-purpose register `r`: its name, its number, or letters `r` and its number (a capital
`R` only in `R0`). -/
inductive GprTaken [Unicode] : Str → BitVec 5 → Prop
  | name (s n : Str) (r : BitVec 5) : gprNames[r.toNat]? = some n → Unicode.lower s = n → GprTaken s r
  | num (s : Str) (r : BitVec 5) : Plus decDigits s r.toNat → GprTaken s r
  | rnum (k : Nat) (s : Str) (r : BitVec 5) : Digits decDigits s r.toNat → GprTaken (List.replicate (k + 1) 'r' ++ s) r
  | r0 (s : Str) (r : BitVec 5) : Unicode.lower s = c!"r0" → r = 0#5 → GprTaken s r

/-- Texts taken as the floating-point register `r`: its names, its number, or its number in hexadecimal digits. -/
inductive FprTaken [Unicode] : Str → BitVec 5 → Prop
  | name (s n : Str) (r : BitVec 5) : fprNames[r.toNat]? = some n ∨ fprNumNames[r.toNat]? = some n → Unicode.lower s = n → FprTaken s r
  | num (s : Str) (r : BitVec 5) : Plus decDigits s r.toNat → FprTaken s r
  | hex (s : Str) (r : BitVec 5) : Plus hexDigits s r.toNat → (∀ n, ¬ Plus decDigits s n) → FprTaken s r

/-- Texts taken as the coprocessor 0 register `r`, one of those that have a name: its name, its number, or its number in
hexadecimal digits. -/
inductive C0Taken [Unicode] : Str → BitVec 5 → Prop
  | name (s n : Str) (r : BitVec 5) : (r.toNat, n) ∈ cop0Names → Unicode.lower s = n → C0Taken s r
  | num (s n : Str) (r : BitVec 5) : (r.toNat, n) ∈ cop0Names → Plus decDigits s r.toNat → C0Taken s r
  | hex (s n : Str) (r : BitVec 5) : (r.toNat, n) ∈ cop0Names → Plus hexDigits s r.toNat → (∀ n, ¬ Plus decDigits s n) → C0Taken s r

/-- A text taken as a register: any number of `$` in front, white space around. -/
inductive Taken (core : Str → BitVec 5 → Prop) : Str → BitVec 5 → Prop
  | mk (p s q : Str) (k : Nat) (r : BitVec 5) : (∀ c ∈ p, isWs c = true) → (∀ c ∈ q, isWs c = true) → core s r →
      Taken core (p ++ (List.replicate k '$' ++ s) ++ q) r

/-- The operand text `s` is taken as a register of the kind asked for; for an address, the text between the parentheses is
taken as a register. -/
def TakenAs [Unicode] : Role → Str → Prop
  | .gpr, s => ∃ r, Taken GprTaken s r
  | .fpr, s => ∃ r, Taken FprTaken s r
  | .c0, s => ∃ r, Taken C0Taken s r
  | .mem, s => ∀ o b q, s = o ++ '(' :: b ++ ')' :: q → '(' ∉ o → (∀ c ∈ b, c ≠ '(' ∧ c ≠ ')' ∧ c ≠ '\n') → '(' ∉ q →
      ∃ r, Taken GprTaken b r
  | _, _ => True

/-- The operand text `s` is a regular spelling of a register of the kind asked for. -/
def Regular : Role → Str → Prop
  | .gpr, s => ∃ r, Reg GprCore s r
  | .fpr, s => ∃ r, Reg FprCore s r
  | .c0, s => ∃ r, Reg C0Core s r
  | _, _ => True

/-- The register operands. -/
def Role.isReg : Role → Bool
  | .gpr | .fpr | .c0 => true
  | _ => false

/-- A letter `r` in front of a decimal digit (of any script) occurs in `s`. -/
def RDigit [Unicode] (s : Str) : Prop := ∃ a d b, s = a ++ 'r' :: d :: b ∧ Unicode.isNd d = true

/-- Loads, stores and `cache`. -/
def memNames : List Str :=
  [c!"lb", c!"lbu", c!"ld", c!"ldl", c!"ldr", c!"lh", c!"lhu", c!"ll", c!"lld", c!"lw", c!"lwl", c!"lwr", c!"lwu",
   c!"sb", c!"sc", c!"scd", c!"sd", c!"sdl", c!"sdr", c!"sh", c!"sw", c!"swl", c!"swr", c!"cache"]

end Mips.Operands
