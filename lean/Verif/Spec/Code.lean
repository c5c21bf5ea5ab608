/-
SPECIFICATION (not a model of the code): the code the assembler generates.  Every operand has a value; a
mnemonic and the values of its operands give a list of machine instructions, and those have encodings (Spec/Isa).
The definitions refer only to the text and to the instruction set.
-/
import Verif.Spec.Language

namespace Mips.Lang
open Mips.Isa hiding conds
open Mips.Names hiding none
open Mips.Syntax Mips.Source Mips.Branch Mips.Operands

/-! ### Values -/

/-- The value of an operand. -/
inductive Val
  /-- a general-purpose register -/
  | gpr (r : BitVec 5)
  /-- a floating-point register -/
  | fpr (r : BitVec 5)
  /-- a coprocessor 0 register -/
  | c0 (r : BitVec 5)
  /-- a number -/
  | num (v : Int)
  /-- an address to jump to -/
  | addr (a : BitVec 32)
  deriving DecidableEq

/-- The number of instructions from the one after line `k` to line `d`. -/
def distance (f : File) (k d : Nat) : Int := (codeCount (f.ls.take d) : Int) - (codeCount (f.ls.take k) + 1)

/-- The constant written `t` in line `k` has the value `v`.  A label stands for the distance to it (of `dli`: its lower 16 bits).
A number as the place to branch to is taken as an address, and stands for a quarter of its difference to the index of the next
instruction. -/
inductive Const [Unicode] (f : File) (k : Nat) (r : Range) (t : Str) : Int → Prop
  | «local» (d : Nat) : isLocal (trim t) = true → Chosen f.ls k d (trim t) →
      Const f k r t (if r = wide then distance f k d % 65536 else distance f k d)
  | label (d : Nat) : d < k → FirstDef f.ls d (trim t) → Const f k r t (if r = wide then distance f k d % 65536 else distance f k d)
  | value (v : Int) : r ≠ Lang.addr → ¬ RefersTo (f.place k) t → Value (f.place k) r t v → Const f k r t v
  | place (v : Nat) : r = Lang.addr → Number (f.place k) t v → Const f k r t (((v : Int) - (codeCount (f.ls.take k) + 1)).tdiv 4)
  | half (m : Str) (v : Int) : r = Lang.addr → ¬ RefersTo (f.place k) t → Group t m → Value (f.place k) Lang.addr t v → Const f k r t v

/-- The offset written in front of the last opening parenthesis. -/
def offsetText (strip : Bool) (o : Str) : Str := if strip then o.filter (fun c => !(c == '(')) else o

/-- The values that a step of reading line `k` yields. -/
inductive Yields [Unicode] (f : File) (k : Nat) : Step → List Val → Prop
  | gpr (b : Bool) (s : Str) (r : BitVec 5) : Taken GprTaken s r → Yields f k (.gpr b s) [.gpr r]
  | fpr (s : Str) (r : BitVec 5) : Taken FprTaken s r → Yields f k (.fpr s) [.fpr r]
  | c0 (s : Str) (r : BitVec 5) : Taken C0Taken s r → Yields f k (.c0 s) [.c0 r]
  | base (b : Bool) (s m : Str) (r : BitVec 5) : BaseGroup s m → Taken GprTaken (trim (bare m)) r → Yields f k (.base b s) [.gpr r]
  | offset (b : Bool) (s o : Str) (v : Int) : Offset s o → Const f k simm (offsetText b o) v → Yields f k (.offset b s) [.num v]
  | noOffset (b : Bool) (s : Str) : (∀ o, ¬ Offset s o) → Yields f k (.offset b s) [.num 0]
  | const (r : Range) (s : Str) (v : Int) : Const f k r s v → Yields f k (.const r s) [.num v]
  | number (r : Range) (s : Str) (v : Int) : Value (f.place k) r s v → Yields f k (.number r s) [.num v]
  | code (s : Str) (v : Int) : s ≠ [] → Value (f.place k) uimm s v → Yields f k (.code s) [.num v]
  | noCode : Yields f k (.code []) [.num 0]
  | word32 (s : Str) (v : Int) : Value (f.place k) wide s v → Yields f k (.word32 s) [.num v]
  | cop (s : Str) (v : Int) : Value (f.place k) uimm s v → Yields f k (.cop s) [.num v]
  | shamt (s : Str) (v : Int) : ShiftIs s v → Yields f k (.shamt s) [.num v]
  | target (s : Str) (a : BitVec 32) : Address f.syms (trim s) a → Yields f k (.target s) [.addr a]
  | label (s : Str) (d : Nat) : LabelName f.syms (trim s) → FirstDef f.ls d (trim s) →
      Yields f k (.target s) [.addr (f.base + BitVec.ofNat 32 (4 * codeCount (f.ls.take d)))]
  | name (w : Str) : Yields f k (.name w) []
  | fname (w : Str) : Yields f k (.fname w) []
  | format (w : Str) : Yields f k (.format w) []
  | cond (w : Str) : Yields f k (.cond w) []

/-- The values of the operands of line `k`, read in the given steps. -/
inductive Values [Unicode] (f : File) (k : Nat) : List Step → List Val → Prop
  | nil : Values f k [] []
  | cons (s : Step) (st : List Step) (a vs : List Val) : Yields f k s a → Values f k st vs → Values f k (s :: st) (a ++ vs)

/-! ### Machine instructions -/

/-- The operands of a machine instruction with the given syntax. -/
def args : Syn → List Val → List Arg
  | .rtRsSimm, [.gpr t, .gpr s, .num v] => [.gpr t, .gpr s, .simm (.ofInt 16 v)]
  | .rtRsUimm, [.gpr t, .gpr s, .num v] => [.gpr t, .gpr s, .uimm (.ofInt 16 v)]
  | .rtUimm, [.gpr t, .num v] => [.gpr t, .uimm (.ofInt 16 v)]
  | .rsSimm, [.gpr s, .num v] => [.gpr s, .simm (.ofInt 16 v)]
  | .rsRtOff, [.gpr s, .gpr t, .num v] => [.gpr s, .gpr t, .off (.ofInt 16 v)]
  | .rsOff, [.gpr s, .num v] => [.gpr s, .off (.ofInt 16 v)]
  | .off, [.num v] => [.off (.ofInt 16 v)]
  | .rtMem, [.gpr t, .gpr b, .num v] => [.gpr t, .mem (.ofInt 16 v) b]
  | .ftMem, [.fpr t, .gpr b, .num v] => [.fpr t, .mem (.ofInt 16 v) b]
  | .copMem, [.num c, .gpr b, .num v] => [.cop (.ofInt 5 c), .mem (.ofInt 16 v) b]
  | .code, [.num v] => [.code (.ofInt 20 v)]
  -- two bits of the address are lost
  | .target, [.addr a] => [.target (((a >>> 2).setWidth 24).setWidth 26)]
  | .rdRtSa, [.gpr d, .gpr t, .num _] => [.gpr d, .gpr t, .sa 0]
  | .rsRt, [.gpr s, .gpr t, .num _] => [.gpr s, .gpr t]
  | _, vs => vs.filterMap fun
    | .gpr r => some (.gpr r)
    | .fpr r => some (.fpr r)
    | .c0 r => some (.c0 r)
    | _ => Option.none

/-- What is or-ed to the word at bit 6: a shift amount, of any size, or the code of a trap. -/
def extra : Syn → List Val → BitVec 32
  | .rdRtSa, [.gpr _, .gpr _, .num v] => BitVec.ofInt 32 v <<< 6
  | .rsRt, [.gpr _, .gpr _, .num v] => BitVec.ofInt 32 v <<< 6
  | _, _ => 0#32

/-- The word of the machine instruction `mn` with the given operands. -/
def machine (mn : Str) (vs : List Val) : Option (BitVec 32) := (encoding mn (args (synOf mn) vs)).map (· ||| extra (synOf mn) vs)

/-! ### Pseudo-instructions -/

/-- `$zero`, `$at` and `$ra` -/
def zero : Val := .gpr 0
def «at» : Val := .gpr 1
def ra : Val := .gpr 31

/-- Machine instructions. -/
abbrev Code := List (Str × List Val)

/-- The expansions of the pseudo-instructions with registers only. -/
def expandRegs : List (Str × (Val → Val → Val → Code)) :=
  [(c!"mul", fun rd rs rt => [(c!"mult", [rs, rt]), (c!"mflo", [rd])]),
   (c!"mulu", fun rd rs rt => [(c!"multu", [rs, rt]), (c!"mflo", [rd])]),
   (c!"dmul", fun rd rs rt => [(c!"dmult", [rs, rt]), (c!"mflo", [rd])]),
   (c!"dmulu", fun rd rs rt => [(c!"dmultu", [rs, rt]), (c!"mflo", [rd])]),
   (c!"mulo", fun rd rs rt => [(c!"mult", [rs, rt]), (c!"mflo", [rd]), (c!"sra", [rd, rd, .num 31]), (c!"mfhi", [«at»]),
      (c!"tne", [rd, «at», .num 6]), (c!"mflo", [rd])]),
   (c!"dmulo", fun rd rs rt => [(c!"dmult", [rs, rt]), (c!"mflo", [rd]), (c!"dsra32", [rd, rd, .num 31]), (c!"mfhi", [«at»]),
      (c!"tne", [rd, «at», .num 6]), (c!"mflo", [rd])]),
   (c!"mulou", fun rd rs rt => [(c!"multu", [rs, rt]), (c!"mfhi", [«at»]), (c!"mflo", [rd]), (c!"tne", [«at», zero, .num 6])]),
   (c!"dmulou", fun rd rs rt => [(c!"dmultu", [rs, rt]), (c!"mfhi", [«at»]), (c!"mflo", [rd]), (c!"tne", [«at», zero, .num 6])]),
   (c!"rem", fun rd rs rt => [(c!"teq", [rt, zero, .num 7]), (c!"div", [rs, rt]), (c!"lui", [«at», .num 0xFFFF]),
      (c!"ori", [«at», «at», .num 0xFFFF]), (c!"bne", [rt, «at», .num 3]), (c!"lui", [«at», .num 0x8000]),
      (c!"teq", [rs, «at», .num 6]), (c!"mfhi", [rd])]),
   (c!"remu", fun rd rs rt => [(c!"teq", [rt, zero, .num 7]), (c!"divu", [rs, rt]), (c!"mfhi", [rd])]),
   (c!"drem", fun rd rs rt => [(c!"teq", [rt, zero, .num 7]), (c!"ddiv", [rs, rt]), (c!"daddiu", [«at», zero, .num (-1)]),
      (c!"bne", [rt, «at», .num 4]), (c!"daddiu", [«at», zero, .num 1]), (c!"dsll32", [«at», «at», .num 31]),
      (c!"teq", [rs, «at», .num 6]), (c!"mfhi", [rd])]),
   (c!"dremu", fun rd rs rt => [(c!"teq", [rt, zero, .num 7]), (c!"ddivu", [rs, rt]), (c!"mfhi", [rd])]),
   (c!"drol", fun rd rs rt => [(c!"dsubu", [«at», zero, rt]), (c!"dsrlv", [«at», rs, «at»]), (c!"dsllv", [rd, rs, rt]), (c!"or", [rd, rd, «at»])]),
   (c!"dror", fun rd rs rt => [(c!"dsubu", [«at», zero, rt]), (c!"dsllv", [«at», rs, «at»]), (c!"dsrlv", [rd, rs, rt]), (c!"or", [rd, rd, «at»])]),
   (c!"seq", fun rd rs rt => [(c!"xor", [rd, rs, rt]), (c!"sltiu", [rd, rd, .num 1])]),
   (c!"sne", fun rd rs rt => [(c!"xor", [rd, rs, rt]), (c!"sltu", [rd, zero, rd])]),
   (c!"sge", fun rd rs rt => [(c!"slt", [rd, rs, rt]), (c!"xori", [rd, rd, .num 1])]),
   (c!"sgeu", fun rd rs rt => [(c!"sltu", [rd, rs, rt]), (c!"xori", [rd, rd, .num 1])]),
   (c!"sgt", fun rd rs rt => [(c!"slt", [rd, rt, rs])]),
   (c!"sgtu", fun rd rs rt => [(c!"sltu", [rd, rt, rs])]),
   (c!"sle", fun rd rs rt => [(c!"slt", [rd, rt, rs]), (c!"xori", [rd, rd, .num 1])]),
   (c!"sleu", fun rd rs rt => [(c!"sltu", [rd, rt, rs]), (c!"xori", [rd, rd, .num 1])])]

/-- The divisions of three registers, unless the divisor is `$zero`. -/
def expandDiv : List (Str × (Val → Val → Val → Code)) :=
  [(c!"div", fun rd rs rt => [(c!"teq", [rt, zero, .num 7]), (c!"div", [rs, rt]), (c!"lui", [«at», .num 0xFFFF]),
      (c!"ori", [«at», «at», .num 0xFFFF]), (c!"bne", [rt, «at», .num 3]), (c!"lui", [«at», .num 0x8000]),
      (c!"teq", [rs, «at», .num 6]), (c!"mflo", [rd])]),
   (c!"divu", fun rd rs rt => [(c!"teq", [rt, zero, .num 7]), (c!"divu", [rs, rt]), (c!"mflo", [rd])]),
   (c!"ddiv", fun rd rs rt => [(c!"teq", [rt, zero, .num 7]), (c!"ddiv", [rs, rt]), (c!"daddiu", [«at», zero, .num (-1)]),
      (c!"bne", [rt, «at», .num 4]), (c!"daddiu", [«at», zero, .num 1]), (c!"dsll32", [«at», «at», .num 31]),
      (c!"teq", [rs, «at», .num 6]), (c!"mflo", [rd])]),
   (c!"ddivu", fun rd rs rt => [(c!"teq", [rt, zero, .num 7]), (c!"ddivu", [rs, rt]), (c!"mflo", [rd])])]

/-- The expansions of the pseudo-instructions with two registers. -/
def expandTwo : List (Str × (Val → Val → Code)) :=
  [(c!"abs", fun rd rs => [(c!"sra", [«at», rs, .num 31]), (c!"xor", [rd, rs, «at»]), (c!"subu", [rd, rd, «at»])]),
   (c!"dabs", fun rd rs => [(c!"dsra", [«at», rs, .num 31]), (c!"xor", [rd, rs, «at»]), (c!"dsub", [rd, rd, «at»])]),
   (c!"move", fun rd rs => [(c!"addu", [rd, zero, rs])]),
   (c!"dmove", fun rd rs => [(c!"daddu", [rd, rs, zero])]),
   (c!"not", fun rd rs => [(c!"nor", [rd, rs, zero])]),
   (c!"neg", fun rd rs => [(c!"sub", [rd, zero, rs])]),
   (c!"negu", fun rd rs => [(c!"subu", [rd, zero, rs])]),
   (c!"dneg", fun rd rs => [(c!"dsub", [rd, zero, rs])]),
   (c!"dnegu", fun rd rs => [(c!"dsubu", [rd, zero, rs])])]

/-- The comparison of a compare-and-branch, whether its operands are swapped, and the branch. -/
def cmpCode : List (Str × Str × Bool × Str) :=
  [(c!"bge", c!"slt", false, c!"beq"), (c!"bgel", c!"slt", false, c!"beql"), (c!"bgeu", c!"sltu", false, c!"beq"), (c!"bgeul", c!"sltu", false, c!"beql"),
   (c!"bgt", c!"slt", true, c!"bne"), (c!"bgtl", c!"slt", true, c!"bnel"), (c!"bgtu", c!"sltu", true, c!"bne"), (c!"bgtul", c!"sltu", true, c!"bnel"),
   (c!"ble", c!"slt", true, c!"beq"), (c!"blel", c!"slt", true, c!"beql"), (c!"bleu", c!"sltu", true, c!"beq"), (c!"bleul", c!"sltu", true, c!"beql"),
   (c!"blt", c!"slt", false, c!"bne"), (c!"bltl", c!"slt", false, c!"bnel"), (c!"bltu", c!"sltu", false, c!"bne"), (c!"bltul", c!"sltu", false, c!"bnel")]

/-- The expansions of the pseudo-instructions with two registers and a number. -/
def expandNum : List (Str × (Val → Val → Int → Code)) :=
  [(c!"subi", fun rt rs v => [(c!"addi", [rt, rs, .num (-v)])]),
   (c!"subiu", fun rt rs v => [(c!"addiu", [rt, rs, .num (-v)])]),
   (c!"dsubi", fun rt rs v => [(c!"daddi", [rt, rs, .num (-v)])]),
   (c!"dsubiu", fun rt rs v => [(c!"daddiu", [rt, rs, .num (-v)])])] ++
  cmpCode.map fun e => (e.1, fun rs rt v => [(e.2.1, if e.2.2.1 then [«at», rt, rs] else [«at», rs, rt]), (e.2.2.2, [«at», zero, .num (v - 1)])])

/-- The code that loads a constant of 32 bits. -/
def loadWord (signed : Bool) (rt : Val) (v : Int) : Code :=
  if v < 0x10000 then [(c!"ori", [rt, zero, .num v])]
  else if v % 0x10000 = 0 then [(c!"lui", [rt, .num (v / 0x10000)])]
  else if signed ∧ 0xFFFF8000 ≤ v then [(c!"lui", [rt, .num (v / 0x10000)]), (c!"addiu", [rt, rt, .num v])]
  else [(c!"lui", [rt, .num (v / 0x10000)]), (c!"ori", [rt, rt, .num v])]

/-- The expansions of the pseudo-instructions with a register and a number. -/
def expandOne : List (Str × (Val → Int → Code)) :=
  [(c!"beqz", fun rs v => [(c!"beq", [rs, zero, .num v])]),
   (c!"bnez", fun rs v => [(c!"bne", [rs, zero, .num v])]),
   (c!"beqzl", fun rs v => [(c!"beql", [rs, zero, .num v])]),
   (c!"bnezl", fun rs v => [(c!"bnel", [rs, zero, .num v])]),
   (c!"lli", fun rt v => [(c!"ori", [rt, zero, .num v])]),
   (c!"li", fun rt v => loadWord true rt v),
   (c!"liu", fun rt v => loadWord false rt v),
   (c!"dli", fun rt v => [(c!"lui", [rt, .num (v / 2 ^ 48)]), (c!"ori", [rt, rt, .num (v / 2 ^ 32)]), (c!"dsll", [rt, rt, .num 16]),
      (c!"ori", [rt, rt, .num (v / 2 ^ 16)]), (c!"dsll", [rt, rt, .num 16]), (c!"ori", [rt, rt, .num v])])]

/-- The machine instructions for the mnemonic `mn` with the given operands. -/
def expand (mn : Str) (vs : List Val) : Code :=
  match vs with
  | [] => if mn = c!"nop" then [(c!"sll", [zero, zero, .num 0])] else [(mn, vs)]
  | [.num v] =>
    if mn = c!"b" then [(c!"beq", [zero, zero, .num v])]
    else if mn = c!"bal" then [(c!"bgezal", [zero, .num v])]
    else [(mn, vs)]
  | [a] => if mn = c!"clear" then [(c!"addu", [a, zero, zero])] else if mn = c!"jalr" then [(mn, [ra, a])] else [(mn, vs)]
  | [a, .num v] => match expandOne.lookup mn with
    | some e => e a v
    | none => [(mn, vs)]
  | [a, b] => match expandTwo.lookup mn with
    | some e => e a b
    | none => [(mn, vs)]
  | [a, b, .num v] => match expandNum.lookup mn with
    | some e => e a b v
    | none => [(mn, vs)]
  | [a, b, c] => match expandRegs.lookup mn with
    | some e => e a b c
    | none => match expandDiv.lookup mn with
      | some e => if c = zero then [(mn, [a, b])] else e a b c
      | none => [(mn, vs)]
  | _ => [(mn, vs)]

/-- The words for the mnemonic `mn` with the given operands.  A compare-and-branch over the distance 0 (in 16 bits) is encoded wrongly:
its second word is all ones. -/
def code (mn : Str) (vs : List Val) : Option (List (BitVec 32)) :=
  match vs with
  | [_, _, .num v] =>
    if mn ∈ cmpBranchNames ∧ v % 65536 = 0 then ((expand mn vs).mapM fun i => machine i.1 i.2).map fun ws => ws.take 1 ++ [0xFFFFFFFF#32]
    else (expand mn vs).mapM fun i => machine i.1 i.2
  | _ => (expand mn vs).mapM fun i => machine i.1 i.2

/-! ### Lines and files -/

/-- The mnemonic that the first word of a line stands for.  Of a floating-point comparison, only the text up to the second full stop and
the last character count. -/
def callName [Unicode] (w : Str) : Str :=
  let l := w.map asciiLower
  if (Unicode.lower w).take 2 = c!"c." then c!"c." ++ ((split '.' l)[1]?).getD [] ++ '.' :: l.getLast?.toList else trim (Unicode.lower w)

/-- The words of line `k`, an instruction. -/
def LineWords [Unicode] (f : File) (k : Nat) (raw : Str) (ws : List (BitVec 32)) : Prop :=
  ∃ st vs, plan (body raw) = some st ∧ Values f k st vs ∧ code (callName (firstWord (body raw))) vs = some ws

/-- The words of the first `k` lines. -/
inductive Generates [Unicode] (f : File) : Nat → List (BitVec 32) → Prop
  | none : Generates f 0 []
  | inst (k : Nat) (raw : Str) (ws out : List (BitVec 32)) : Generates f k out → f.ls[k]? = some raw → kind raw = .code →
      LineWords f k raw ws → Generates f (k + 1) (out ++ ws)
  | other (k : Nat) (raw : Str) (out : List (BitVec 32)) : Generates f k out → f.ls[k]? = some raw → kind raw ≠ .code → Generates f (k + 1) out

end Mips.Lang
