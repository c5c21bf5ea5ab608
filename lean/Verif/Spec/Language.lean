/-
SPECIFICATION (not a model of the code): the language the assembler accepts.  A line is read in steps, from
left to right; each step either reads its text, or complains about it (an error of the report), or ends the program (a panic).
The definitions refer only to the text: to character-level functions and to the tables of mnemonics.
-/
import Verif.Spec.Operands
import Verif.Spec.Tame
import Verif.Spec.Scope

namespace Mips.Lang
open Mips.Isa hiding conds
open Mips.Names hiding none
open Mips.Syntax Mips.Source Mips.Branch Mips.Operands

/-! ### Numbers and addresses -/

/-- A numeral in the digits `ds` with an optional sign; a minus sign only if `neg`. -/
inductive Signed (neg : Bool) (ds : Str) : Str → Int → Prop
  | plus (s : Str) (n : Nat) : Plus ds s n → Signed neg ds s n
  | minus (s : Str) (n : Nat) : neg = true → Digits ds s n → Signed neg ds ('-' :: s) (-(n : Int))

/-- A numeral: in hexadecimal digits if `0x` occurs in it (all occurrences are removed), in decimal digits otherwise. -/
def Numeral (neg : Bool) (s : Str) (v : Int) : Prop :=
  (contains c!"0x" s = true ∧ Signed neg hexDigits (remove0x s) v) ∨ (contains c!"0x" s = false ∧ Signed neg decDigits s v)

/-- The address of the symbol named `t`. -/
def symbol (syms : List (BitVec 32 × Str)) (t : Str) : Option (BitVec 32) := (syms.find? fun e => e.2 == t).map (·.1)

/-- The text `t` is read as the address `a`: a symbol, `0x` and hexadecimal digits, or decimal digits. -/
def Address (syms : List (BitVec 32 × Str)) (t : Str) (a : BitVec 32) : Prop :=
  symbol syms t = some a ∨ (symbol syms t = none ∧ ∃ n, n < 2 ^ 32 ∧ a = BitVec.ofNat 32 n ∧
    ((startsWith c!"0x" t = true ∧ Plus hexDigits (remove0x t) n) ∨ (startsWith c!"0x" t = false ∧ Digits decDigits t n)))

/-- The text `t` is taken as the name of a label: no symbol, and starting with an ASCII character that is no digit. -/
def LabelName (syms : List (BitVec 32 × Str)) (t : Str) : Prop :=
  symbol syms t = none ∧ ∃ c s, t = c :: s ∧ isAscii c = true ∧ isDigit c = false

/-- The text (no symbol) is empty or starts with a character that is not ASCII. -/
def Nothing (syms : List (BitVec 32 × Str)) (t : Str) : Prop := symbol syms t = none ∧ ∀ c s, t = c :: s → isAscii c = false

/-! ### Constants -/

/-- A place in a file: the build mode (overflow checks), the symbols, the lines of the file and the index of the line. -/
abbrev Place := Tame.Place

/-- A global label that may be referred to: not `@@name`, not starting with a digit (or another numeric character). -/
def Global [Unicode] (l : Str) : Prop := isLocal l = false ∧ ∃ c t, l = c :: t ∧ Unicode.isNumeric c = false

/-- The operand refers to a label: a local one, or a global one defined above. -/
def RefersTo [Unicode] (p : Place) (s : Str) : Prop := isLocal (trim s) = true ∨ (Global (trim s) ∧ ∃ d < p.k, Defines p.ls d (trim s))

/-- The text from the first opening to the last closing parenthesis of the operand is `(m)`. -/
def Group (s m : Str) : Prop := ∃ a b, trim s = a ++ '(' :: m ++ ')' :: b ∧ '(' ∉ a ∧ ')' ∉ b

/-- The text without its parentheses. -/
def bare (m : Str) : Str := m.filter fun c => !(c == '(' || c == ')')

/-- The ranges of constants: whether a minus sign may be written, the least and the greatest value. -/
structure Range where
  neg : Bool
  lo : Int
  hi : Int
  deriving DecidableEq

def simm : Range := ⟨true, -32768, 32767⟩
def uimm : Range := ⟨false, 0, 65535⟩
def addr : Range := ⟨false, 0, 4294967295⟩
def wide : Range := ⟨true, -9223372036854775808, 9223372036854775807⟩

/-- The operand has the value `v`: a numeral in the range, or the upper or lower half of an address in parentheses (whatever stands
between `%hi` or `%lo` and the parenthesis).  With overflow checks, `%hi` needs an address below 0xFFFF8000. -/
inductive Value (p : Place) (r : Range) (s : Str) : Int → Prop
  | num (v : Int) : (∀ m, ¬ Group s m) → Numeral r.neg (trim s) v → r.lo ≤ v → v ≤ r.hi → Value p r s v
  | hi (m t : Str) (a : BitVec 32) : Group s m → Address p.syms (bare m) a → trim s = c!"%hi" ++ t →
      (p.ovf = true → a.toNat < 0xFFFF8000) → Value p r s (((a.toNat + 0x8000) / 0x10000 % 0x10000 : Nat) : Int)
  | lo (m t : Str) (a : BitVec 32) : Group s m → Address p.syms (bare m) a → trim s = c!"%lo" ++ t →
      Value p r s ((a.toNat % 0x10000 : Nat) : Int)

/-- The operand is in parentheses, and the text in them is empty or the name of a label, or it is an address and not the operand of
`%hi` or `%lo`, or `%hi` overflows. -/
def Breaks (p : Place) (s : Str) : Prop :=
  ∃ m, Group s m ∧ (Nothing p.syms (bare m) ∨ LabelName p.syms (bare m) ∨ ∃ a, Address p.syms (bare m) a ∧
    (∀ t, trim s = c!"%hi" ++ t → p.ovf = true ∧ 0xFFFF8000 ≤ a.toNat) ∧ (∀ t, trim s ≠ c!"%lo" ++ t))

/-! ### Addresses in memory -/

/-- The text between the parentheses of the last group `(..)` of the operand; a group ends at the first closing parenthesis. -/
def BaseGroup (s m : Str) : Prop :=
  ∃ u v, s = u ++ '(' :: m ++ ')' :: v ∧ ')' ∉ m ∧ (∀ a b, u = a ++ '(' :: b → ')' ∈ b) ∧ ∀ a b, v = a ++ '(' :: b → ')' ∉ b

/-- The text in front of the last opening parenthesis, unless it is empty. -/
def Offset (s o : Str) : Prop := o ≠ [] ∧ ∃ v, s = o ++ '(' :: v ∧ '(' ∉ v

/-! ### Steps -/

/-- The text `s` is taken as a general-purpose register. -/
def IsGpr [Unicode] (s : Str) : Prop := ∃ r, Taken GprTaken s r

/-- The text contains `r` and a digit, but is not letters `r` and a number. -/
def BadGpr [Unicode] (s : Str) : Prop :=
  RDigit s ∧ ∀ p q k j t n, s = p ++ (List.replicate k '$' ++ (List.replicate j 'r' ++ t)) ++ q → (∀ c ∈ p, isWs c = true) →
    (∀ c ∈ q, isWs c = true) → Digits decDigits t n → 2 ^ 32 ≤ n

/-- The shift amount is the 32-bit number `v`, in decimal digits if it ends in a back quote (which is ignored). -/
def ShiftIs (s : Str) (v : Int) : Prop :=
  -2147483648 ≤ v ∧ v ≤ 2147483647 ∧
    (((endsWith '`' (trim s) = true ∨ contains c!"0x" (trim s) = false) ∧ ∃ k t, trim s = t ++ List.replicate k '`' ∧ Signed true decDigits t v) ∨
     (endsWith '`' (trim s) = false ∧ contains c!"0x" (trim s) = true ∧ Signed true hexDigits (remove0x (trim s)) v))

/-- The text is a shift amount. -/
def ShiftAmount (s : Str) : Prop := ∃ v, ShiftIs s v

/-- The steps of reading an instruction. -/
inductive Step
  /-- a register; `strict`: of a load, store or `cache` -/
  | gpr (strict : Bool) (s : Str)
  | fpr (s : Str)
  | c0 (s : Str)
  /-- the base register of an address -/
  | base (strict : Bool) (s : Str)
  /-- the offset of an address; `strip`: of a floating-point load or store -/
  | offset (strip : Bool) (s : Str)
  /-- a number or a label -/
  | const (r : Range) (s : Str)
  /-- a number -/
  | number (r : Range) (s : Str)
  /-- the code of `break` and `syscall` -/
  | code (s : Str)
  /-- the number of `li` and `liu` -/
  | word32 (s : Str)
  /-- the operation of `cache` -/
  | cop (s : Str)
  | shamt (s : Str)
  | target (s : Str)
  /-- the mnemonic -/
  | name (w : Str)
  /-- the mnemonic of a floating-point instruction -/
  | fname (w : Str)
  /-- the format and the condition of a floating-point comparison -/
  | format (w : Str)
  | cond (w : Str)
  /-- a mnemonic that is too short -/
  | short
  deriving DecidableEq

/-- The step reads its text. -/
def Reads [Unicode] (p : Place) : Step → Prop
  | .gpr _ s => IsGpr s
  | .fpr s => ∃ r, Taken FprTaken s r
  | .c0 s => ∃ r, Taken C0Taken s r
  | .base _ s => ∃ m, BaseGroup s m ∧ IsGpr (trim (bare m))
  | .offset strip s => ∀ o, Offset s o → RefersTo p (if strip then o.filter (fun c => !(c == '(')) else o) ∨
      ∃ v, Value p simm (if strip then o.filter (fun c => !(c == '(')) else o) v
  | .const r s => RefersTo p s ∨ ∃ v, Value p r s v
  | .number r s => ¬ RefersTo p s ∧ ∃ v, Value p r s v
  | .code s => s = [] ∨ (¬ RefersTo p s ∧ ∃ v, Value p uimm s v)
  | .word32 s => ¬ RefersTo p s ∧ ∃ v, Value p wide s v ∧ 0 ≤ v ∧ v ≤ 4294967295
  | .cop s => ¬ RefersTo p s ∧ ∃ v, Value p uimm s v ∧ v < 32
  | .shamt s => ShiftAmount s
  | .target s => (∃ a, Address p.syms (trim s) a) ∨ LabelName p.syms (trim s)
  | .name w => trim w = w ∧ ∀ c ∈ w, isAscii c = true
  | .fname w => ∃ sig, (w.map asciiLower, sig) ∈ signatures
  | .format w => ∃ c, w.getLast? = some c ∧ (asciiLower c = 's' ∨ asciiLower c = 'd')
  | .cond w => ∃ c, (split '.' w)[1]? = some c ∧ c.map asciiLower ∈ conds
  | .short => False

/-- The step ends the program. -/
def Crashes [Unicode] (p : Place) : Step → Prop
  | .gpr strict s => if strict then ¬ IsGpr s else BadGpr s
  | .fpr _ => False
  | .c0 _ => False
  | .base strict s => (∀ m, ¬ BaseGroup s m) ∨ ∃ m, BaseGroup s m ∧ if strict then ¬ IsGpr (trim (bare m)) else BadGpr (trim (bare m))
  | .offset strip s => ∃ o, Offset s o ∧ ¬ RefersTo p (if strip then o.filter (fun c => !(c == '(')) else o) ∧
      Breaks p (if strip then o.filter (fun c => !(c == '(')) else o)
  | .const _ s => ¬ RefersTo p s ∧ Breaks p s
  | .number _ s => RefersTo p s ∨ Breaks p s
  | .code s => s ≠ [] ∧ (RefersTo p s ∨ Breaks p s)
  | .word32 s => RefersTo p s ∨ Breaks p s
  | .cop s => RefersTo p s ∨ Breaks p s ∨ ∃ v, Value p uimm s v ∧ 32 ≤ v
  | .shamt s => ¬ ShiftAmount s
  | .target s => Nothing p.syms (trim s)
  | .name w => ¬ (trim w = w ∧ ∀ c ∈ w, isAscii c = true)
  | .fname w => ∀ sig, (w.map asciiLower, sig) ∉ signatures
  | .format w => ∀ c, w.getLast? = some c → asciiLower c ≠ 's' ∧ asciiLower c ≠ 'd'
  | .cond _ => False
  | .short => True

/-- Reading stops at the first step that does not read its text, and that one ends the program. -/
def Stops [Unicode] (p : Place) : List Step → Prop
  | [] => False
  | s :: ss => Crashes p s ∨ (Reads p s ∧ Stops p ss)

/-! ### Lines -/

/-- The steps of reading the operands of the mnemonic `mn`, written `w`. -/
def steps (mn w : Str) : List Role → List Str → List Step
  | [.mem], [s] => [.base (decide (mn ∈ memNames)) s, .name w, .offset (decide (mn ∉ memNames)) s]
  | [.simm], [s] => [.name w, .const simm s]
  | [.uimm], [s] => [.name w, .const (if mn ∈ [c!"andi", c!"ori", c!"xori"] ∧ w ≠ mn then simm else uimm) s]
  | [.wide], [s] => if mn = c!"dli" then [.name w, .const wide s] else [.word32 s, .name w]
  | [.addr], [s] => [.const addr s, .name w]
  | [.shamt], [s] => [.name w, .shamt s]
  | [.code], [s] => [.code s, .name w]
  | [.target], [s] => [.target s, .name w]
  | .gpr :: rs, s :: ss => .gpr (decide (mn ∈ memNames)) s :: steps mn w rs ss
  | .fpr :: rs, s :: ss => .fpr s :: steps mn w rs ss
  | .c0 :: rs, s :: ss => .c0 s :: steps mn w rs ss
  | .cop :: rs, s :: ss => .cop s :: steps mn w rs ss
  | _, _ => [.name w]

/-- Stems of the floating-point instructions with three operands, and with two. -/
def stems3 : List Str := [c!"add", c!"sub", c!"mul", c!"div"]
def stems2 : List Str :=
  [c!"abs", c!"ceil.l", c!"ceil.w", c!"cvt.d", c!"cvt.l", c!"cvt.s", c!"cvt.w", c!"floor.l", c!"floor.w", c!"mov", c!"neg",
   c!"round.l", c!"round.w", c!"sqrt", c!"trunc.l", c!"trunc.w"]

/-- The word in lower case without two characters at the end: two bytes (of UTF-8) fewer than the word is long, if these are there and
end between two characters. -/
def stem [Unicode] (w : Str) : Option Str := if byteLen w < 2 then none else takeBytes (Unicode.lower w) (byteLen w - 2)

/-- The steps of a line whose first word `w` is no mnemonic of the integer instructions; `none` if they are refused straight away. -/
def floatPlan [Unicode] (w : Str) (ops : List Str) : Option (List Step) :=
  match stem w with
  | none => some [.short]
  | some st =>
    if st ∈ stems3 then
      if ops.length = 3 then some (ops.map .fpr ++ [.fname w]) else none
    else if st ∈ stems2 then
      if ops.length = 2 then some (ops.map .fpr ++ [.fname w]) else none
    else if st.take 2 = c!"c." then
      if ops.length = 2 then some (ops.map .fpr ++ [.format w, .cond w]) else none
    else none

/-- The operands of the integer mnemonics. -/
def intSignatures : List (Str × List Role) := signatures.filter fun e => !(e.1.contains '.')

/-- The steps of the line with the text `s`; `none` if it is refused straight away: an unknown mnemonic or a wrong number of operands. -/
def plan [Unicode] (s : Str) : Option (List Step) :=
  let w := firstWord s
  let mn := mnemonic s
  if mn ∈ Names.none then some [.name w]
  else if mn = c!".word" then some [.number addr (operandText s)]
  else if intSignatures.any (fun e => e.1 == mn) then
    (intSignatures.find? fun e => e.1 == mn && e.2.length == (operands s).length).map fun e => steps mn w e.2 (operands s)
  else floatPlan w (operands s)

/-- The line ends the program. -/
def LineCrashes [Unicode] (p : Place) (raw : Str) : Prop :=
  match kind raw with
  | .blank => False
  | .label l => l = []
  | .code => ∃ st, plan (body raw) = some st ∧ Stops p st

/-- The line is taken. -/
def LineTaken [Unicode] (p : Place) (raw : Str) : Prop :=
  match kind raw with
  | .blank => True
  | .label l => (∃ c t, l = c :: t ∧ Unicode.isNumeric c = false) ∧ (isLocal l = false → ∀ d < p.k, ¬ Defines p.ls d l)
  | .code => ∃ st, plan (body raw) = some st ∧ ∀ s ∈ st, Reads p s

/-! ### Files -/

/-- A source file, with the build mode (overflow checks), the base address and the symbols. -/
structure File where
  ovf : Bool
  base : BitVec 32
  syms : List (BitVec 32 × Str)
  ls : List Str

/-- Line `k` of the file. -/
def File.place (f : File) (k : Nat) : Place := ⟨f.ovf, f.syms, f.ls, k⟩

/-- Some line ends the program. -/
def LineEnds [Unicode] (f : File) : Prop := ∃ k raw, f.ls[k]? = some raw ∧ LineCrashes (f.place k) raw

/-- All lines are taken. -/
def AllTaken [Unicode] (f : File) : Prop := ∀ k raw, f.ls[k]? = some raw → LineTaken (f.place k) raw

/-- Line `k` is an instruction that is taken, read in the steps `st`. -/
def Instr [Unicode] (f : File) (k : Nat) (st : List Step) : Prop :=
  ∃ raw, f.ls[k]? = some raw ∧ kind raw = .code ∧ plan (body raw) = some st ∧ ∀ s ∈ st, Reads (f.place k) s

/-- `n` of the first `k` lines are instructions that are taken. -/
inductive Counted [Unicode] (f : File) : Nat → Nat → Prop
  | none : Counted f 0 0
  | inst (k n : Nat) (st : List Step) : Counted f k n → Instr f k st → Counted f (k + 1) (n + 1)
  | other (k n : Nat) : Counted f k n → k < f.ls.length → (∀ st, ¬ Instr f k st) → Counted f (k + 1) n

/-- The address of the instruction with index `n` does not fit in 32 bits. -/
def NoRoom (f : File) (n : Nat) : Prop := 2 ^ 32 ≤ f.base.toNat + 4 * (n % 2 ^ 32)

/-- The constant of the instruction, if it may be a label: the last operand, or the offset of an address. -/
def Constant (st : List Step) (t : Str) : Prop :=
  (∃ r, .const r t ∈ st) ∨ ∃ strip s o, .offset strip s ∈ st ∧ Offset s o ∧ t = if strip then o.filter (fun c => !(c == '(')) else o

/-- The place to branch to is the number `v`. -/
def Number [Unicode] (p : Place) (t : Str) (v : Nat) : Prop :=
  ¬ RefersTo p t ∧ (∀ m, ¬ Group t m) ∧ Numeral false (trim t) v ∧ v ≤ 4294967295

/-- Line `d` is the first that defines the global label `l`. -/
def FirstDef [Unicode] (ls : List Str) (d : Nat) (l : Str) : Prop := Defines ls d l ∧ Global l ∧ ∀ d' < d, ¬ Defines ls d' l

/-- With overflow checks, a branch to a number ends the program if the end of the program has no address; so does a jump to a label
that has no address. -/
def Overflows [Unicode] (f : File) : Prop :=
  f.ovf = true ∧ ∃ k st t, Instr f k st ∧
    ((.const addr t ∈ st ∧ (∃ v, Number (f.place k) t v) ∧ ∃ n, Counted f f.ls.length n ∧ NoRoom f n) ∨
     (.target t ∈ st ∧ LabelName f.syms (trim t) ∧ ∃ d n, FirstDef f.ls d (trim t) ∧ Counted f d n ∧ NoRoom f n))

/-- A place that cannot be found: a local label without a definition that can be chosen (or in a file without closed scope), a jump
to a label that is not defined, a branch to a number outside of the program. -/
def BadPlace [Unicode] (f : File) : Prop :=
  ∃ k st t, Instr f k st ∧
    ((Constant st t ∧ isLocal (trim t) = true ∧ ¬ (HasClosedScope f.ls ∧ ∃ d, Chosen f.ls k d (trim t))) ∨
     (.target t ∈ st ∧ LabelName f.syms (trim t) ∧ ∀ d, ¬ FirstDef f.ls d (trim t)) ∨
     (.const addr t ∈ st ∧ ∃ v, Number (f.place k) t v ∧ (v < f.base.toNat ∨ (f.base.toNat + 4 * codeCount f.ls) % 2 ^ 32 < v)))

/-- The distance that a branch is given: instructions to a label, a quarter of the difference of a number and the index of the next
instruction, or half of an address. -/
inductive Distance [Unicode] (f : File) (k : Nat) (t : Str) : Int → Prop
  | «local» (d : Nat) : isLocal (trim t) = true → Chosen f.ls k d (trim t) →
      Distance f k t ((codeCount (f.ls.take d) : Int) - (codeCount (f.ls.take k) + 1))
  | label (d : Nat) : d < k → FirstDef f.ls d (trim t) → Distance f k t ((codeCount (f.ls.take d) : Int) - (codeCount (f.ls.take k) + 1))
  | number (v : Nat) : Number (f.place k) t v → Distance f k t (((v : Int) - (codeCount (f.ls.take k) + 1)).tdiv 4)
  | half (m : Str) (v : Int) : ¬ RefersTo (f.place k) t → Group t m → Value (f.place k) addr t v → Distance f k t v

/-- A `.word`; or, with overflow checks, a compare-and-branch over the distance 0 (in 16 bits). -/
def NoCode [Unicode] (f : File) : Prop :=
  ∃ k raw, f.ls[k]? = some raw ∧ kind raw = .code ∧
    (mnemonic (body raw) = c!".word" ∨
     (f.ovf = true ∧ mnemonic (body raw) ∈ cmpBranchNames ∧ ∃ st t o, Instr f k st ∧ .const addr t ∈ st ∧ Distance f k t o ∧ o % 65536 = 0))

/-- The assembler panics. -/
def Panics [Unicode] (f : File) : Prop := LineEnds f ∨ Overflows f ∨ (AllTaken f ∧ ¬ BadPlace f ∧ NoCode f)

/-- The assembler returns errors. -/
def Refused [Unicode] (f : File) : Prop := ¬ LineEnds f ∧ ¬ Overflows f ∧ (¬ AllTaken f ∨ BadPlace f)

/-- The assembler returns code. -/
def Accepted [Unicode] (f : File) : Prop := AllTaken f ∧ ¬ Overflows f ∧ ¬ BadPlace f ∧ ¬ NoCode f

end Mips.Lang
