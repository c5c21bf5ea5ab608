/-
SPECIFICATION (not a model of the code): how operands are written in source text.  Refers only to the
character-level definitions `Str`, `isWs` (Unicode white space) and `asciiLower`.
-/
import Verif.Spec.Isa

namespace Mips.Syntax
open Mips.Isa

/-- Only white space, on one line. -/
def Blank (s : Str) : Prop := ∀ c ∈ s, isWs c = true ∧ c ≠ '\n'

/-- Decimal digits, by value. -/
def decDigits : Str := c!"0123456789"
/-- Lower-case hexadecimal digits, by value. -/
def hexDigits : Str := c!"0123456789abcdef"

/-- `s` is a non-empty string of digits of base `b` (digit `k` is `ds[k]`, letter case ignored) with
value `n`. -/
inductive Digits (ds : Str) : Str → Nat → Prop
  | one (c : Char) (k : Nat) : ds[k]? = some (asciiLower c) → Digits ds [c] k
  | snoc (s : Str) (c : Char) (n k : Nat) : Digits ds s n → ds[k]? = some (asciiLower c) →
      Digits ds (s ++ [c]) (n * ds.length + k)

/-- An unsigned numeral: decimal digits, or `0x` followed by hexadecimal digits. -/
inductive UNum : Str → Nat → Prop
  | dec (s : Str) (n : Nat) : Digits decDigits s n → UNum s n
  | hex (s : Str) (n : Nat) : Digits hexDigits s n → UNum (c!"0x" ++ s) n

/-- A numeral with an optional sign.  (`-0` is left out.) -/
inductive Num : Str → Int → Prop
  | pos (s : Str) (n : Nat) : UNum s n → Num s n
  | plus (s : Str) (n : Nat) : UNum s n → Num ('+' :: s) n
  | neg (s : Str) (n : Nat) : UNum s n → 0 < n → Num ('-' :: s) (-(n : Int))

/-- The general-purpose registers' names, by number. -/
def gprNames : List Str :=
  [c!"zero", c!"at", c!"v0", c!"v1", c!"a0", c!"a1", c!"a2", c!"a3",
   c!"t0", c!"t1", c!"t2", c!"t3", c!"t4", c!"t5", c!"t6", c!"t7",
   c!"s0", c!"s1", c!"s2", c!"s3", c!"s4", c!"s5", c!"s6", c!"s7",
   c!"t8", c!"t9", c!"k0", c!"k1", c!"gp", c!"sp", c!"fp", c!"ra"]

/-- The floating-point registers' calling-convention names, by number. -/
def fprNames : List Str :=
  [c!"fv0", c!"fv0f", c!"fv1", c!"fv1f", c!"ft0", c!"ft0f", c!"ft1", c!"ft1f",
   c!"ft2", c!"ft2f", c!"ft3", c!"ft3f", c!"fa0", c!"fa0f", c!"fa1", c!"fa1f",
   c!"ft4", c!"ft4f", c!"ft5", c!"ft5f", c!"fs0", c!"fs0f", c!"fs1", c!"fs1f",
   c!"fs2", c!"fs2f", c!"fs3", c!"fs3f", c!"fs4", c!"fs4f", c!"fs5", c!"fs5f"]

/-- The names of the floating-point registers by number, `f0` to `f31`. -/
def fprNumNames : List Str :=
  [c!"f0", c!"f1", c!"f2", c!"f3", c!"f4", c!"f5", c!"f6", c!"f7", c!"f8", c!"f9", c!"f10", c!"f11",
   c!"f12", c!"f13", c!"f14", c!"f15", c!"f16", c!"f17", c!"f18", c!"f19", c!"f20", c!"f21", c!"f22",
   c!"f23", c!"f24", c!"f25", c!"f26", c!"f27", c!"f28", c!"f29", c!"f30", c!"f31"]

/-- The coprocessor 0 registers of the VR4300 that have a name. -/
def cop0Names : List (Nat × Str) :=
  [(0, c!"index"), (1, c!"random"), (2, c!"entrylo0"), (3, c!"entrylo1"), (4, c!"context"),
   (5, c!"pagemask"), (6, c!"wired"), (8, c!"badvaddr"), (9, c!"count"), (10, c!"entryhi"),
   (11, c!"compare"), (12, c!"status"), (13, c!"cause"), (14, c!"epc"), (15, c!"prid"),
   (16, c!"config"), (17, c!"lladdr"), (18, c!"watchlo"), (19, c!"watchhi"), (20, c!"xcontext"),
   (26, c!"parityerror"), (27, c!"cacheerror"), (28, c!"taglo"), (29, c!"taghi"), (30, c!"errorepc")]

/-- `a` is `b` up to the case of ASCII letters (`b` is given in lower case). -/
def SameName (a b : Str) : Prop := a.map asciiLower = b

/-- Core spellings of a general-purpose register: name, number, `r` and number. -/
inductive GprCore : Str → BitVec 5 → Prop
  | name (s n : Str) (r : BitVec 5) : gprNames[r.toNat]? = some n → SameName s n → GprCore s r
  | num (s : Str) (r : BitVec 5) : Digits decDigits s r.toNat → GprCore s r
  | rnum (s : Str) (r : BitVec 5) : Digits decDigits s r.toNat → GprCore ('r' :: s) r

/-- Core spellings of a floating-point register: ABI name, number, `f` and number. -/
inductive FprCore : Str → BitVec 5 → Prop
  | name (s n : Str) (r : BitVec 5) : fprNames[r.toNat]? = some n → SameName s n → FprCore s r
  | num (s : Str) (r : BitVec 5) : Digits decDigits s r.toNat → FprCore s r
  | fnum (s n : Str) (r : BitVec 5) : fprNumNames[r.toNat]? = some n → SameName s n → FprCore s r

/-- Core spellings of a (named) coprocessor 0 register: name, number. -/
inductive C0Core : Str → BitVec 5 → Prop
  | name (s n : Str) (r : BitVec 5) : (r.toNat, n) ∈ cop0Names → SameName s n → C0Core s r
  | num (s n : Str) (r : BitVec 5) : (r.toNat, n) ∈ cop0Names → Digits decDigits s r.toNat → C0Core s r

/-- A register: optional `$`, with white space around. -/
inductive Reg (core : Str → BitVec 5 → Prop) : Str → BitVec 5 → Prop
  | bare (p s q : Str) (r : BitVec 5) : Blank p → Blank q → core s r → Reg core (p ++ s ++ q) r
  | dollar (p s q : Str) (r : BitVec 5) : Blank p → Blank q → core s r → Reg core (p ++ '$' :: s ++ q) r

/-- A numeral with white space around. -/
inductive PNum : Str → Int → Prop
  | mk (p s q : Str) (v : Int) : Blank p → Blank q → Num s v → PNum (p ++ s ++ q) v

/-- `Spells s a`: the text `s` of an operand denotes `a`.  (Branch offsets and jump targets are written
as labels or addresses and are treated separately.) -/
inductive Spells : Str → Arg → Prop
  | gpr (s r) : Reg GprCore s r → Spells s (.gpr r)
  | fpr (s r) : Reg FprCore s r → Spells s (.fpr r)
  | c0 (s r) : Reg C0Core s r → Spells s (.c0 r)
  | sa (s) (v : BitVec 5) : PNum s v.toNat → Spells s (.sa v)
  | simm (s) (v : BitVec 16) : PNum s v.toInt → Spells s (.simm v)
  | uimm (s) (v : BitVec 16) : PNum s v.toNat → Spells s (.uimm v)
  | cop (s) (v : BitVec 5) : PNum s v.toNat → Spells s (.cop v)
  | code (s) (v : BitVec 20) : PNum s v.toNat → v.toNat < 0x10000 → Spells s (.code v)
  | mem (s b q) (v : BitVec 16) (r : BitVec 5) : PNum s v.toInt → Reg GprCore b r → Blank q →
      Spells (s ++ '(' :: b ++ ')' :: q) (.mem v r)
  | mem0 (b q) (r : BitVec 5) : Reg GprCore b r → Blank q →
      Spells ('(' :: b ++ ')' :: q) (.mem 0 r)

/-- The operand part of an instruction line: operands separated by commas. -/
inductive SpellsAll : Str → List Arg → Prop
  | one (s a) : Spells s a → SpellsAll s [a]
  | cons (s a t as) : Spells s a → SpellsAll t as → SpellsAll (s ++ ',' :: t) (a :: as)

end Mips.Syntax
