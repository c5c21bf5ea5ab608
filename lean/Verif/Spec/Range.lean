/-
SPECIFICATION (not a model of the code): the range of values of the numeric operands of each mnemonic.  Refers only to
character-level definitions.
-/
import Verif.Spec.Operands
import Verif.Spec.Case
import Verif.Spec.Program

namespace Mips.Operands
open Mips.Isa Mips.Syntax Mips.Source Mips.Branch Mips.Names

/-- The least and the greatest value of a numeric operand of the given kind: signed 16 bits for constants and offsets of
addresses, unsigned 16 bits for logical constants, `lui` and codes, unsigned 32 bits for the addresses of branches and for `li`,
signed 64 bits for `dli`. -/
def range (mn : Str) : Role → Option (Int × Int)
  | .simm | .mem => some (-32768, 32767)
  | .uimm | .code => some (0, 65535)
  | .addr => some (0, 4294967295)
  | .wide => if mn = c!"dli" then some (-9223372036854775808, 9223372036854775807) else some (0, 4294967295)
  | _ => Option.none

/-- `v` is the value of the operand text `s`: a numeral with white space around; for an address the number in front of the
base register. -/
inductive Value : Role → Str → Int → Prop
  | num (role : Role) (s : Str) (v : Int) : role ≠ .mem → PNum s v → Value role s v
  | mem (o b q : Str) (v : Int) (r : BitVec 5) : PNum o v → Reg GprCore b r → Blank q → Value .mem (o ++ '(' :: b ++ ')' :: q) v

/-- An operand in front of the numeric one is in order: a register in a regular spelling, or an operation of `cache` from 0 to 31. -/
def Fine : Role → Str → Prop
  | .gpr, s => ∃ r, Reg GprCore s r
  | .fpr, s => ∃ r, Reg FprCore s r
  | .c0, s => ∃ r, Reg C0Core s r
  | .cop, s => ∃ n : Nat, n < 32 ∧ PNum s n
  | _, _ => False

/-- An instruction line in regular spelling whose last operand, of kind `role`, is the number `v`. -/
structure NumberLine (raw mn : Str) (role : Role) (v : Int) : Prop where
  code : kind raw = .code
  calls : Calls (body raw) mn
  logical : mn ∈ Case.logicalNames → firstWord (body raw) = mn
  ops : ∃ roles texts s, (mn, roles ++ [role]) ∈ signatures ∧ operands (body raw) = texts ++ [s] ∧ texts.length = roles.length ∧
    (∀ (i : Nat) r t, roles[i]? = some r → texts[i]? = some t → Fine r t) ∧ Value role s v

/-- Texts read as numbers: decimal digits, or hexadecimal digits if `0x` occurs (wherever it does), with an optional sign. -/
inductive Loose : Str → Int → Prop
  | dec (s t : Str) (n : Nat) : contains c!"0x" s = false → Digits decDigits t n → s = t ∨ s = '+' :: t → Loose s n
  | decNeg (t : Str) (n : Nat) : contains c!"0x" ('-' :: t) = false → Digits decDigits t n → Loose ('-' :: t) (-(n : Int))
  | hex (s t : Str) (n : Nat) : contains c!"0x" s = true → Digits hexDigits t n → remove0x s = t ∨ remove0x s = '+' :: t → Loose s n
  | hexNeg (s t : Str) (n : Nat) : contains c!"0x" s = true → Digits hexDigits t n → remove0x s = '-' :: t → Loose s (-(n : Int))

/-- What may stand for a number between `lo` and `hi` on line `k`: such a number; a local label; a global label defined on an
earlier line; the upper or lower half of an address, `%hi(..)` or `%lo(..)`. -/
inductive NumberTaken (ls : List Str) (k : Nat) (lo hi : Int) (s : Str) : Prop
  | number (v : Int) : Loose (trim s) v → lo ≤ v → v ≤ hi → NumberTaken ls k lo hi s
  | loc : isLocal (trim s) = true → NumberTaken ls k lo hi s
  | label (d : Nat) : d < k → Defines ls d (trim s) → NumberTaken ls k lo hi s
  | half (t : Str) : trim s = c!"%hi" ++ t ∨ trim s = c!"%lo" ++ t → '(' ∈ t → NumberTaken ls k lo hi s

/-- The text `s` may stand for a number where the mnemonic `mn` asks for one.  The operation of `cache` is a number from 0 to 31;
the code of `break` and `syscall` and the offset of an address may be left out. -/
def NumTakenAs (ls : List Str) (k : Nat) (mn : Str) : Role → Str → Prop
  | .cop, s => NumberTaken ls k 0 31 s
  | .code, s => s = [] ∨ NumberTaken ls k 0 65535 s
  | .mem, s => ∀ o b q, s = o ++ '(' :: b ++ ')' :: q → '\n' ∉ o → '(' ∉ o → (∀ c ∈ b, c ≠ '(' ∧ c ≠ ')' ∧ c ≠ '\n') → '(' ∉ q →
      o = [] ∨ NumberTaken ls k (-32768) 32767 o
  | role, s => ∀ lo hi, range mn role = some (lo, hi) → NumberTaken ls k lo hi s

/-- The field of the word `w` that holds the number `a` holds exactly `a`. -/
def Field (w : BitVec 32) : Arg → Prop
  | .simm v | .uimm v | .mem v _ => w.extractLsb' 0 16 = v
  | .code v => w.extractLsb' 6 20 = v
  | .sa v => w.extractLsb' 6 5 = v
  | .cop v => w.extractLsb' 16 5 = v
  | _ => True

end Mips.Operands
