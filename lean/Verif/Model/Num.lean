/-
Model of Rust integer parsing (`FromStr`, `from_str_radix`) and integer formatting.
-/
import Verif.Model.Str

namespace Mips

/-- `char::to_digit(radix)` for radix 10 and 16. -/
def digitVal (radix : Nat) (c : Char) : Option Nat :=
  let n := c.toNat
  let d :=
    if 48 ≤ n ∧ n ≤ 57 then some (n - 48)
    else if 97 ≤ n ∧ n ≤ 122 then some (n - 87)
    else if 65 ≤ n ∧ n ≤ 90 then some (n - 55)
    else none
  match d with
  | some v => if v < radix then some v else none
  | none => none

/-- Accumulate digits most-significant first; `none` on a non-digit. -/
def parseDigits (radix : Nat) (acc : Nat) : Str → Option Nat
  | [] => some acc
  | c :: s => match digitVal radix c with
    | some d => parseDigits radix (acc * radix + d) s
    | none => none

/-- The Rust integer types used as `T` in `parse_immediate::<T>` and in the register/shift parsers. -/
inductive IntTy | u16 | i16 | u32 | i32 | i64
  deriving DecidableEq, Repr

/-- Smallest representable value. -/
def IntTy.min : IntTy → Int
  | .u16 => 0 | .u32 => 0 | .i16 => -32768 | .i32 => -2147483648 | .i64 => -9223372036854775808

/-- Largest representable value. -/
def IntTy.max : IntTy → Int
  | .u16 => 65535 | .u32 => 4294967295 | .i16 => 32767 | .i32 => 2147483647
  | .i64 => 9223372036854775807

/-- Whether the type is signed. -/
def IntTy.signed : IntTy → Bool
  | .u16 => false | .u32 => false | _ => true

/-- Range check at the end of integer parsing. -/
def IntTy.check (ty : IntTy) (v : Int) : Option Int :=
  if ty.min ≤ v ∧ v ≤ ty.max then some v else none

/-- `T::from_str_radix(s, radix)` / `s.parse::<T>()` (radix 10), `Err` is `none`.
Rust: empty -> error; a lone sign -> error; `+` always allowed, `-` only for signed types;
an out-of-range value is an error (Rust detects it during accumulation, with the same outcome). -/
def fromStrRadix (ty : IntTy) (radix : Nat) : Str → Option Int
  | [] => none
  | ['+'] => none
  | ['-'] => none
  | '+' :: ds => (parseDigits radix 0 ds).bind fun n => ty.check (n : Int)
  | '-' :: ds =>
    if ty.signed then (parseDigits radix 0 ds).bind fun n => ty.check (-(n : Int)) else none
  | ds => (parseDigits radix 0 ds).bind fun n => ty.check (n : Int)

/-- One digit of `{:x}` (lower case) output. -/
def hexChar (n : Nat) : Char :=
  if n < 10 then Char.ofNat (48 + n) else Char.ofNat (87 + n)

/-- One digit of `{:X}` (upper case) output. -/
def hexCharU (n : Nat) : Char :=
  if n < 10 then Char.ofNat (48 + n) else Char.ofNat (55 + n)

/-- Digits of `n` in base `b`, most significant first, at least one digit.
`fuel` bounds the number of digits; `n + 1` always suffices. -/
def digitsAux (b : Nat) (f : Nat → Char) : Nat → Nat → Str
  | 0, n => [f n]
  | fuel + 1, n => if n < b then [f n] else digitsAux b f fuel (n / b) ++ [f (n % b)]

/-- Digits of `n` in base `b`. -/
def digitsWith (b : Nat) (f : Nat → Char) (n : Nat) : Str := digitsAux b f (n + 1) n

/-- `format!("{:x}", n)`. -/
def hexLower (n : Nat) : Str := digitsWith 16 hexChar n
/-- `format!("{:X}", n)`. -/
def hexUpper (n : Nat) : Str := digitsWith 16 hexCharU n
/-- `n.to_string()`. -/
def decimal (n : Nat) : Str := digitsWith 10 hexChar n

/-- Left-pad with zeros to `w` characters (`{:0w}`). -/
def zeroPad (w : Nat) (s : Str) : Str := List.replicate (w - s.length) '0' ++ s

/-- `{:w}` for strings: pad on the right with spaces to `w` chars. -/
def padRight (w : Nat) (s : Str) : Str := s ++ List.replicate (w - s.length) ' '

end Mips
