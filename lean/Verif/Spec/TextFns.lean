/-
SPECIFICATION (not a model of the code): what the text functions of the standard library do, for C84.  These functions are the
vocabulary that the model shares with other specifications.
-/
import Verif.Spec.Anatomy
import Verif.Spec.Syntax
import Verif.Model.Num

namespace Mips.TextFns
open Mips.Anatomy (White)

/-- `t` is `s` without the white space at both ends. -/
def Trimmed (s t : Str) : Prop :=
  ∃ p q, s = p ++ t ++ q ∧ (∀ c ∈ p, White c) ∧ (∀ c ∈ q, White c) ∧ (∀ c u, t = c :: u → ¬ White c) ∧ ∀ u c, t = u ++ [c] → ¬ White c

/-- `ps` are the pieces of `s` between the characters `ch`. -/
def Pieces (ch : Char) (s : Str) (ps : List Str) : Prop := ps ≠ [] ∧ (∀ p ∈ ps, ch ∉ p) ∧ [ch].intercalate ps = s

/-- `pat` occurs in `s` behind `a`. -/
def OccursBehind (pat s a : Str) : Prop := ∃ b, s = a ++ pat ++ b

/-- `t` is `s` without all occurrences of `pat`: what stands between them, put together. -/
def Without (pat s t : Str) : Prop := ∃ ps, ps ≠ [] ∧ (∀ p ∈ ps, ∀ a, ¬ OccursBehind pat p a) ∧ pat.intercalate ps = s ∧ ps.flatten = t

/-- The number of bytes of a character in UTF-8. -/
def charBytes (c : Char) : Nat := if c.toNat < 0x80 then 1 else if c.toNat < 0x800 then 2 else if c.toNat < 0x10000 then 3 else 4

/-- The number of bytes of a text in UTF-8. -/
def bytes (s : Str) : Nat := (s.map charBytes).sum

/-- The digits of the two notations. -/
def digitsOf : Nat → Str
  | 10 => Syntax.decDigits
  | _ => Syntax.hexDigits

/-- The text is an optional sign and digits, and has this value. -/
inductive Numeral (radix : Nat) : Str → Int → Prop
  | plain (ds : Str) (n : Nat) : Syntax.Digits (digitsOf radix) ds n → Numeral radix ds n
  | plus (ds : Str) (n : Nat) : Syntax.Digits (digitsOf radix) ds n → Numeral radix ('+' :: ds) n
  | minus (ds : Str) (n : Nat) : Syntax.Digits (digitsOf radix) ds n → Numeral radix ('-' :: ds) (-n)

/-- The values of an integer type. -/
def InType : IntTy → Int → Prop
  | .u16, v => 0 ≤ v ∧ v < 2 ^ 16
  | .i16, v => -2 ^ 15 ≤ v ∧ v < 2 ^ 15
  | .u32, v => 0 ≤ v ∧ v < 2 ^ 32
  | .i32, v => -2 ^ 31 ≤ v ∧ v < 2 ^ 31
  | .i64, v => -2 ^ 63 ≤ v ∧ v < 2 ^ 63

/-- The unsigned types take no minus sign, not even in front of 0. -/
def SignOk (ty : IntTy) (s : Str) : Prop := ty = .u16 ∨ ty = .u32 → ∀ t, s ≠ '-' :: t

end Mips.TextFns
