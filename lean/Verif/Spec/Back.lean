/-
SPECIFICATION (not a model of the code): the words whose printed text the assembler's notation can express.
-/
import Verif.Spec.Columns

namespace Mips.Listing
open Mips.Isa Mips.Syntax

/-- A name that can stand as an operand: not empty, no white space, none of the characters with a meaning of their own. -/
def Plain (name : Str) : Prop := name ≠ [] ∧ ∀ c ∈ name, isWs c = false ∧ c ≠ ';' ∧ c ≠ '/' ∧ c ≠ ':' ∧ c ≠ ','

/-- The operand is read back as it is printed, with symbol table `syms`: not a branch offset (which is printed as an offset but
read as an address), not the signed value 32767 (printed as -32767), a `break` code of 16 bits, a named coprocessor 0 register,
a jump to the lowest 64 MB of the region - to a plain symbol that denotes only this address, if there is a symbol there, and
otherwise one that is no symbol's name. -/
def Readable (syms : List (BitVec 32 × Str)) (base : BitVec 32) : Arg → Prop
  | .off _ => False
  | .simm v => v ≠ 0x7FFF
  | .mem v _ => v ≠ 0x7FFF
  | .code v => v.toNat < 0x10000
  | .c0 r => (c0Names.lookup r.toNat).isSome = true
  | .target t => t.toNat < 2 ^ 24 ∧ match syms.lookup (jumpAddr base t) with
    | some name => Plain name ∧ ∀ e ∈ syms, e.2 = name → e.1 = jumpAddr base t
    | none => ∀ e ∈ syms, e.2 ≠ hexTextU (jumpAddr base t).toNat
  | _ => True

/-- The word is the canonical encoding of an instruction all of whose operands are readable. -/
def Returns (syms : List (BitVec 32 × Str)) (base w : BitVec 32) : Prop :=
  ∃ mn args, decoding w = some (mn, args) ∧ encoding mn args = some w ∧ ∀ a ∈ args, Readable syms base a

/-- The name that is printed for an address without a symbol. -/
def funcName (a : BitVec 32) : Str := c!"func_" ++ (hex8 a).drop 2

/-- The symbols can be printed as labels: plain names that do not start like a number, one address for each; the name `func_...`
only for the address it is made of. -/
structure LabelSyms (syms : List (BitVec 32 × Str)) : Prop where
  plain : ∀ e ∈ syms, Plain e.2
  head : ∀ e ∈ syms, ∃ c t, e.2 = c :: t ∧ isAscii c = true ∧ isDigit c = false ∧ c ≠ '+' ∧ c ≠ '-'
  unique : ∀ e ∈ syms, ∀ e' ∈ syms, e.2 = e'.2 → e.1 = e'.1
  func : ∀ e ∈ syms, ∀ a, e.2 = funcName a → e.1 = a

/-- A floating-point comparison that is printed with a tab. -/
def Tabbed (w : BitVec 32) : Prop := ∃ mn args, decoding w = some (mn, args) ∧ '\t' ∈ gap mn

/-- The ways to make one text of lines: line feeds between the lines, or one behind every line. -/
def AsText (out : List Str) (text : Str) : Prop := text = ['\n'].intercalate out ∨ text = out.flatMap (· ++ ['\n'])

end Mips.Listing
