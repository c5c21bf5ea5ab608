/-
SPECIFICATION (not a model of the code): symbols that stand for labels of the program.
-/
import Verif.Spec.Context

namespace Mips.Export
open Mips.Source Mips.Lang
open Mips.Context (Mentioned)

/-- The address of line `d`: 4 bytes for every instruction above it. -/
def addressOf (base : BitVec 32) (ls : List Str) (d : Nat) : BitVec 32 := base + BitVec.ofNat 32 (4 * codeCount (ls.take d))

/-- The text is a symbol of the second table only. -/
def New (syms syms' : List (BitVec 32 × Str)) (t : Str) : Prop := symbol syms t = none ∧ symbol syms' t ≠ none

/-- The second table has the symbols of the first, and besides only labels of the program, with their addresses. -/
def Extends [Unicode] (base : BitVec 32) (ls : List Str) (syms syms' : List (BitVec 32 × Str)) : Prop :=
  ∀ t, symbol syms' t = symbol syms t ∨ (symbol syms t = none ∧ ∃ d, FirstDef ls d t ∧ symbol syms' t = some (addressOf base ls d))

/-- The new symbols start with an ASCII character, and occur in parentheses (as in `%hi(name)`) in no line. -/
structure JumpsOnly [Unicode] (ls : List Str) (syms syms' : List (BitVec 32 × Str)) : Prop where
  ascii : ∀ c t, New syms syms' (c :: t) → isAscii c = true
  halves : ∀ raw ∈ ls, ∀ st t m, plan (body raw) = some st → Mentioned st t → Group t m → ¬ New syms syms' (bare m)

end Mips.Export
