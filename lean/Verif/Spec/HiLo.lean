/-
SPECIFICATION (not a model of the code): the operands `%hi(x)` and `%lo(x)`, and the lines that use them.
-/
import Verif.Spec.Program

namespace Mips.HiLo
open Mips.Isa Mips.Syntax Mips.Source

/-- `Names syms t x`: the text `t` denotes the 32-bit address `x`, being a symbol at `x` or a numeral of that value. -/
inductive Names (syms : List (BitVec 32 × Str)) : Str → BitVec 32 → Prop
  | sym (t : Str) (x : BitVec 32) : (x, t) ∈ syms → (∀ c ∈ t, c ≠ '(' ∧ c ≠ ')' ∧ c ≠ ',' ∧ c ≠ '\n') → Names syms t x
  | num (t : Str) (n : Nat) : UNum t n → n < 2 ^ 32 → (∀ e ∈ syms, e.2 ≠ t) → Names syms t (BitVec.ofNat 32 n)

/-- `s` is `f(t)` with white space around, where `t` denotes `x`; `f` is `%hi` or `%lo`. -/
def Half (syms : List (BitVec 32 × Str)) (f s : Str) (x : BitVec 32) : Prop :=
  ∃ p t q, Blank p ∧ Blank q ∧ s = p ++ (f ++ '(' :: (t ++ [')'])) ++ q ∧ Names syms t x

/-- `s` is the instruction `lui r, %hi(x)`. -/
def HiText (syms : List (BitVec 32 × Str)) (s : Str) (r : BitVec 5) (x : BitVec 32) : Prop :=
  ∃ mn' a b, s = mn' ++ ' ' :: (a ++ ',' :: b) ∧ SameName mn' c!"lui" ∧ Reg GprCore a r ∧ Half syms c!"%hi" b x

/-- `s` is an instruction `mn` one of whose operands is `%lo(x)`; its operands are `args l` when `%lo(x)` is `l`:
`addiu rt, rs, %lo(x)` and the other instructions with a signed immediate, `lw rt, %lo(x)(base)` and the other loads and stores
of general-purpose registers. -/
inductive LoText (syms : List (BitVec 32 × Str)) (x : BitVec 32) : Str → Str → (BitVec 16 → List Arg) → Prop
  | arith (mn' mn a b c : Str) (rt rs : BitVec 5) : SameName mn' mn →
      mn ∈ [c!"addi", c!"addiu", c!"daddi", c!"daddiu", c!"slti", c!"sltiu"] →
      Reg GprCore a rt → Reg GprCore b rs → Half syms c!"%lo" c x →
      LoText syms x (mn' ++ ' ' :: (a ++ ',' :: (b ++ ',' :: c))) mn (fun l => [.gpr rt, .gpr rs, .simm l])
  | mem (mn' mn a c b q : Str) (rt base : BitVec 5) : SameName mn' mn →
      mn ∈ [c!"lb", c!"lbu", c!"ld", c!"ldl", c!"ldr", c!"lh", c!"lhu", c!"ll", c!"lld", c!"lw", c!"lwl", c!"lwr", c!"lwu",
            c!"sb", c!"sc", c!"scd", c!"sd", c!"sdl", c!"sdr", c!"sh", c!"sw", c!"swl", c!"swr"] →
      Reg GprCore a rt → Half syms c!"%lo" c x → Reg GprCore b base → Blank q →
      LoText syms x (mn' ++ ' ' :: (a ++ ',' :: (c ++ '(' :: b ++ ')' :: q))) mn (fun l => [.gpr rt, .mem l base])

/-- The address that `lui` with the immediate `h` and a signed 16-bit offset `l` add up to. -/
def address (h l : BitVec 16) : BitVec 32 := (h ++ 0#16) + l.signExtend 32

/-- No global label of the file contains a parenthesis. -/
def NoParenLabel (ls : List Str) : Prop := ∀ e ∈ globals ls, '(' ∉ e.1

end Mips.HiLo
