/-
SPECIFICATION (not a model of the code): how instructions are written on a line, and what a program of
such lines should assemble to.
-/
import Verif.Spec.Syntax
import Verif.Spec.Source

namespace Mips.Syntax
open Mips.Isa Mips.Source

/-- `InstrText s mn args`: the text `s` of an instruction line is the instruction `mn args`.
A mnemonic may be written in any letter case, followed by one space and the operands; `nop` stands for
`sll $zero, $zero, 0`, `jalr rs` for `jalr $ra, rs`, and `break`/`syscall` without an operand have code 0.
(`andi`, `ori`, `xori` are required to be in lower case, see C21.) -/
inductive InstrText : Str → Str → List Arg → Prop
  | args (mn' mn text : Str) (as : List Arg) : SameName mn' mn →
      (mn = c!"andi" ∨ mn = c!"ori" ∨ mn = c!"xori" → mn' = mn) →
      SpellsAll text as → InstrText (mn' ++ ' ' :: text) mn as
  | bare (mn' mn : Str) : SameName mn' mn → InstrText mn' mn []
  | code0 (mn' mn : Str) : SameName mn' mn → mn = c!"break" ∨ mn = c!"syscall" → InstrText mn' mn [.code 0]
  | nop (mn' : Str) : SameName mn' c!"nop" → InstrText mn' c!"sll" [.gpr 0, .gpr 0, .sa 0]
  | jalr (mn' text : Str) (rs : BitVec 5) : SameName mn' c!"jalr" → Reg GprCore text rs →
      InstrText (mn' ++ ' ' :: text) c!"jalr" [.gpr 31, .gpr rs]

/-- `ConstText s mn r n`: the text `s` is `mn r, n` with an integer operand `n` of any size, as in `li $t0, 0x12345678`. -/
def ConstText (s mn : Str) (r : BitVec 5) (n : Int) : Prop :=
  ∃ mn' a b, s = mn' ++ ' ' :: (a ++ ',' :: b) ∧ SameName mn' mn ∧ Reg GprCore a r ∧ PNum b n

/-- No global label of the file is spelled like a numeral (such as `-5:`). -/
def NoNumeralLabel (ls : List Str) : Prop := ∀ e ∈ globals ls, ∀ v, ¬ Num e.1 v

/-- A program of native instructions and the words it stands for, in order. -/
inductive NativeProg : List Str → List (BitVec 32) → Prop
  | nil : NativeProg [] []
  | blank (raw : Str) (ls : List Str) (ws : List (BitVec 32)) : kind raw = .blank → NativeProg ls ws → NativeProg (raw :: ls) ws
  | instr (raw : Str) (ls : List Str) (ws : List (BitVec 32)) (mn : Str) (as : List Arg) (w : BitVec 32) :
      kind raw = .code → InstrText (body raw) mn as → encoding mn as = some w →
      NativeProg ls ws → NativeProg (raw :: ls) (w :: ws)

end Mips.Syntax
