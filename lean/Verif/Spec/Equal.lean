/-
SPECIFICATION (not a model of the code): programs that differ in how the values of their operands are written.
-/
import Verif.Spec.Operands
import Verif.Spec.HiLo

namespace Mips.Equal
open Mips.Isa Mips.Syntax Mips.Source Mips.Branch Mips.Names Mips.Operands

/-- Operands that may be a number. -/
def isNumber : Role → Bool
  | .simm | .uimm | .wide | .shamt | .code | .cop | .addr => true
  | _ => false

/-- Two texts of an operand of the given kind that have the same value: spellings of the same register (`SameOperand`);
numerals of the same value, decimal or hexadecimal, with any leading zeros, letter case and white space around, also as the offset
of a load or store; for a jump, an address written as a numeral or as a symbol; and `%hi`, `%lo` of such an address, `%lo` also as
the offset of a load or store of a general-purpose register (`fp` says that the instruction is a floating-point load or store). -/
inductive SameValue (syms : List (BitVec 32 × Str)) (fp : Bool) : Role → Str → Str → Prop
  | reg (role : Role) (s s' : Str) : SameOperand role s s' → SameValue syms fp role s s'
  | num (role : Role) (s s' : Str) (v : Int) : isNumber role = true → PNum s v → PNum s' v → SameValue syms fp role s s'
  | half (role : Role) (f s s' : Str) (a : BitVec 32) : isNumber role = true → role ≠ .shamt → f = c!"%hi" ∨ f = c!"%lo" →
      HiLo.Half syms f s a → HiLo.Half syms f s' a → SameValue syms fp role s s'
  | mem (o o' b b' q q' : Str) (v : Int) (r : BitVec 5) : PNum o v → PNum o' v → Reg GprCore b r → Reg GprCore b' r →
      Blank q → Blank q' → SameValue syms fp .mem (o ++ '(' :: b ++ ')' :: q) (o' ++ '(' :: b' ++ ')' :: q')
  | memLo (o o' b b' q q' : Str) (a : BitVec 32) (r : BitVec 5) : fp = false →
      HiLo.Half syms c!"%lo" o a → HiLo.Half syms c!"%lo" o' a → Reg GprCore b r → Reg GprCore b' r → Blank q → Blank q' →
      SameValue syms fp .mem (o ++ '(' :: b ++ ')' :: q) (o' ++ '(' :: b' ++ ')' :: q')
  | target (s s' : Str) (a : BitVec 32) : HiLo.Names syms (trim s) a → HiLo.Names syms (trim s') a → SameValue syms fp .target s s'

/-- The same for lists of operands. -/
inductive SameValues (syms : List (BitVec 32 × Str)) (fp : Bool) : List Role → List Str → List Str → Prop
  | nil : SameValues syms fp [] [] []
  | cons (role : Role) (s s' : Str) (rs : List Role) (l l' : List Str) : SameValue syms fp role s s' → SameValues syms fp rs l l' →
      SameValues syms fp (role :: rs) (s :: l) (s' :: l')

/-- Two instruction lines with the same mnemonic and operands of the same values. -/
structure Rewritten (syms : List (BitVec 32 × Str)) (raw raw' : Str) : Prop where
  code : kind raw = .code
  code' : kind raw' = .code
  word : firstWord (body raw) = firstWord (body raw')
  ops : ∃ mn sig, (mn, sig) ∈ signatures ∧ Calls (body raw) mn ∧
    SameValues syms (decide (sig = [.fpr, .mem])) sig (operands (body raw)) (operands (body raw'))

/-- Two files whose instructions have operands of the same values. -/
inductive SameFile (syms : List (BitVec 32 × Str)) : List Str → List Str → Prop
  | nil : SameFile syms [] []
  | cons (raw raw' : Str) (ls ls' : List Str) : raw = raw' ∨ Rewritten syms raw raw' → SameFile syms ls ls' →
      SameFile syms (raw :: ls) (raw' :: ls')

end Mips.Equal
