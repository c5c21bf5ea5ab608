/-
SPECIFICATION (not a model of the code): programs that differ in the names of their labels.
-/
import Verif.Spec.Language

namespace Mips.Rename
open Mips.Isa hiding conds
open Mips.Names hiding none
open Mips.Syntax Mips.Source Mips.Branch Mips.Operands
open Mips.Lang (Offset symbol intSignatures)

/-- A name that may be changed: not the name of a symbol, starting with an ASCII character that is no digit and no sign, without
parentheses and without `0x`. -/
structure Name (syms : List (BitVec 32 × Str)) (l : Str) : Prop where
  free : symbol syms l = none
  head : ∃ c t, l = c :: t ∧ isAscii c = true ∧ isDigit c = false ∧ c ≠ '+' ∧ c ≠ '-'
  noOpen : '(' ∉ l
  noClose : ')' ∉ l
  noHex : contains c!"0x" l = false

/-- `R` says which name is changed into which: distinct names into distinct names, local ones (`@@name`) into local ones. -/
structure Renaming (syms : List (BitVec 32 × Str)) (R : Str → Str → Prop) : Prop where
  to : ∀ a b c, R a b → R a c → b = c
  back : ∀ a b c, R a c → R b c → a = b
  name : ∀ a b, R a b → Name syms a
  name' : ∀ a b, R a b → Name syms b
  loc : ∀ a b, R a b → isLocal a = isLocal b

/-- A label and its new name; what is not a name stays as it is. -/
def NewLabel (syms : List (BitVec 32 × Str)) (R : Str → Str → Prop) (l l' : Str) : Prop := R l l' ∨ (l = l' ∧ ¬ Name syms l)

/-- An operand that may be a label, possibly with white space around it. -/
def NewOperand (syms : List (BitVec 32 × Str)) (R : Str → Str → Prop) (s s' : Str) : Prop :=
  R (trim s) (trim s') ∨ (s = s' ∧ ¬ Name syms (trim s))

/-- An address in memory, whose offset may be a label. -/
def NewAddress (syms : List (BitVec 32 × Str)) (R : Str → Str → Prop) (s s' : Str) : Prop :=
  (∃ o o' v, s = o ++ '(' :: v ∧ s' = o' ++ '(' :: v ∧ '(' ∉ v ∧ R (trim o) (trim o')) ∨
  (s = s' ∧ ∀ o, Offset s o → ¬ Name syms (trim (o.filter fun c => !(c == '('))))

/-- Two texts of an operand of the given kind: registers and shift amounts are the same, labels are renamed. -/
def NewText (syms : List (BitVec 32 × Str)) (R : Str → Str → Prop) : Role → Str → Str → Prop
  | .gpr, s, s' | .fpr, s, s' | .c0, s, s' | .shamt, s, s' => s = s'
  | .mem, s, s' => NewAddress syms R s s'
  | .simm, s, s' | .uimm, s, s' | .wide, s, s' | .code, s, s' | .cop, s, s' | .addr, s, s' | .target, s, s' => NewOperand syms R s s'

/-- The same for lists of operands. -/
inductive NewTexts (syms : List (BitVec 32 × Str)) (R : Str → Str → Prop) : List Role → List Str → List Str → Prop
  | nil : NewTexts syms R [] [] []
  | cons (role : Role) (s s' : Str) (rs : List Role) (l l' : List Str) : NewText syms R role s s' → NewTexts syms R rs l l' →
      NewTexts syms R (role :: rs) (s :: l) (s' :: l')

/-- The operands of two instruction lines that differ in the names of labels.  The operands of an instruction that there is not, and
of one with a wrong number of operands, stay as they are. -/
inductive NewOperands [Unicode] (syms : List (BitVec 32 × Str)) (R : Str → Str → Prop) (s s' : Str) : Prop
  | known (sig : List Role) : (mnemonic s, sig) ∈ signatures → NewTexts syms R sig (operands s) (operands s') → NewOperands syms R s s'
  | word : mnemonic s = c!".word" → NewOperand syms R (operandText s) (operandText s') → NewOperands syms R s s'
  | other : mnemonic s ≠ c!".word" → (∀ sig, (mnemonic s, sig) ∈ signatures → sig.length ≠ (operands s).length) →
      operands s = operands s' → NewOperands syms R s s'

/-- Two lines that differ in the names of labels (and in comments and white space around the line). -/
inductive NewLine [Unicode] (syms : List (BitVec 32 × Str)) (R : Str → Str → Prop) (raw raw' : Str) : Prop
  | blank : kind raw = .blank → kind raw' = .blank → NewLine syms R raw raw'
  | label (l l' : Str) : kind raw = .label l → kind raw' = .label l' → NewLabel syms R l l' → NewLine syms R raw raw'
  | code : kind raw = .code → kind raw' = .code → firstWord (body raw) = firstWord (body raw') →
      NewOperands syms R (body raw) (body raw') → NewLine syms R raw raw'

/-- Two files that differ in the names of labels. -/
inductive NewFile [Unicode] (syms : List (BitVec 32 × Str)) (R : Str → Str → Prop) : List Str → List Str → Prop
  | nil : NewFile syms R [] []
  | cons (raw raw' : Str) (ls ls' : List Str) : NewLine syms R raw raw' → NewFile syms R ls ls' → NewFile syms R (raw :: ls) (raw' :: ls')

end Mips.Rename
