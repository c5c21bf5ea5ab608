/-
SPECIFICATION (not a model of the code): errors and warnings that differ in the names of labels.
-/
import Verif.Spec.Rename
import Verif.Model.Error

namespace Mips.Rename

/-- Two errors of the same kind, about the same line (its number; the text of the line may differ), in which labels are renamed.
What is quoted of registers, addresses, mnemonics, operands and conditions is the same; only a label is quoted with its new name. -/
inductive SameError (syms : List (BitVec 32 × Str)) (R : Str → Str → Prop) : ParserError → ParserError → Prop
  | multiple (n m r r' a a' l l') : NewLabel syms R l l' →
      SameError syms R (.multipleLabelDefinition ⟨n, r⟩ l ⟨m, a⟩) (.multipleLabelDefinition ⟨n, r'⟩ l' ⟨m, a'⟩)
  | label (n r r' l) : SameError syms R (.invalidLabel ⟨n, r⟩ l) (.invalidLabel ⟨n, r'⟩ l)
  | count (n r r' x y q) : SameError syms R (.invalidOperandCount ⟨n, r⟩ x y q) (.invalidOperandCount ⟨n, r'⟩ x y q)
  | opcode (n r r' q) : SameError syms R (.invalidOpcode ⟨n, r⟩ q) (.invalidOpcode ⟨n, r'⟩ q)
  | register (n r r' q) : SameError syms R (.invalidRegister ⟨n, r⟩ q) (.invalidRegister ⟨n, r'⟩ q)
  | address (n r r' q) : SameError syms R (.invalidTargetAddress ⟨n, r⟩ q) (.invalidTargetAddress ⟨n, r'⟩ q)
  | immediate (n r r' q q') : q = q' ∨ R q q' → SameError syms R (.invalidImmediate ⟨n, r⟩ q) (.invalidImmediate ⟨n, r'⟩ q')
  | cond (n r r' q) : SameError syms R (.invalidFloatCond ⟨n, r⟩ q) (.invalidFloatCond ⟨n, r'⟩ q)
  | bounds (n r r' b b' lo hi) : SameError syms R (.branchOutOfBounds ⟨n, r⟩ b lo hi) (.branchOutOfBounds ⟨n, r'⟩ b' lo hi)
  | scope (n r r' l l') : NewLabel syms R l l' → SameError syms R (.localLabelOutOfScope ⟨n, r⟩ l) (.localLabelOutOfScope ⟨n, r'⟩ l')
  | undefined (n r r' l l') : NewLabel syms R l l' → SameError syms R (.undefinedLabel ⟨n, r⟩ l) (.undefinedLabel ⟨n, r'⟩ l')

/-- Two warnings of the same kind, about the same lines, with the same quote. -/
inductive SameWarning : ParserWarning → ParserWarning → Prop
  | slot (n n' r r' s s') : SameWarning (.invalidInstructionInDelaySlot ⟨n, r⟩ ⟨n', s⟩) (.invalidInstructionInDelaySlot ⟨n, r'⟩ ⟨n', s'⟩)
  | branch (n r r' q) : SameWarning (.unalignedBranch ⟨n, r⟩ q) (.unalignedBranch ⟨n, r'⟩ q)
  | jump (n r r' q) : SameWarning (.unalignedJump ⟨n, r⟩ q) (.unalignedJump ⟨n, r'⟩ q)

/-- Lists whose entries correspond, one by one. -/
inductive Paired {α β : Type} (S : α → β → Prop) : List α → List β → Prop
  | nil : Paired S [] []
  | cons (a b as bs) : S a b → Paired S as bs → Paired S (a :: as) (b :: bs)

end Mips.Rename
