/-
SPECIFICATION (not a model of the code): the same instruction in two places, of one file or of two.
-/
import Verif.Spec.Code

namespace Mips.Context
open Mips.Syntax Mips.Source Mips.Branch Mips.Operands Mips.Lang

/-- Seen from line `k`, the text is a label that is `v` instructions away: a local label, or a global one that is defined above. -/
inductive Points [Unicode] (f : File) (k : Nat) (t : Str) : Int → Prop
  | «local» (d : Nat) : isLocal (trim t) = true → Chosen f.ls k d (trim t) → Points f k t (distance f k d)
  | label (d : Nat) : d < k → FirstDef f.ls d (trim t) → Points f k t (distance f k d)

/-- The text is a label with the address `a`. -/
def Leads [Unicode] (f : File) (t : Str) (a : BitVec 32) : Prop :=
  LabelName f.syms (trim t) ∧ ∃ d, FirstDef f.ls d (trim t) ∧ a = f.base + BitVec.ofNat 32 (4 * codeCount (f.ls.take d))

/-- The texts of an instruction that stand for numbers. -/
def Mentioned (st : List Step) (t : Str) : Prop :=
  Constant st t ∨ (∃ r, .number r t ∈ st) ∨ .code t ∈ st ∨ .word32 t ∈ st ∨ .cop t ∈ st

/-- An instruction, read in the steps `st`, sees the same on line `k` of the one file and on line `k'` of the other: its labels are at the
same distance or (if it jumps) address, and if it branches to a number, there are as many instructions above it. -/
structure SameView [Unicode] (f : File) (k : Nat) (g : File) (k' : Nat) (st : List Step) : Prop where
  near : ∀ t, Constant st t → ∀ v, Points f k t v ↔ Points g k' t v
  far : ∀ t, .target t ∈ st → ∀ a, Leads f t a ↔ Leads g t a
  count : ∀ t v, .const addr t ∈ st → Number (f.place k) t v → codeCount (f.ls.take k) = codeCount (g.ls.take k')

/-- The instruction on line `k` has no labels, and does not branch to a number. -/
def Free [Unicode] (f : File) (k : Nat) (st : List Step) : Prop :=
  (∀ t, Mentioned st t → ¬ RefersTo (f.place k) t) ∧ (∀ t, .target t ∈ st → ¬ LabelName f.syms (trim t)) ∧
    ∀ t v, .const addr t ∈ st → ¬ Number (f.place k) t v

/-- The same texts of the instruction are labels on line `k` of the one file and on line `k'` of the other. -/
def SameRefs [Unicode] (f : File) (k : Nat) (g : File) (k' : Nat) (st : List Step) : Prop :=
  ∀ t, Mentioned st t → (RefersTo (f.place k) t ↔ RefersTo (g.place k') t)

/-- The complaint, about a line with another number. -/
def moved (n : Nat) : ParserError → ParserError
  | .multipleLabelDefinition l x f => .multipleLabelDefinition ⟨n, l.content⟩ x f
  | .invalidLabel l x => .invalidLabel ⟨n, l.content⟩ x
  | .invalidInstruction l => .invalidInstruction ⟨n, l.content⟩
  | .invalidOperandCount l a b x => .invalidOperandCount ⟨n, l.content⟩ a b x
  | .invalidOpcode l x => .invalidOpcode ⟨n, l.content⟩ x
  | .invalidRegister l x => .invalidRegister ⟨n, l.content⟩ x
  | .invalidTargetAddress l x => .invalidTargetAddress ⟨n, l.content⟩ x
  | .invalidImmediate l x => .invalidImmediate ⟨n, l.content⟩ x
  | .invalidFloatCond l x => .invalidFloatCond ⟨n, l.content⟩ x
  | .branchOutOfBounds l x a b => .branchOutOfBounds ⟨n, l.content⟩ x a b
  | .localLabelOutOfScope l x => .localLabelOutOfScope ⟨n, l.content⟩ x
  | .undefinedLabel l x => .undefinedLabel ⟨n, l.content⟩ x

/-- The warning is about an address. -/
def OnAddress : ParserWarning → Prop
  | .invalidInstructionInDelaySlot _ _ => False
  | .unalignedBranch _ _ => True
  | .unalignedJump _ _ => True

/-- The warning is about line number `n`. -/
def OnLine (n : Nat) : ParserWarning → Prop
  | .invalidInstructionInDelaySlot _ l => l.num = n
  | .unalignedBranch l _ => l.num = n
  | .unalignedJump l _ => l.num = n

/-- The warning about an address, about a line with another number. -/
def movedWarning (n : Nat) : ParserWarning → ParserWarning
  | .invalidInstructionInDelaySlot a l => .invalidInstructionInDelaySlot a l
  | .unalignedBranch l x => .unalignedBranch ⟨n, l.content⟩ x
  | .unalignedJump l x => .unalignedJump ⟨n, l.content⟩ x

end Mips.Context
