/-
SPECIFICATION (not a model of the code): programs with additional labels that nothing refers to.
-/
import Verif.Spec.Rename

namespace Mips.Fresh
open Mips.Names hiding none
open Mips.Source Mips.Branch Mips.Operands
open Mips.Lang (Offset)

/-- An operand of the instruction, or the offset of an address in it, is `l`, possibly with white space around (or an opening
parenthesis in it). -/
def Mentions (raw l : Str) : Prop :=
  kind raw = .code ∧ (trim (operandText (body raw)) = l ∨
    ∃ s ∈ operands (body raw), trim s = l ∨ ∃ o, Offset s o ∧ (trim o = l ∨ trim (o.filter fun c => !(c == '(')) = l))

/-- The second file has the lines of the first and lines that define labels of `X`. -/
inductive Added (X : Str → Prop) : List Str → List Str → Prop
  | nil : Added X [] []
  | same (raw : Str) (ls ls' : List Str) : Added X ls ls' → Added X (raw :: ls) (raw :: ls')
  | label (raw l : Str) (ls ls' : List Str) : kind raw = .label l → X l → Added X ls ls' → Added X ls (raw :: ls')

/-- The labels of `X` are names that the lines neither define nor mention. -/
structure New (syms : List (BitVec 32 × Str)) (X : Str → Prop) (ls : List Str) : Prop where
  name : ∀ l, X l → Rename.Name syms l
  undefined : ∀ l, X l → ∀ d, ¬ Defines ls d l
  unused : ∀ l, X l → ∀ raw ∈ ls, ¬ Mentions raw l

/-- No global label of `X` is defined twice. -/
def Once (X : Str → Prop) (ls : List Str) : Prop := ∀ l, X l → isLocal l = false → ∀ d d', Defines ls d l → Defines ls d' l → d = d'

/-- The new labels are local, or there are no local labels. -/
def Harmless (X : Str → Prop) (ls : List Str) : Prop := (∀ l, X l → isLocal l = true) ∨ ∀ d l, Defines ls d l → isLocal l = false

end Mips.Fresh
