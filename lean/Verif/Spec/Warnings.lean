/-
SPECIFICATION (not a model of the code): the warnings that are printed for a source file.
-/
import Verif.Spec.Language
import Verif.Spec.Warn

namespace Mips.Lang
open Mips.Isa hiding conds
open Mips.Names hiding none
open Mips.Syntax Mips.Source Mips.Branch Mips.Operands

/-- Line `d`, `raw`, is the last instruction that is taken above line `k`. -/
def LastInstr [Unicode] (f : File) (k d : Nat) (raw : Str) : Prop :=
  d < k ∧ f.ls[d]? = some raw ∧ (∃ st, Instr f d st) ∧ ∀ j, d < j → j < k → ∀ st, ¬ Instr f j st

/-- Line `k` is a jump or branch, with the right number of operands, and stands in the delay slot of a jump or branch (other than the
pseudo-branches that are forgotten). -/
def InSlot [Unicode] (f : File) (k : Nat) (raw : Str) : Prop :=
  kind raw = .code ∧ mnemonic (body raw) ∈ transfers ∧ (∃ st, plan (body raw) = some st) ∧
    ∃ d above, LastInstr f k d above ∧ mnemonic (body above) ∈ transfers ∧ mnemonic (body above) ∉ forgotten

/-- The warning about an instruction that branches or jumps to a number, half of an address, or address that is no multiple of 4. -/
def Unaligned [Unicode] (f : File) (k : Nat) (raw : Str) (w : ParserWarning) : Prop :=
  ∃ st t, Instr f k st ∧
    ((.const addr t ∈ st ∧ ¬ RefersTo (f.place k) t ∧ ∃ v, Value (f.place k) addr t v ∧ v % 4 ≠ 0 ∧ w = .unalignedBranch ⟨k + 1, raw⟩ t) ∨
     (.target t ∈ st ∧ ∃ a, Address f.syms (trim t) a ∧ a.toNat % 4 ≠ 0 ∧ w = .unalignedJump ⟨k + 1, raw⟩ (trim t)))

/-- The warnings about line `k`: first the one about the delay slot, which quotes the line above, then the one about the address. -/
def LineWarnings [Unicode] (f : File) (k : Nat) (raw : Str) (ws : List ParserWarning) : Prop :=
  ∃ a b, ws = a ++ b ∧
    ((InSlot f k raw ∧ ∃ above, f.ls[k - 1]? = some above ∧ a = [.invalidInstructionInDelaySlot ⟨k, above⟩ ⟨k + 1, raw⟩]) ∨
     (¬ InSlot f k raw ∧ a = [])) ∧
    ((∃ w, Unaligned f k raw w ∧ b = [w]) ∨ ((∀ w, ¬ Unaligned f k raw w) ∧ b = []))

/-- The warnings about the first `k` lines. -/
inductive Warned [Unicode] (f : File) : Nat → List ParserWarning → Prop
  | nil : Warned f 0 []
  | line (k : Nat) (raw : Str) (ws as : List ParserWarning) : Warned f k ws → f.ls[k]? = some raw → LineWarnings f k raw as → Warned f (k + 1) (ws ++ as)

/-- The warnings about the file. -/
def Warns [Unicode] (f : File) (ws : List ParserWarning) : Prop := Warned f f.ls.length ws

end Mips.Lang
