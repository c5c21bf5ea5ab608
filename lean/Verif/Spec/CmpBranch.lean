/-
SPECIFICATION (not a model of the code): the compare-and-branch pseudo-instructions.
-/
import Verif.Spec.Machine

namespace Mips.Pseudo
open Mips.Machine

/-- `op rs, rt, target`: is the branch "likely", and the condition on the 64-bit operands. -/
def cmpOps : List (Str × Bool × (W64 → W64 → Bool)) :=
  [(c!"bge", false, fun a b => decide (b.toInt ≤ a.toInt)), (c!"bgt", false, fun a b => decide (b.toInt < a.toInt)),
   (c!"ble", false, fun a b => decide (a.toInt ≤ b.toInt)), (c!"blt", false, fun a b => decide (a.toInt < b.toInt)),
   (c!"bgeu", false, fun a b => decide (b.toNat ≤ a.toNat)), (c!"bgtu", false, fun a b => decide (b.toNat < a.toNat)),
   (c!"bleu", false, fun a b => decide (a.toNat ≤ b.toNat)), (c!"bltu", false, fun a b => decide (a.toNat < b.toNat)),
   (c!"bgel", true, fun a b => decide (b.toInt ≤ a.toInt)), (c!"bgtl", true, fun a b => decide (b.toInt < a.toInt)),
   (c!"blel", true, fun a b => decide (a.toInt ≤ b.toInt)), (c!"bltl", true, fun a b => decide (a.toInt < b.toInt)),
   (c!"bgeul", true, fun a b => decide (b.toNat ≤ a.toNat)), (c!"bgtul", true, fun a b => decide (b.toNat < a.toNat)),
   (c!"bleul", true, fun a b => decide (a.toNat ≤ b.toNat)), (c!"bltul", true, fun a b => decide (a.toNat < b.toNat))]

/-- Executing the words `ws` from `s` leaves them as a conditional branch does: if `taken`, the delay slot (the word after
`ws`) comes next and the word with index `target` (relative to the first word of `ws`) after it; if not, execution goes on
after `ws`, without the delay slot if the branch is "likely".  Only `$at` changes. -/
def BranchesIf (ws : List W32) (s : Cpu) (likely taken : Bool) (target : Int) : Prop :=
  ∃ s', (∃ n, run ws n s = .done s') ∧
    (if taken then s'.pc = ws.length ∧ s'.npc = target
     else if likely then s'.pc = ws.length + 1 ∧ s'.npc = ws.length + 2
     else s'.pc = ws.length ∧ s'.npc = ws.length + 1) ∧
    Keeps s s' [1] ∧ s'.hi = s.hi ∧ s'.lo = s.lo

end Mips.Pseudo
