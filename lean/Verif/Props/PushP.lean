/-
**C86** — adding words to an instruction (`Instruction::push_bytes`).
-/
import Verif.Props.ReachP
import Verif.Model.Display
import Verif.Model.Query

namespace Mips

theorem head_append {α : Type} {a : List α} (h : a ≠ []) (b : List α) : (a ++ b).head? = a.head? := by
  cases a with
  | nil => exact absurd rfl h
  | cons x t => rfl

theorem displayR_append {op : RTypeOp} {rs rt rd : Register} {sa : Word} {a : List Word} (h : a ≠ []) (b : List Word) :
    displayR op rs rt rd sa (a ++ b) = displayR op rs rt rd sa a := by
  unfold displayR
  rw [head_append h]

/-- **C86**: words can be added to every instruction but a raw word, for which `push_bytes` panics.  They are put behind those it has; no query
changes, and no text either if the instruction had words. -/
theorem C86_push (i : Instruction) (ws : List Word) :
    (i.pushBytes ws = none ↔ ∃ w, i = .bytes w) ∧
    ∀ j, i.pushBytes ws = some j → j.getBytes = i.getBytes ++ ws ∧ j.hasDelaySlot = i.hasDelaySlot ∧ j.isBranch = i.isBranch ∧
      j.isUnconditionalJump = i.isUnconditionalJump ∧ j.getBranchOffset = i.getBranchOffset ∧ j.getJumpTarget = i.getJumpTarget ∧
      (i.getBytes ≠ [] → j.display = i.display ∧ j.debug = i.debug) := by
  cases i with
  | bytes w => exact ⟨⟨fun _ => ⟨w, rfl⟩, fun _ => rfl⟩, nofun⟩
  | imm o rs rt im b =>
    refine ⟨⟨nofun, fun ⟨_, h⟩ => by cases h⟩, fun j hj => ?_⟩
    cases hj
    refine ⟨rfl, rfl, rfl, rfl, rfl, rfl, fun _ => ?_⟩
    cases im <;> exact ⟨rfl, rfl⟩
  | jump o t b =>
    refine ⟨⟨nofun, fun ⟨_, h⟩ => by cases h⟩, fun j hj => ?_⟩
    cases hj
    refine ⟨rfl, rfl, rfl, by cases o <;> rfl, rfl, rfl, fun _ => ?_⟩
    cases t <;> exact ⟨rfl, rfl⟩
  | reg o rs rt rd sa b =>
    refine ⟨⟨nofun, fun ⟨_, h⟩ => by cases h⟩, fun j hj => ?_⟩
    cases hj
    refine ⟨rfl, rfl, rfl, by cases o <;> rfl, rfl, rfl, fun h => ?_⟩
    have := displayR_append (op := o) (rs := rs) (rt := rt) (rd := rd) (sa := sa) h ws
    exact ⟨this, congrArg (Option.map squeeze) this⟩

/-- **C86**: words can be added to every instruction that `assemble` returns; its queries and texts stay what they are. -/
theorem C86_assembled [Unicode] (rt : Rt) (m : Mipsasm) (text : Str) (is : List Instruction) (warns : List ParserWarning)
    (h : assemble rt m text = .ok is warns) (i : Instruction) (hi : i ∈ is) (ws : List Word) :
    ∃ j, i.pushBytes ws = some j ∧ j.getBytes = i.getBytes ++ ws ∧ j.hasDelaySlot = i.hasDelaySlot ∧ j.isBranch = i.isBranch ∧
      j.isUnconditionalJump = i.isUnconditionalJump ∧ j.getBranchOffset = i.getBranchOffset ∧ j.getJumpTarget = i.getJumpTarget ∧
      j.display = i.display ∧ j.debug = i.debug := by
  obtain ⟨n, hn⟩ := List.getElem?_of_mem hi
  have hlen := emits_word h hn
  have hne : i.getBytes ≠ [] := fun h => by rw [h] at hlen; cases hlen
  have hw : ∀ w, i ≠ .bytes w := by
    obtain ⟨tr, t1, t2, _, t3, t4⟩ := assemble_ok h
    have hlt : n < (outInsts 0 tr).length := by rw [← t3]; exact (List.getElem?_eq_some_iff.1 hn).1
    obtain ⟨a, b', hd, hb', hc⟩ := t4 n _ (List.getElem?_eq_getElem hlt)
    rw [hn] at hb'; cases hb'
    intro w hw
    subst hw
    unfold assembleInst at hc
    rw [opt_bind, Option.bind_eq_some_iff] at hc
    obtain ⟨ws, h1, h2⟩ := hc
    cases a <;> cases h2
  obtain ⟨h1, h2⟩ := C86_push i ws
  cases hp : i.pushBytes ws with
  | none => obtain ⟨w, hc⟩ := h1.1 hp; exact absurd hc (hw w)
  | some j =>
    obtain ⟨k1, k2, k3, k4, k5, k6, k7⟩ := h2 j hp
    exact ⟨j, rfl, k1, k2, k3, k4, k5, k6, k7 hne⟩

/-! ### Example -/

/-- A property of the instructions of an accepted program when the word 7 has been added to each of them. -/
def pushed {α : Type} (f : Instruction → α) (text : Str) : List (Option α) :=
  match @assemble asciiUnicode (idRt true) Mipsasm.new text with
  | .ok is _ => is.map fun i => (i.pushBytes [7#32]).map f
  | _ => []

example :
    pushed (·.getBytes) c!"l:\nnop\nbne $a0, $a1, l\nmfc0 $v0, $12" =
      [some [0#32, 7#32], some [0x1485fffe#32, 7#32], some [0x40026000#32, 7#32]] ∧
    pushed (·.hasDelaySlot) c!"l:\nnop\nbne $a0, $a1, l\nmfc0 $v0, $12" = [some false, some true, some false] ∧
    pushed (·.display) c!"l:\nnop\nbne $a0, $a1, l\nmfc0 $v0, $12" =
      [some none, some (some c!"bne        $a0, $a1, -0x2"), some (some c!"mfc0       $v0, Status")] := by decide +kernel

end Mips
