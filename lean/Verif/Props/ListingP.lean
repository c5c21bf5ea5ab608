/-
**C60** — exactly which lines are listed, and when there is no listing.
-/
import Verif.Lemmas.DisX
import Verif.Props.LayoutP

namespace Mips
open Isa Listing Syntax

theorem hole_col (syms : List (Word × Str)) (base : Word) {w : Word} (hh : CopHole w) :
    (matchSym syms (decode base w)).display = some (colText (symAt syms) base w) := by
  obtain ⟨name, h1, h2⟩ := hole_text syms base hh
  rw [h2]
  obtain ⟨ho, h16, hd, _⟩ := hh
  unfold colText
  rw [hd]
  simp only
  rw [if_pos ⟨ho, h16⟩]
  generalize (fFn w).toNat = n at *
  have : ∀ e ∈ cp0Map, cp0Map.find? (fun e' => e'.2 = e.2) = some e := by decide
  have h3 := this _ h1
  simp only at h3
  rw [h3]

/-- Every word is printed as specified. -/
theorem word_col (syms : List (Word × Str)) (base w : Word) :
    (matchSym syms (decode base w)).display = some (colText (symAt syms) base w) := by
  by_cases hh : CopHole w
  · exact hole_col syms base hh
  · exact decode_col syms base w hh

section
variable {base : Word} {ws : List Word} {syms : List (Word × Str)}

private theorem chkAdd_none {ovf : Bool} {a b : Word} : chkAdd ovf a b = none ↔ ovf = true ∧ 2 ^ 32 ≤ a.toNat + b.toNat := by
  unfold chkAdd
  split <;> simp_all

private theorem mul_toNat (i : Nat) : (BitVec.ofNat 32 i * 4#32).toNat = 4 * i % 2 ^ 32 := by
  rw [mul4, BitVec.toNat_ofNat]

private theorem chkMul_none {ovf : Bool} {i : Nat} : chkMul ovf (BitVec.ofNat 32 i) 4#32 = none ↔ ovf = true ∧ 2 ^ 32 ≤ 4 * (i % 2 ^ 32) := by
  unfold chkMul
  rw [BitVec.toNat_ofNat, show (4#32).toNat = 4 from rfl]
  split
  · next h => exact ⟨fun _ => ⟨h.1, by have := h.2; omega⟩, fun _ => rfl⟩
  · next h => exact ⟨fun e => (by cases e), fun e => absurd ⟨e.1, by have := e.2; omega⟩ h⟩

/-- The test for the end of a function panics. -/
private def Stuck (ovf : Bool) (syms : List (Word × Str)) (base : Word) (lo i : Nat) (w : Word) : Prop :=
  (fOp w = 2#6 ∧ (symAt syms (jumpAddr base (fTarget w))).isSome) ∨
  (ovf = true ∧ (fOp w = 2#6 ∨ fOp w = 0#6 ∧ fFn w = 8#6) ∧ TooHigh base lo) ∨
  (ovf = true ∧ fOp w = 2#6 ∧ ¬ jumpAddr base (fTarget w) < addrOf base lo ∧ OutOfSpace base i)

private theorem start_add (ovf : Bool) (lo : Nat) :
    (ovf = true ∧ TooHigh base lo ∧ chkAdd ovf (BitVec.ofNat 32 (lo * 4)) base = none) ∨
    (¬ (ovf = true ∧ TooHigh base lo) ∧ chkAdd ovf (BitVec.ofNat 32 (lo * 4)) base = some (addrOf base lo)) := by
  have e : (BitVec.ofNat 32 (lo * 4)).toNat = 4 * lo % 2 ^ 32 := by rw [BitVec.toNat_ofNat, Nat.mul_comm]
  cases h : chkAdd ovf (BitVec.ofNat 32 (lo * 4)) base with
  | none =>
    obtain ⟨h1, h2⟩ := chkAdd_none.1 h
    exact .inl ⟨h1, by unfold TooHigh; omega, rfl⟩
  | some c =>
    refine .inr ⟨?_, ?_⟩
    · rintro ⟨h1, h2⟩
      rw [chkAdd_none.2 ⟨h1, by unfold TooHigh at h2; omega⟩] at h; cases h
    · rw [chkAdd_some h]; unfold addrOf
      rw [BitVec.add_comm, Nat.mul_comm]

private theorem addr_add (ovf : Bool) (i : Nat) (f : Word → Option Bool) :
    (ovf = true ∧ OutOfSpace base i ∧ ((chkMul ovf (BitVec.ofNat 32 i) 4#32).bind fun i4 => (chkAdd ovf i4 base).bind f) = none) ∨
    (¬ (ovf = true ∧ OutOfSpace base i) ∧ ((chkMul ovf (BitVec.ofNat 32 i) 4#32).bind fun i4 => (chkAdd ovf i4 base).bind f) = f (addrOf base i)) := by
  cases h : chkMul ovf (BitVec.ofNat 32 i) 4#32 with
  | none =>
    obtain ⟨h1, h2⟩ := chkMul_none.1 h
    exact .inl ⟨h1, .inl h2, rfl⟩
  | some c =>
    have hc := chkMul_some h
    have h4 : ovf = true → ¬ 2 ^ 32 ≤ 4 * (i % 2 ^ 32) := fun h1 h2 => by
      rw [chkMul_none.2 ⟨h1, h2⟩] at h; cases h
    have e : c.toNat = 4 * i % 2 ^ 32 := by rw [hc, mul_toNat]
    rw [Option.bind_some]
    cases h' : chkAdd ovf c base with
    | none =>
      obtain ⟨h1, h2⟩ := chkAdd_none.1 h'
      exact .inl ⟨h1, .inr (by unfold TooHigh; omega), rfl⟩
    | some d =>
      refine .inr ⟨?_, ?_⟩
      · rintro ⟨h1, h2 | h2⟩
        · exact h4 h1 h2
        · rw [chkAdd_none.2 ⟨h1, by unfold TooHigh at h2; omega⟩] at h'; cases h'
      · rw [chkAdd_some h', hc, mul4, Option.bind_some]; unfold addrOf
        rw [BitVec.add_comm]

/-- The test for the end of a function. -/
private theorem ends_col (ovf : Bool) (lo i : Nat) (w : Word) :
    (Stuck ovf syms base lo i w → endsFunction ovf base (lo * 4) i (matchSym syms (decode base w)) = none) ∧
    (¬ Stuck ovf syms base lo i w → endsFunction ovf base (lo * 4) i (matchSym syms (decode base w)) = some (leavesAt base lo i w)) := by
  unfold Stuck leavesAt
  by_cases h0 : fOp w = 0#6 ∧ fFn w = 8#6
  · have e : decode base w = .reg .Jr (fields w).rs 0 0 0#32 [w] := by
      unfold decode; dsimp only; rw [fields_op, h0.1]
      show decodeSpecial w (fields w) = _
      unfold decodeSpecial; rw [fields_funct, h0.2]; rfl
    have h2 : fOp w ≠ 2#6 := by rw [h0.1]; decide
    rw [e]
    simp only [h2, h0, decide_true, Bool.and_self, Bool.true_or, false_and, and_false, or_false, false_or, and_self, true_and]
    have hz : ((0#6 : BitVec 6) = 2#6) = False := by simp
    simp only [hz, or_true, true_and, false_and, and_false, false_or, or_false]
    show (_ → endsFunction _ _ _ _ (Instruction.reg .Jr _ _ _ _ _) = _) ∧ (_ → endsFunction _ _ _ _ (Instruction.reg .Jr _ _ _ _ _) = _)
    unfold endsFunction
    simp only [Instruction.isUnconditionalJump, if_true, Instruction.getJumpTarget, opt_bind, Option.bind_some]
    rcases start_add (base := base) ovf lo with ⟨g1, g2, g3⟩ | ⟨g1, g3⟩ <;> rw [g3]
    · exact ⟨fun _ => rfl, fun h => absurd ⟨g1, g2⟩ h⟩
    · exact ⟨fun h => absurd h g1, fun _ => by simp [optLt]⟩
  · by_cases h2 : fOp w = 2#6
    · have e : decode base w = .jump .J (.address (jumpTarget base w)) [w] := by
        unfold decode; dsimp only; rw [fields_op, h2]; rfl
      rw [e]
      unfold matchSym
      simp only [jumpTarget_eq]
      cases hs : symAt syms (jumpAddr base (fTarget w)) with
      | some n =>
        refine ⟨fun _ => rfl, fun h => absurd (.inl ⟨h2, rfl⟩) h⟩
      | none =>
        unfold endsFunction
        simp only [Instruction.isUnconditionalJump, if_true, Instruction.getJumpTarget, Target.asU32, opt_bind, Option.bind_some, Option.map_some,
          Option.isSome_none, Bool.false_eq_true, and_false, false_or, h2, true_or, true_and]
        have hne : ¬ ((2#6 : BitVec 6) = 0#6 ∧ fFn w = 8#6) := fun h => absurd h.1 (by decide)
        rcases start_add (base := base) ovf lo with ⟨g1, g2, g3⟩ | ⟨g1, g3⟩ <;> rw [g3]
        · exact ⟨fun _ => rfl, fun h => absurd (.inl ⟨g1, g2⟩) h⟩
        · rw [Option.bind_some]
          have hlt : ∀ a b : Word, optLt (some a) (some b) = decide (a < b) := fun a b => by
            simp [optLt, BitVec.lt_def]
          rw [hlt]
          by_cases c1 : jumpAddr base (fTarget w) < addrOf base lo
          · simp only [c1, decide_true, if_true]
            refine ⟨?_, fun _ => by simp⟩
            rintro (h | h)
            · exact absurd h g1
            · exact absurd trivial h.2.1
          · simp only [c1, decide_false, Bool.false_eq_true, if_false, not_false_eq_true, true_and]
            rcases addr_add (base := base) ovf i (fun hi => some (optLt (some hi) (some (jumpAddr base (fTarget w))))) with ⟨k1, k2, k3⟩ | ⟨k1, k3⟩ <;> rw [k3]
            · exact ⟨fun _ => rfl, fun h => absurd (.inr ⟨k1, k2⟩) h⟩
            · refine ⟨fun h => ?_, fun _ => by rw [hlt]; simp⟩
              rcases h with h | h
              · exact absurd h g1
              · exact absurd h k1
    · unfold endsFunction
      rw [uncond_false base w h0 h2 syms]
      have h0' : (decide (fOp w = 0#6) && decide (fFn w = 8#6)) = false := by
        rw [Bool.eq_false_iff]; simpa using h0
      simp only [h2, h0, h0', Bool.false_eq_true, if_false, false_and, and_false, or_false, decide_false, Bool.false_and]
      exact ⟨False.elim, fun _ => rfl⟩

/-- One index of `NoListing`. -/
private def BadAt' (ovf : Bool) (syms : List (Word × Str)) (base : Word) (ws : List Word) (i : Nat) : Prop :=
  ∃ w, ws[i]? = some w ∧
    (((trail base ws i).2 = false ∧ Stuck ovf syms base (trail base ws i).1 i w) ∨
     (ovf = true ∧ (trail base ws i).2 = true ∧ i + 1 < ws.length ∧ OutOfSpace base (i + 1)))

private theorem noListing_iff {ovf : Bool} : NoListing ovf (symAt syms) base ws ↔ ∃ i, BadAt' ovf syms base ws i := by
  unfold NoListing BadAt' Stuck
  constructor
  · rintro ⟨i, w, h, ⟨a, b⟩ | ⟨a, b, c⟩ | ⟨a, b, c⟩ | h'⟩
    · exact ⟨i, w, h, .inl ⟨a, .inl b⟩⟩
    · exact ⟨i, w, h, .inl ⟨b, .inr (.inl ⟨a, c⟩)⟩⟩
    · exact ⟨i, w, h, .inl ⟨b, .inr (.inr ⟨a, c⟩)⟩⟩
    · exact ⟨i, w, h, .inr h'⟩
  · rintro ⟨i, w, h, ⟨a, b | ⟨b, c⟩ | ⟨b, c⟩⟩ | h'⟩
    · exact ⟨i, w, h, .inl ⟨a, b⟩⟩
    · exact ⟨i, w, h, .inr (.inl ⟨b, a, c⟩)⟩
    · exact ⟨i, w, h, .inr (.inr (.inl ⟨b, a, c⟩))⟩
    · exact ⟨i, w, h, .inr (.inr (.inr h'))⟩

private theorem layout_col (ovf : Bool) : ∀ j i, i + j = ws.length →
    ((∃ k, i ≤ k ∧ BadAt' ovf syms base ws k) →
      layout ovf base syms ws.length i ((trail base ws i).1 * 4) (trail base ws i).2 ((ws.drop i).map fun w => matchSym syms (decode base w)) = none) ∧
    ((∀ k, i ≤ k → ¬ BadAt' ovf syms base ws k) →
      layout ovf base syms ws.length i ((trail base ws i).1 * 4) (trail base ws i).2 ((ws.drop i).map fun w => matchSym syms (decode base w)) =
        some (render (fun k => labelText (symAt syms) (addrOf base k)) (fun k => (trail base ws k).2) i ((ws.map (colText (symAt syms) base)).drop i))) := by
  intro j
  induction j with
  | zero =>
    intro i h
    constructor
    · rintro ⟨k, hk, w, hw, _⟩
      rw [List.getElem?_eq_none (by omega)] at hw; cases hw
    · intro _
      rw [List.drop_of_length_le (by omega), List.drop_of_length_le (by simp; omega)]
      rfl
  | succ j ih =>
    intro i h
    obtain ⟨ih1, ih2⟩ := ih (i + 1) (by omega)
    have hi : i < ws.length := by omega
    have hwi : ws[i]? = some ws[i] := List.getElem?_eq_getElem hi
    have hsplit : (∃ k, i ≤ k ∧ BadAt' ovf syms base ws k) ↔ BadAt' ovf syms base ws i ∨ ∃ k, i + 1 ≤ k ∧ BadAt' ovf syms base ws k := by
      constructor
      · rintro ⟨k, hk, hb⟩
        by_cases e : k = i
        · exact .inl (e ▸ hb)
        · exact .inr ⟨k, by omega, hb⟩
      · rintro (h | ⟨k, hk, hb⟩)
        · exact ⟨i, Nat.le_refl _, h⟩
        · exact ⟨k, by omega, hb⟩
    have hsplit2 : (∀ k, i ≤ k → ¬ BadAt' ovf syms base ws k) ↔ ¬ BadAt' ovf syms base ws i ∧ ∀ k, i + 1 ≤ k → ¬ BadAt' ovf syms base ws k := by
      constructor
      · exact fun h => ⟨h i (Nat.le_refl _), fun k hk => h k (by omega)⟩
      · rintro ⟨h1, h2⟩ k hk
        by_cases e : k = i
        · exact e ▸ h1
        · exact h2 k (by omega)
    rw [hsplit, hsplit2, List.drop_eq_getElem_cons hi, List.drop_eq_getElem_cons (show i < (ws.map (colText (symAt syms) base)).length by simpa using hi),
      List.map_cons, layout, render]
    rw [trail] at ih1 ih2
    rw [word_col]
    by_cases hw : (trail base ws i).2 = true
    · rw [if_pos hw] at ih1 ih2 ⊢
      simp only [opt_bind, Option.bind_some] at ih1 ih2 ⊢
      by_cases hl : i < ws.length - 1
      · rw [if_pos hl]
        have hbad : BadAt' ovf syms base ws i ↔ ovf = true ∧ OutOfSpace base (i + 1) := by
          unfold BadAt'
          rw [hw, hwi]
          constructor
          · rintro ⟨w, e, ⟨h1, _⟩ | ⟨h1, _, _, h2⟩⟩
            · cases h1
            · exact ⟨h1, h2⟩
          · rintro ⟨h1, h2⟩
            exact ⟨_, rfl, .inr ⟨h1, rfl, by omega, h2⟩⟩
        have hne : ((ws.map (colText (symAt syms) base)).drop (i + 1)).isEmpty = false := by
          rw [List.drop_eq_getElem_cons (by simp; omega)]; rfl
        have key : (ovf = true ∧ OutOfSpace base (i + 1) ∧ ∀ f : Word → Option (List Str), ((chkMul ovf (BitVec.ofNat 32 (i + 1)) 4#32).bind fun i4 => (chkAdd ovf base i4).bind f) = none) ∨
            (¬ (ovf = true ∧ OutOfSpace base (i + 1)) ∧ ∀ f : Word → Option (List Str), ((chkMul ovf (BitVec.ofNat 32 (i + 1)) 4#32).bind fun i4 => (chkAdd ovf base i4).bind f) = f (addrOf base (i + 1))) := by
          have hcomm : ∀ a : Word, chkAdd ovf base a = chkAdd ovf a base := fun a => by
            unfold chkAdd; rw [Nat.add_comm, BitVec.add_comm]
          rcases addr_add (base := base) ovf (i + 1) (fun _ => some true) with ⟨k1, k2, k3⟩ | ⟨k1, k3⟩
          · refine .inl ⟨k1, k2, fun f => ?_⟩
            cases hm : chkMul ovf (BitVec.ofNat 32 (i + 1)) 4#32 with
            | none => rfl
            | some c =>
              rw [hm, Option.bind_some] at k3
              rw [Option.bind_some, hcomm]
              cases ha : chkAdd ovf c base with
              | none => rfl
              | some d => rw [ha] at k3; cases k3
          · refine .inr ⟨k1, fun f => ?_⟩
            cases hm : chkMul ovf (BitVec.ofNat 32 (i + 1)) 4#32 with
            | none => rw [hm] at k3; cases k3
            | some c =>
              rw [hm, Option.bind_some] at k3
              rw [Option.bind_some, hcomm]
              cases ha : chkAdd ovf c base with
              | none => rw [ha] at k3; cases k3
              | some d =>
                rw [Option.bind_some, chkAdd_some ha, chkMul_some hm, mul4]; unfold addrOf
                rw [BitVec.add_comm]
        rw [hbad]
        rcases key with ⟨k1, k2, k3⟩ | ⟨k1, k3⟩ <;> rw [k3]
        · exact ⟨fun _ => rfl, fun h => absurd ⟨k1, k2⟩ h.1⟩
        · rw [Option.bind_some]
          constructor
          · rintro (h | h)
            · exact absurd h k1
            · rw [ih1 h]; rfl
          · rintro ⟨_, h⟩
            rw [ih2 h, Option.bind_some, hw, hne]
            simp [getSym_label, symAt]
            rfl
      · rw [if_neg hl]
        have hbad : ¬ BadAt' ovf syms base ws i := by
          rintro ⟨w, _, ⟨h1, _⟩ | ⟨_, _, h1, _⟩⟩
          · rw [hw] at h1; cases h1
          · omega
        have he : ((ws.map (colText (symAt syms) base)).drop (i + 1)).isEmpty = true := by
          rw [List.drop_of_length_le (by simp; omega)]; rfl
        rw [Option.bind_some]
        constructor
        · rintro (h | h)
          · exact absurd h hbad
          · rw [ih1 h]; rfl
        · rintro ⟨_, h⟩
          rw [ih2 h, Option.bind_some, hw, he]
          simp
    · rw [if_neg hw] at ih1 ih2 ⊢
      rw [hwi] at ih1 ih2
      simp only [opt_bind, Option.bind_some] at ih1 ih2 ⊢
      have hbad : BadAt' ovf syms base ws i ↔ Stuck ovf syms base (trail base ws i).1 i ws[i] := by
        unfold BadAt'
        rw [hwi]
        constructor
        · rintro ⟨w, e, ⟨_, h1⟩ | ⟨_, h1, _⟩⟩
          · cases e; exact h1
          · exact absurd h1 hw
        · exact fun h => ⟨_, rfl, .inl ⟨by simpa using hw, h⟩⟩
      obtain ⟨e1, e2⟩ := ends_col (syms := syms) (base := base) ovf (trail base ws i).1 i ws[i]
      rw [hbad]
      by_cases hst : Stuck ovf syms base (trail base ws i).1 i ws[i]
      · rw [e1 hst]
        exact ⟨fun _ => rfl, fun h => absurd hst h.1⟩
      · rw [e2 hst, Option.bind_some]
        constructor
        · rintro (h | h)
          · exact absurd h hst
          · rw [ih1 h]; rfl
        · rintro ⟨_, h⟩
          rw [ih2 h, Option.bind_some]
          rw [Bool.not_eq_true] at hw
          simp [hw]

end

/-- **C60**, normal mode.  For all words, base addresses, symbols and both build modes: there is no listing exactly in the cases `NoListing` gives
(the call panics), and otherwise the listing is exactly `listing`. -/
theorem C60_listing (rt : Rt) (m : Mipsasm) (hm : m.debug = false) (ws : List Word) :
    (disassemble rt m ws = none ↔ NoListing rt.ovf (fun a => m.syms.lookup a) m.base ws) ∧
    (¬ NoListing rt.ovf (fun a => m.syms.lookup a) m.base ws → disassemble rt m ws = some (listing (fun a => m.syms.lookup a) m.base ws)) := by
  have hdis : disassemble rt m ws = (layout rt.ovf m.base m.syms ws.length 0 0 false ((ws.drop 0).map fun w => matchSym m.syms (decode m.base w))).map
      fun out => (getSym m.syms m.base ++ c!":") :: out := by
    unfold disassemble
    dsimp only
    rw [hm]
    simp only [Bool.false_eq_true, if_false]
    have e : (disassembleWords ws m.base).map (matchSym m.syms) = (ws.drop 0).map fun w => matchSym m.syms (decode m.base w) := by
      simp [disassembleWords, Function.comp_def]
    rw [e]
    have hl : ((ws.drop 0).map fun w => matchSym m.syms (decode m.base w)).length = ws.length := by simp
    rw [hl]
  obtain ⟨h1, h2⟩ := layout_col (syms := m.syms) (base := m.base) (ws := ws) rt.ovf ws.length 0 (by omega)
  have hiff : NoListing rt.ovf (fun a => m.syms.lookup a) m.base ws ↔ ∃ k, 0 ≤ k ∧ BadAt' rt.ovf m.syms m.base ws k :=
    noListing_iff.trans ⟨fun ⟨k, h⟩ => ⟨k, Nat.zero_le _, h⟩, fun ⟨k, _, h⟩ => ⟨k, h⟩⟩
  have pos : ¬ NoListing rt.ovf (fun a => m.syms.lookup a) m.base ws → disassemble rt m ws = some (listing (fun a => m.syms.lookup a) m.base ws) := by
    intro h
    rw [hdis, show layout rt.ovf m.base m.syms ws.length 0 0 false _ = _ from h2 fun k hk hb => h (hiff.2 ⟨k, hk, hb⟩), Option.map_some, getSym_label]
    rfl
  refine ⟨⟨fun h => ?_, fun h => ?_⟩, pos⟩
  · apply Classical.byContradiction
    intro hn
    rw [pos hn] at h; cases h
  · rw [hdis, show layout rt.ovf m.base m.syms ws.length 0 0 false _ = _ from h1 (hiff.1 h)]
    rfl

/-- **C60**, debug mode: one line per word, the same text with every run of white space turned into one space. -/
theorem C60_debug (rt : Rt) (m : Mipsasm) (hm : m.debug = true) (ws : List Word) :
    disassemble rt m ws = some (ws.map fun w => squash (colText (fun a => m.syms.lookup a) m.base w)) := by
  obtain ⟨out, h1, h2, h3⟩ := disassemble_debug rt m hm ws
  rw [h1]
  congr 1
  apply List.ext_getElem?
  intro k
  rw [List.getElem?_map]
  cases hk : ws[k]? with
  | none =>
    have := List.getElem?_eq_none_iff.1 hk
    rw [List.getElem?_eq_none (by omega)]; rfl
  | some w =>
    rw [h3 k w hk]
    unfold Instruction.debug
    rw [word_col, Option.map_some, squeeze_eq]
    rfl

/-! ### Listings -/

/-- A listing with labels, a symbol, columns, a tab, a comparison without one, a wrong sign, and a CP0 register without a
name, by the specification; and there is one. -/
example :
    listing (fun a => [(0x80000008#32, c!"g"), (0x80000004#32, c!"h")].lookup a) 0x80000000#32
      [0x03e00008#32, 0x24827fff#32, 0x0c000001#32, 0x4604103c#32, 0x46041039#32, 0x4600108a#32, 0x4003a800#32, 0x40600001#32, 0xffffffff#32] =
      [c!"func_80000000:", c!"jr         $ra", c!"addiu      $v0, $a0, -0x7fff", [], c!"g:", c!"jal        h", c!"c.lt.s\t    $fv1, $ft0",
       c!"c.ngle.s    $fv1, $ft0", c!"ceil.l.s    $fv1, $fv1", c!".word      0x4003a800          # mfc0       $v1, 0x15", c!"tlbr",
       c!"sd         $ra, -0x1($ra)"] ∧
    ¬ NoListing true (fun a => [(0x80000008#32, c!"g"), (0x80000004#32, c!"h")].lookup a) 0x80000000#32
      [0x03e00008#32, 0x24827fff#32, 0x0c000001#32, 0x4604103c#32, 0x46041039#32, 0x4600108a#32, 0x4003a800#32, 0x40600001#32, 0xffffffff#32] := by
  refine ⟨by decide +kernel, ?_⟩
  refine fun h => absurd ((C60_listing (idRt true) ⟨0x80000000#32, [(0x80000008#32, c!"g"), (0x80000004#32, c!"h")], false⟩ rfl _).1.2 h) ?_
  decide +kernel

/-- The four ways in which there is no listing. -/
example : NoListing false (fun a => [(0x80000000#32, c!"main")].lookup a) 0x80000000#32 [0#32, 0x08000000#32] :=
  ⟨1, _, rfl, .inl ⟨by decide +kernel, by decide +kernel, by decide +kernel⟩⟩
example : NoListing true (fun _ => none) 0xfffffff8#32 [0x03e00008#32, 0#32, 0x03e00008#32, 0x03e00008#32] ∧
    NoListing true (fun _ => none) 0xfffffff8#32 [0#32, 0#32, 0x0bfffffe#32] := by
  refine ⟨⟨1, _, rfl, .inr (.inr (.inr ⟨rfl, by decide +kernel, by decide, .inr ?_⟩))⟩,
    ⟨2, _, rfl, .inr (.inr (.inl ⟨rfl, by decide +kernel, by decide +kernel, by decide +kernel, .inr ?_⟩))⟩⟩ <;> unfold TooHigh <;> decide
/-- A `j` in the delay slot of a jump that leaves the function is not examined. -/
example : disassemble (idRt true) ⟨0x80000000#32, [(0x80000000#32, c!"main")], false⟩ [0x03e00008#32, 0x08000000#32] =
    some [c!"main:", c!"jr         $ra", c!"j          main"] := by decide +kernel

end Mips
