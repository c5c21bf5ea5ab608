/- Arithmetic of sign-extended words. -/
import Verif.Lemmas.PseudoL
import Verif.Spec.Pseudo

namespace Mips
open Machine Pseudo

theorem toInt_sext (w : W32) : (sext w).toInt = w.toInt := by
  unfold sext; exact BitVec.toInt_signExtend_of_le (by decide)

@[simp] theorem low_sext (w : W32) : low (sext w) = w := by
  unfold low sext; ext i hi; simp [BitVec.getLsbD_signExtend, hi]; intro h; omega

theorem isWord_sext (w : W32) : IsWord (sext w) := by unfold IsWord; rw [low_sext]
theorem isWord_zero : IsWord 0 := by decide
theorem isWord_simm (v : BitVec 16) : IsWord (v.signExtend 64) := by
  have : v.signExtend 64 = sext (v.signExtend 32) := by
    unfold sext
    apply BitVec.eq_of_toInt_eq
    rw [BitVec.toInt_signExtend_of_le (by decide), BitVec.toInt_signExtend_of_le (by decide), BitVec.toInt_signExtend_of_le (by decide)]
  rw [this]; exact isWord_sext _
theorem low_simm (v : BitVec 16) : low (v.signExtend 64) = v.signExtend 32 := by
  have : v.signExtend 64 = sext (v.signExtend 32) := by
    unfold sext
    apply BitVec.eq_of_toInt_eq
    rw [BitVec.toInt_signExtend_of_le (by decide), BitVec.toInt_signExtend_of_le (by decide), BitVec.toInt_signExtend_of_le (by decide)]
  rw [this, low_sext]

theorem Machine.IsWord.toInt {a : W64} (h : IsWord a) : a.toInt = (low a).toInt := by rw [← toInt_sext, h]
theorem Machine.IsWord.xor {a b : W64} (ha : IsWord a) (hb : IsWord b) : IsWord (a ^^^ b) := by
  have : a ^^^ b = sext (low a ^^^ low b) := by
    unfold sext; rw [BitVec.signExtend_xor]; exact (congr (congrArg _ ha) hb).symm
  rw [this]; exact isWord_sext _

theorem sext_ofInt {x : Int} (h : fits 32 x = true) : sext (BitVec.ofInt 32 x) = BitVec.ofInt 64 x := by
  simp only [fits, decide_eq_true_eq] at h
  apply BitVec.eq_of_toInt_eq
  rw [toInt_sext, BitVec.toInt_ofInt_eq_self (by decide) h.1 h.2, BitVec.toInt_ofInt_eq_self (by decide) (by have := h.1; simp at this ⊢; omega) (by have := h.2; simp at this ⊢; omega)]

theorem ofInt_toInt64 (a : W64) : BitVec.ofInt 64 a.toInt = a := BitVec.ofInt_toInt

theorem op32_ok {f : W32 → W32 → W32} {a b : W64} (ha : IsWord a) (hb : IsWord b) : op32 f a b = .ok (sext (f (low a) (low b))) := by
  unfold op32; rw [if_pos ⟨ha, hb⟩]

theorem op32t_eq {f : W32 → W32 → W32} {o : W32 → W32 → Bool} {a b : W64} (ha : IsWord a) (hb : IsWord b) :
    op32t f o a b = if o (low a) (low b) then .trap else .ok (sext (f (low a) (low b))) := by
  unfold op32t; rw [if_pos ⟨ha, hb⟩]

/-! one-instruction sequences -/

theorem computes_write {w : W32} {rd : BitVec 5} {mn : Str} {as : List Isa.Arg} {s : Cpu} {v : Val} (hd : Isa.decoding w = some (mn, as))
    (hx : exec s mn as = s.write rd v) (he : s.Entry) (cl : List (BitVec 5)) (hl : Bool) (hu : v ≠ .undef) : Computes [w] s rd cl hl v := by
  cases v with
  | ok v =>
    refine ⟨_, (chain_step rfl hd hx (set_npc _ _ _) (chain_end _ rfl)).falls he, ?_, ?_, ?_⟩
    · intro h0; rw [get_next, get_set_self _ _ h0]
    · intro r hr
      rw [get_next, get_set_ne]
      intro e; exact hr (by simp [e])
    · intro _; simp
  | trap => exact (chainT_trap rfl hd hx).traps he
  | undef => exact absurd rfl hu

theorem computes_undef {ws : List W32} {rd : BitVec 5} {s : Cpu} {cl : List (BitVec 5)} {hl : Bool} : Computes ws s rd cl hl .undef := trivial

end Mips
