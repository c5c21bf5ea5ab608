/-
Bit-field lemmas: a word given by concatenation equals the OR of shifted fields, and fields can be
extracted again.
-/
import Verif.Spec.Isa
import Verif.Model.Assembler

namespace Mips
open Isa

theorem rWord_or (op : BitVec 6) (rs rt rd sa : BitVec 5) (fn : BitVec 6) :
    rWord op rs rt rd sa fn =
      op.setWidth 32 <<< 26 ||| rs.setWidth 32 <<< 21 ||| rt.setWidth 32 <<< 16 |||
        rd.setWidth 32 <<< 11 ||| sa.setWidth 32 <<< 6 ||| fn.setWidth 32 := by
  unfold rWord; ext i hi; simp; grind

theorem iWord_or (op : BitVec 6) (rs rt : BitVec 5) (imm : BitVec 16) :
    iWord op rs rt imm =
      op.setWidth 32 <<< 26 ||| rs.setWidth 32 <<< 21 ||| rt.setWidth 32 <<< 16 ||| imm.setWidth 32 := by
  unfold iWord; ext i hi; simp; grind

theorem jWord_or (op : BitVec 6) (t : BitVec 26) :
    jWord op t = op.setWidth 32 <<< 26 ||| t.setWidth 32 := by
  unfold jWord; ext i hi; simp; grind

theorem code_or (v : BitVec 20) (f : BitVec 6) :
    (0#6 ++ v ++ f : BitVec 32) = v.setWidth 32 <<< 6 ||| f.setWidth 32 := by
  ext i hi; simp; grind

theorem jump_or (t : Word) : (t &&& 0x3FFFFFF#32) >>> 2 = (((t >>> 2).setWidth 24).setWidth 32) := by
  ext i hi
  have : (0x3FFFFFF#32).getLsbD (2 + i) = decide (2 + i < 26) := by
    have : ∀ j : Fin 40, (0x3FFFFFF#32).getLsbD j.val = decide (j.val < 26) := by decide
    exact this ⟨2 + i, by omega⟩
  simp [this]
  by_cases h : 2 + i < 26
  · have : i < 24 := by omega
    simp [h, this]
  · have : ¬ i < 24 := by omega
    simp [this]; omega

theorem cond_or (k : BitVec 4) : 0b0000011#32 <<< 4 ||| k.setWidth 32 = ((3#2 ++ k).setWidth 32 : BitVec 32) := by
  revert k; decide

/-- The numeric value of a register given by its number. -/
theorem num_toFin (r : BitVec 5) : Register.num r.toFin = r.setWidth 32 := by
  revert r; decide

@[simp] theorem num_null : Register.num Register.null = 0#32 := rfl
@[simp] theorem num_ra : Register.num Register.ra = 31#32 := rfl

/-! ### fields of a concatenation -/

section fields
variable (op : BitVec 6) (rs rt rd sa : BitVec 5) (fn : BitVec 6) (imm : BitVec 16) (t : BitVec 26)

@[simp] theorem fOp_r : fOp (rWord op rs rt rd sa fn) = op := by
  unfold fOp rWord; ext i hi; simp; grind
@[simp] theorem fRs_r : fRs (rWord op rs rt rd sa fn) = rs := by
  unfold fRs rWord; ext i hi; simp; grind
@[simp] theorem fRt_r : fRt (rWord op rs rt rd sa fn) = rt := by
  unfold fRt rWord; ext i hi; simp; grind
@[simp] theorem fRd_r : fRd (rWord op rs rt rd sa fn) = rd := by
  unfold fRd rWord; ext i hi; simp; grind
@[simp] theorem fSa_r : fSa (rWord op rs rt rd sa fn) = sa := by
  unfold fSa rWord; ext i hi; simp; grind
@[simp] theorem fFn_r : fFn (rWord op rs rt rd sa fn) = fn := by
  unfold fFn rWord; ext i hi; simp; grind
@[simp] theorem fOp_i : fOp (iWord op rs rt imm) = op := by
  unfold fOp iWord; ext i hi; simp; grind
@[simp] theorem fRs_i : fRs (iWord op rs rt imm) = rs := by
  unfold fRs iWord; ext i hi; simp; grind
@[simp] theorem fRt_i : fRt (iWord op rs rt imm) = rt := by
  unfold fRt iWord; ext i hi; simp; grind
@[simp] theorem fImm_i : fImm (iWord op rs rt imm) = imm := by
  unfold fImm iWord; ext i hi; simp; grind
@[simp] theorem fOp_j : fOp (jWord op t) = op := by
  unfold fOp jWord; ext i hi; simp; grind
@[simp] theorem fTarget_j : fTarget (jWord op t) = t := by
  unfold fTarget jWord; ext i hi; simp; grind
@[simp] theorem fOp_code (v : BitVec 20) : fOp (0#6 ++ v ++ fn) = 0#6 := by
  unfold fOp; ext i hi; simp; grind
@[simp] theorem fCode_code (v : BitVec 20) : fCode (0#6 ++ v ++ fn) = v := by
  unfold fCode; ext i hi; simp; grind
@[simp] theorem fFn_code (v : BitVec 20) : fFn (0#6 ++ v ++ fn) = fn := by
  unfold fFn; ext i hi; simp; grind

end fields

/-- Every word is the R-type word of its fields. -/
theorem rWord_fields (w : BitVec 32) : rWord (fOp w) (fRs w) (fRt w) (fRd w) (fSa w) (fFn w) = w := by
  unfold rWord fOp fRs fRt fRd fSa fFn; ext i hi; simp; grind
theorem iWord_fields (w : BitVec 32) : iWord (fOp w) (fRs w) (fRt w) (fImm w) = w := by
  unfold iWord fOp fRs fRt fImm; ext i hi; simp; grind
theorem jWord_fields (w : BitVec 32) : jWord (fOp w) (fTarget w) = w := by
  unfold jWord fOp fTarget; ext i hi; simp; grind
theorem code_fields (w : BitVec 32) : fOp w ++ fCode w ++ fFn w = w := by
  unfold fOp fCode fFn; ext i hi; simp; grind

end Mips
