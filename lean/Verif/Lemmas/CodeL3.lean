/- The code of the pseudo-instructions (for C57).  GENERATED by tools/gen_code2.py. -/
import Verif.Lemmas.CodeL2
import Verif.Props.Shift

namespace Mips
open Isa hiding Code
open Lang

theorem trap_or (rs rt : BitVec 5) (f : BitVec 6) (u : Word) :
    rWord 0 rs rt 0 0 f ||| u = rs.setWidth 32 <<< 21 ||| rt.setWidth 32 <<< 16 ||| u ||| f.setWidth 32 := by
  rw [rWord_or]
  have e : ∀ n : Nat, (0 : BitVec 5).setWidth 32 <<< n = 0#32 := by intro n; simp
  have e' : ∀ n : Nat, (0 : BitVec 6).setWidth 32 <<< n = 0#32 := by intro n; simp
  rw [e, e, e', BitVec.zero_or, BitVec.or_zero, BitVec.or_zero]
  rw [BitVec.or_assoc, BitVec.or_comm (f.setWidth 32), ← BitVec.or_assoc]

/-! ### the machine instructions used -/

theorem m_mult (rs rt : BitVec 5) : machine c!"mult" [.gpr rs, .gpr rt] = some (rWord 0 rs rt 0 0 0x18#6) :=
  mach_rsRt_reg2_special (c!"mult", .Mult, 0x18#6) (by decide +kernel) rs rt
theorem m_multu (rs rt : BitVec 5) : machine c!"multu" [.gpr rs, .gpr rt] = some (rWord 0 rs rt 0 0 0x19#6) :=
  mach_rsRt_reg2_special (c!"multu", .Multu, 0x19#6) (by decide +kernel) rs rt
theorem m_dmult (rs rt : BitVec 5) : machine c!"dmult" [.gpr rs, .gpr rt] = some (rWord 0 rs rt 0 0 0x1c#6) :=
  mach_rsRt_reg2_special (c!"dmult", .Dmult, 0x1c#6) (by decide +kernel) rs rt
theorem m_dmultu (rs rt : BitVec 5) : machine c!"dmultu" [.gpr rs, .gpr rt] = some (rWord 0 rs rt 0 0 0x1d#6) :=
  mach_rsRt_reg2_special (c!"dmultu", .Dmultu, 0x1d#6) (by decide +kernel) rs rt
theorem m_mflo (rd : BitVec 5) : machine c!"mflo" [.gpr rd] = some (rWord 0 0 0 rd 0 0x12#6) :=
  mach_rd_rd1_special (c!"mflo", .Mflo, 0x12#6) (by decide +kernel) rd
theorem m_mfhi (rd : BitVec 5) : machine c!"mfhi" [.gpr rd] = some (rWord 0 0 0 rd 0 0x10#6) :=
  mach_rd_rd1_special (c!"mfhi", .Mfhi, 0x10#6) (by decide +kernel) rd
theorem m_sra (rt rd : BitVec 5) (v : Int) : machine c!"sra" [.gpr rd, .gpr rt, .num v] = some (rt.setWidth 32 <<< 16 ||| rd.setWidth 32 <<< 11 ||| BitVec.ofInt 32 v <<< 6 ||| (0x03#6).setWidth 32) :=
  (mach_rdRtSa_shift_special (c!"sra", .Sra, 0x03#6) (by decide +kernel) rt rd v).trans (congrArg some (shift_or _ _ _ _))
theorem m_dsra (rt rd : BitVec 5) (v : Int) : machine c!"dsra" [.gpr rd, .gpr rt, .num v] = some (rt.setWidth 32 <<< 16 ||| rd.setWidth 32 <<< 11 ||| BitVec.ofInt 32 v <<< 6 ||| (0x3b#6).setWidth 32) :=
  (mach_rdRtSa_shift_special (c!"dsra", .Dsra, 0x3b#6) (by decide +kernel) rt rd v).trans (congrArg some (shift_or _ _ _ _))
theorem m_dsra32 (rt rd : BitVec 5) (v : Int) : machine c!"dsra32" [.gpr rd, .gpr rt, .num v] = some (rt.setWidth 32 <<< 16 ||| rd.setWidth 32 <<< 11 ||| BitVec.ofInt 32 v <<< 6 ||| (0x3f#6).setWidth 32) :=
  (mach_rdRtSa_shift_special (c!"dsra32", .Dsra32, 0x3f#6) (by decide +kernel) rt rd v).trans (congrArg some (shift_or _ _ _ _))
theorem m_dsll (rt rd : BitVec 5) (v : Int) : machine c!"dsll" [.gpr rd, .gpr rt, .num v] = some (rt.setWidth 32 <<< 16 ||| rd.setWidth 32 <<< 11 ||| BitVec.ofInt 32 v <<< 6 ||| (0x38#6).setWidth 32) :=
  (mach_rdRtSa_shift_special (c!"dsll", .Dsll, 0x38#6) (by decide +kernel) rt rd v).trans (congrArg some (shift_or _ _ _ _))
theorem m_dsll32 (rt rd : BitVec 5) (v : Int) : machine c!"dsll32" [.gpr rd, .gpr rt, .num v] = some (rt.setWidth 32 <<< 16 ||| rd.setWidth 32 <<< 11 ||| BitVec.ofInt 32 v <<< 6 ||| (0x3c#6).setWidth 32) :=
  (mach_rdRtSa_shift_special (c!"dsll32", .Dsll32, 0x3c#6) (by decide +kernel) rt rd v).trans (congrArg some (shift_or _ _ _ _))
theorem m_sll (rt rd : BitVec 5) (v : Int) : machine c!"sll" [.gpr rd, .gpr rt, .num v] = some (rt.setWidth 32 <<< 16 ||| rd.setWidth 32 <<< 11 ||| BitVec.ofInt 32 v <<< 6 ||| (0x00#6).setWidth 32) :=
  (mach_rdRtSa_shift_special (c!"sll", .Sll, 0x00#6) (by decide +kernel) rt rd v).trans (congrArg some (shift_or _ _ _ _))
theorem m_lui (rt : BitVec 5) (v : Int) : machine c!"lui" [.gpr rt, .num v] = some (iWord 0x0f#6 0 rt (.ofInt 16 v)) :=
  mach_rtUimm_lui_main (c!"lui", .Lui, 0x0f#6) (by decide +kernel) rt v
theorem m_ori (rs rt : BitVec 5) (v : Int) : machine c!"ori" [.gpr rt, .gpr rs, .num v] = some (iWord 0x0d#6 rs rt (.ofInt 16 v)) :=
  mach_rtRsUimm_arith_main (c!"ori", .Ori, 0x0d#6) (by decide +kernel) rs rt v
theorem m_xori (rs rt : BitVec 5) (v : Int) : machine c!"xori" [.gpr rt, .gpr rs, .num v] = some (iWord 0x0e#6 rs rt (.ofInt 16 v)) :=
  mach_rtRsUimm_arith_main (c!"xori", .Xori, 0x0e#6) (by decide +kernel) rs rt v
theorem m_addi (rs rt : BitVec 5) (v : Int) : machine c!"addi" [.gpr rt, .gpr rs, .num v] = some (iWord 0x08#6 rs rt (.ofInt 16 v)) :=
  mach_rtRsSimm_arith_main (c!"addi", .Addi, 0x08#6) (by decide +kernel) rs rt v
theorem m_addiu (rs rt : BitVec 5) (v : Int) : machine c!"addiu" [.gpr rt, .gpr rs, .num v] = some (iWord 0x09#6 rs rt (.ofInt 16 v)) :=
  mach_rtRsSimm_arith_main (c!"addiu", .Addiu, 0x09#6) (by decide +kernel) rs rt v
theorem m_daddi (rs rt : BitVec 5) (v : Int) : machine c!"daddi" [.gpr rt, .gpr rs, .num v] = some (iWord 0x18#6 rs rt (.ofInt 16 v)) :=
  mach_rtRsSimm_arith_main (c!"daddi", .Daddi, 0x18#6) (by decide +kernel) rs rt v
theorem m_daddiu (rs rt : BitVec 5) (v : Int) : machine c!"daddiu" [.gpr rt, .gpr rs, .num v] = some (iWord 0x19#6 rs rt (.ofInt 16 v)) :=
  mach_rtRsSimm_arith_main (c!"daddiu", .Daddiu, 0x19#6) (by decide +kernel) rs rt v
theorem m_sltiu (rs rt : BitVec 5) (v : Int) : machine c!"sltiu" [.gpr rt, .gpr rs, .num v] = some (iWord 0x0b#6 rs rt (.ofInt 16 v)) :=
  mach_rtRsSimm_arith_main (c!"sltiu", .Sltiu, 0x0b#6) (by decide +kernel) rs rt v
theorem m_bne (rs rt : BitVec 5) (v : Int) : machine c!"bne" [.gpr rs, .gpr rt, .num v] = some (iWord 0x05#6 rs rt (.ofInt 16 v)) :=
  mach_rsRtOff_br2_main (c!"bne", .Bne, 0x05#6) (by decide +kernel) rs rt v
theorem m_bnel (rs rt : BitVec 5) (v : Int) : machine c!"bnel" [.gpr rs, .gpr rt, .num v] = some (iWord 0x15#6 rs rt (.ofInt 16 v)) :=
  mach_rsRtOff_br2_main (c!"bnel", .Bnel, 0x15#6) (by decide +kernel) rs rt v
theorem m_beq (rs rt : BitVec 5) (v : Int) : machine c!"beq" [.gpr rs, .gpr rt, .num v] = some (iWord 0x04#6 rs rt (.ofInt 16 v)) :=
  mach_rsRtOff_br2_main (c!"beq", .Beq, 0x04#6) (by decide +kernel) rs rt v
theorem m_beql (rs rt : BitVec 5) (v : Int) : machine c!"beql" [.gpr rs, .gpr rt, .num v] = some (iWord 0x14#6 rs rt (.ofInt 16 v)) :=
  mach_rsRtOff_br2_main (c!"beql", .Beql, 0x14#6) (by decide +kernel) rs rt v
theorem m_bgezal (rs : BitVec 5) (v : Int) : machine c!"bgezal" [.gpr rs, .num v] = some (iWord 1 rs 0x11#5 (.ofInt 16 v)) :=
  mach_rsOff_br1_regimm (c!"bgezal", .Bgezal, 0x11#5) (by decide +kernel) rs v
theorem m_sub (rs rt rd : BitVec 5) : machine c!"sub" [.gpr rd, .gpr rs, .gpr rt] = some (rWord 0 rs rt rd 0 0x22#6) :=
  mach_rdRsRt_reg3_special (c!"sub", .Sub, 0x22#6) (by decide +kernel) rs rt rd
theorem m_subu (rs rt rd : BitVec 5) : machine c!"subu" [.gpr rd, .gpr rs, .gpr rt] = some (rWord 0 rs rt rd 0 0x23#6) :=
  mach_rdRsRt_reg3_special (c!"subu", .Subu, 0x23#6) (by decide +kernel) rs rt rd
theorem m_dsub (rs rt rd : BitVec 5) : machine c!"dsub" [.gpr rd, .gpr rs, .gpr rt] = some (rWord 0 rs rt rd 0 0x2e#6) :=
  mach_rdRsRt_reg3_special (c!"dsub", .Dsub, 0x2e#6) (by decide +kernel) rs rt rd
theorem m_dsubu (rs rt rd : BitVec 5) : machine c!"dsubu" [.gpr rd, .gpr rs, .gpr rt] = some (rWord 0 rs rt rd 0 0x2f#6) :=
  mach_rdRsRt_reg3_special (c!"dsubu", .Dsubu, 0x2f#6) (by decide +kernel) rs rt rd
theorem m_addu (rs rt rd : BitVec 5) : machine c!"addu" [.gpr rd, .gpr rs, .gpr rt] = some (rWord 0 rs rt rd 0 0x21#6) :=
  mach_rdRsRt_reg3_special (c!"addu", .Addu, 0x21#6) (by decide +kernel) rs rt rd
theorem m_daddu (rs rt rd : BitVec 5) : machine c!"daddu" [.gpr rd, .gpr rs, .gpr rt] = some (rWord 0 rs rt rd 0 0x2d#6) :=
  mach_rdRsRt_reg3_special (c!"daddu", .Daddu, 0x2d#6) (by decide +kernel) rs rt rd
theorem m_or (rs rt rd : BitVec 5) : machine c!"or" [.gpr rd, .gpr rs, .gpr rt] = some (rWord 0 rs rt rd 0 0x25#6) :=
  mach_rdRsRt_reg3_special (c!"or", .Or, 0x25#6) (by decide +kernel) rs rt rd
theorem m_xor (rs rt rd : BitVec 5) : machine c!"xor" [.gpr rd, .gpr rs, .gpr rt] = some (rWord 0 rs rt rd 0 0x26#6) :=
  mach_rdRsRt_reg3_special (c!"xor", .Xor, 0x26#6) (by decide +kernel) rs rt rd
theorem m_nor (rs rt rd : BitVec 5) : machine c!"nor" [.gpr rd, .gpr rs, .gpr rt] = some (rWord 0 rs rt rd 0 0x27#6) :=
  mach_rdRsRt_reg3_special (c!"nor", .Nor, 0x27#6) (by decide +kernel) rs rt rd
theorem m_slt (rs rt rd : BitVec 5) : machine c!"slt" [.gpr rd, .gpr rs, .gpr rt] = some (rWord 0 rs rt rd 0 0x2a#6) :=
  mach_rdRsRt_reg3_special (c!"slt", .Slt, 0x2a#6) (by decide +kernel) rs rt rd
theorem m_sltu (rs rt rd : BitVec 5) : machine c!"sltu" [.gpr rd, .gpr rs, .gpr rt] = some (rWord 0 rs rt rd 0 0x2b#6) :=
  mach_rdRsRt_reg3_special (c!"sltu", .Sltu, 0x2b#6) (by decide +kernel) rs rt rd
theorem m_dsrlv (rs rt rd : BitVec 5) : machine c!"dsrlv" [.gpr rd, .gpr rt, .gpr rs] = some (rWord 0 rs rt rd 0 0x16#6) :=
  mach_rdRtRs_shiftv_special (c!"dsrlv", .Dsrlv, 0x16#6) (by decide +kernel) rs rt rd
theorem m_dsllv (rs rt rd : BitVec 5) : machine c!"dsllv" [.gpr rd, .gpr rt, .gpr rs] = some (rWord 0 rs rt rd 0 0x14#6) :=
  mach_rdRtRs_shiftv_special (c!"dsllv", .Dsllv, 0x14#6) (by decide +kernel) rs rt rd
theorem m_jalr (rs rd : BitVec 5) : machine c!"jalr" [.gpr rd, .gpr rs] = some (rWord 0 rs 0 rd 0 0x09#6) :=
  mach_rdRs_jalr_special (c!"jalr", .Jalr, 0x09#6) (by decide +kernel) rs rd
theorem m_div (rs rt : BitVec 5) : machine c!"div" [.gpr rs, .gpr rt] = some (rWord 0 rs rt 0 0 0x1a#6) :=
  mach_rsRt_div_special (c!"div", .Div, 0x1a#6) (by decide +kernel) rs rt
theorem m_divu (rs rt : BitVec 5) : machine c!"divu" [.gpr rs, .gpr rt] = some (rWord 0 rs rt 0 0 0x1b#6) :=
  mach_rsRt_div_special (c!"divu", .Divu, 0x1b#6) (by decide +kernel) rs rt
theorem m_ddiv (rs rt : BitVec 5) : machine c!"ddiv" [.gpr rs, .gpr rt] = some (rWord 0 rs rt 0 0 0x1e#6) :=
  mach_rsRt_div_special (c!"ddiv", .Ddiv, 0x1e#6) (by decide +kernel) rs rt
theorem m_ddivu (rs rt : BitVec 5) : machine c!"ddivu" [.gpr rs, .gpr rt] = some (rWord 0 rs rt 0 0 0x1f#6) :=
  mach_rsRt_div_special (c!"ddivu", .Ddivu, 0x1f#6) (by decide +kernel) rs rt
theorem m_tne (rs rt : BitVec 5) (v : Int) : machine c!"tne" [.gpr rs, .gpr rt, .num v] = some (rs.setWidth 32 <<< 21 ||| rt.setWidth 32 <<< 16 ||| BitVec.ofInt 32 v <<< 6 ||| (0x36#6).setWidth 32) :=
  (mach_trap (c!"tne", .Tne, 0x36#6) (by decide +kernel) rs rt v).trans (congrArg some (trap_or _ _ _ _))
theorem m_teq (rs rt : BitVec 5) (v : Int) : machine c!"teq" [.gpr rs, .gpr rt, .num v] = some (rs.setWidth 32 <<< 21 ||| rt.setWidth 32 <<< 16 ||| BitVec.ofInt 32 v <<< 6 ||| (0x34#6).setWidth 32) :=
  (mach_trap (c!"teq", .Teq, 0x34#6) (by decide +kernel) rs rt v).trans (congrArg some (trap_or _ _ _ _))

macro "mach" : tactic => `(tactic| simp only [List.mapM_cons, List.mapM_nil, m_mult, m_multu, m_dmult, m_dmultu, m_mflo, m_mfhi, m_sra, m_dsra, m_dsra32, m_dsll, m_dsll32, m_sll, m_lui, m_ori, m_xori, m_addi, m_addiu, m_daddi, m_daddiu, m_sltiu, m_bne, m_bnel, m_beq, m_beql, m_bgezal, m_sub, m_subu, m_dsub, m_dsubu, m_addu, m_daddu, m_or, m_xor, m_nor, m_slt, m_sltu, m_dsrlv, m_dsllv, m_jalr, m_div, m_divu, m_ddiv, m_ddivu, m_tne, m_teq, Option.pure_def, Option.bind_eq_bind, Option.bind_some])

theorem code_of {mn : Str} {vs : List Val} {is : Code} {ws : List Word} (h : code mn vs = (expand mn vs).mapM fun i => machine i.1 i.2) (he : expand mn vs = is)
    (hm : (is.mapM fun i => machine i.1 i.2) = some ws) : code mn vs = some ws := by rw [h, he, hm]

theorem reg_ne {rt : BitVec 5} (h : rt ≠ 0) : rt.setWidth 32 ≠ 0#32 := by
  intro e; apply h; apply BitVec.eq_of_toNat_eq
  have := congrArg BitVec.toNat e
  simp only [BitVec.toNat_setWidth] at this
  have l := rt.isLt
  rw [Nat.mod_eq_of_lt (by omega)] at this
  exact this

/-! ### registers only -/

theorem p_mul (rs rt rd : BitVec 5) (sa : Word) : code c!"mul" [.gpr rd, .gpr rs, .gpr rt] = some (encR .Mul (rs.setWidth 32) (rt.setWidth 32) (rd.setWidth 32) sa) := by
  refine code_of (is := [(c!"mult", [.gpr rs, .gpr rt]), (c!"mflo", [.gpr rd])]) rfl rfl ?_
  mach
  simp [encR, rWord_or, iWord_or]
theorem p_mulu (rs rt rd : BitVec 5) (sa : Word) : code c!"mulu" [.gpr rd, .gpr rs, .gpr rt] = some (encR .Mulu (rs.setWidth 32) (rt.setWidth 32) (rd.setWidth 32) sa) := by
  refine code_of (is := [(c!"multu", [.gpr rs, .gpr rt]), (c!"mflo", [.gpr rd])]) rfl rfl ?_
  mach
  simp [encR, rWord_or, iWord_or]
theorem p_dmul (rs rt rd : BitVec 5) (sa : Word) : code c!"dmul" [.gpr rd, .gpr rs, .gpr rt] = some (encR .Dmul (rs.setWidth 32) (rt.setWidth 32) (rd.setWidth 32) sa) := by
  refine code_of (is := [(c!"dmult", [.gpr rs, .gpr rt]), (c!"mflo", [.gpr rd])]) rfl rfl ?_
  mach
  simp [encR, rWord_or, iWord_or]
theorem p_dmulu (rs rt rd : BitVec 5) (sa : Word) : code c!"dmulu" [.gpr rd, .gpr rs, .gpr rt] = some (encR .Dmulu (rs.setWidth 32) (rt.setWidth 32) (rd.setWidth 32) sa) := by
  refine code_of (is := [(c!"dmultu", [.gpr rs, .gpr rt]), (c!"mflo", [.gpr rd])]) rfl rfl ?_
  mach
  simp [encR, rWord_or, iWord_or]
theorem p_mulo (rs rt rd : BitVec 5) (sa : Word) : code c!"mulo" [.gpr rd, .gpr rs, .gpr rt] = some (encR .Mulo (rs.setWidth 32) (rt.setWidth 32) (rd.setWidth 32) sa) := by
  refine code_of (is := [(c!"mult", [.gpr rs, .gpr rt]), (c!"mflo", [.gpr rd]), (c!"sra", [.gpr rd, .gpr rd, .num 31]), (c!"mfhi", [.gpr 1]), (c!"tne", [.gpr rd, .gpr 1, .num 6]), (c!"mflo", [.gpr rd])]) rfl rfl ?_
  mach
  simp [encR, rWord_or, iWord_or]
theorem p_dmulo (rs rt rd : BitVec 5) (sa : Word) : code c!"dmulo" [.gpr rd, .gpr rs, .gpr rt] = some (encR .Dmulo (rs.setWidth 32) (rt.setWidth 32) (rd.setWidth 32) sa) := by
  refine code_of (is := [(c!"dmult", [.gpr rs, .gpr rt]), (c!"mflo", [.gpr rd]), (c!"dsra32", [.gpr rd, .gpr rd, .num 31]), (c!"mfhi", [.gpr 1]), (c!"tne", [.gpr rd, .gpr 1, .num 6]), (c!"mflo", [.gpr rd])]) rfl rfl ?_
  mach
  simp [encR, rWord_or, iWord_or]
theorem p_mulou (rs rt rd : BitVec 5) (sa : Word) : code c!"mulou" [.gpr rd, .gpr rs, .gpr rt] = some (encR .Mulou (rs.setWidth 32) (rt.setWidth 32) (rd.setWidth 32) sa) := by
  refine code_of (is := [(c!"multu", [.gpr rs, .gpr rt]), (c!"mfhi", [.gpr 1]), (c!"mflo", [.gpr rd]), (c!"tne", [.gpr 1, .gpr 0, .num 6])]) rfl rfl ?_
  mach
  simp [encR, rWord_or, iWord_or]
theorem p_dmulou (rs rt rd : BitVec 5) (sa : Word) : code c!"dmulou" [.gpr rd, .gpr rs, .gpr rt] = some (encR .Dmulou (rs.setWidth 32) (rt.setWidth 32) (rd.setWidth 32) sa) := by
  refine code_of (is := [(c!"dmultu", [.gpr rs, .gpr rt]), (c!"mfhi", [.gpr 1]), (c!"mflo", [.gpr rd]), (c!"tne", [.gpr 1, .gpr 0, .num 6])]) rfl rfl ?_
  mach
  simp [encR, rWord_or, iWord_or]
theorem p_rem (rs rt rd : BitVec 5) (sa : Word) : code c!"rem" [.gpr rd, .gpr rs, .gpr rt] = some (encR .Rem (rs.setWidth 32) (rt.setWidth 32) (rd.setWidth 32) sa) := by
  refine code_of (is := [(c!"teq", [.gpr rt, .gpr 0, .num 7]), (c!"div", [.gpr rs, .gpr rt]), (c!"lui", [.gpr 1, .num 0xFFFF]), (c!"ori", [.gpr 1, .gpr 1, .num 0xFFFF]), (c!"bne", [.gpr rt, .gpr 1, .num 3]), (c!"lui", [.gpr 1, .num 0x8000]), (c!"teq", [.gpr rs, .gpr 1, .num 6]), (c!"mfhi", [.gpr rd])]) rfl rfl ?_
  mach
  simp [encR, rWord_or, iWord_or]
theorem p_remu (rs rt rd : BitVec 5) (sa : Word) : code c!"remu" [.gpr rd, .gpr rs, .gpr rt] = some (encR .Remu (rs.setWidth 32) (rt.setWidth 32) (rd.setWidth 32) sa) := by
  refine code_of (is := [(c!"teq", [.gpr rt, .gpr 0, .num 7]), (c!"divu", [.gpr rs, .gpr rt]), (c!"mfhi", [.gpr rd])]) rfl rfl ?_
  mach
  simp [encR, rWord_or, iWord_or]
theorem p_drem (rs rt rd : BitVec 5) (sa : Word) : code c!"drem" [.gpr rd, .gpr rs, .gpr rt] = some (encR .Drem (rs.setWidth 32) (rt.setWidth 32) (rd.setWidth 32) sa) := by
  refine code_of (is := [(c!"teq", [.gpr rt, .gpr 0, .num 7]), (c!"ddiv", [.gpr rs, .gpr rt]), (c!"daddiu", [.gpr 1, .gpr 0, .num (-1)]), (c!"bne", [.gpr rt, .gpr 1, .num 4]), (c!"daddiu", [.gpr 1, .gpr 0, .num 1]), (c!"dsll32", [.gpr 1, .gpr 1, .num 31]), (c!"teq", [.gpr rs, .gpr 1, .num 6]), (c!"mfhi", [.gpr rd])]) rfl rfl ?_
  mach
  simp [encR, rWord_or, iWord_or]
theorem p_dremu (rs rt rd : BitVec 5) (sa : Word) : code c!"dremu" [.gpr rd, .gpr rs, .gpr rt] = some (encR .Dremu (rs.setWidth 32) (rt.setWidth 32) (rd.setWidth 32) sa) := by
  refine code_of (is := [(c!"teq", [.gpr rt, .gpr 0, .num 7]), (c!"ddivu", [.gpr rs, .gpr rt]), (c!"mfhi", [.gpr rd])]) rfl rfl ?_
  mach
  simp [encR, rWord_or, iWord_or]
theorem p_drol (rs rt rd : BitVec 5) (sa : Word) : code c!"drol" [.gpr rd, .gpr rs, .gpr rt] = some (encR .Drol (rs.setWidth 32) (rt.setWidth 32) (rd.setWidth 32) sa) := by
  refine code_of (is := [(c!"dsubu", [.gpr 1, .gpr 0, .gpr rt]), (c!"dsrlv", [.gpr 1, .gpr rs, .gpr 1]), (c!"dsllv", [.gpr rd, .gpr rs, .gpr rt]), (c!"or", [.gpr rd, .gpr rd, .gpr 1])]) rfl rfl ?_
  mach
  simp [encR, rWord_or, iWord_or]
theorem p_dror (rs rt rd : BitVec 5) (sa : Word) : code c!"dror" [.gpr rd, .gpr rs, .gpr rt] = some (encR .Dror (rs.setWidth 32) (rt.setWidth 32) (rd.setWidth 32) sa) := by
  refine code_of (is := [(c!"dsubu", [.gpr 1, .gpr 0, .gpr rt]), (c!"dsllv", [.gpr 1, .gpr rs, .gpr 1]), (c!"dsrlv", [.gpr rd, .gpr rs, .gpr rt]), (c!"or", [.gpr rd, .gpr rd, .gpr 1])]) rfl rfl ?_
  mach
  simp [encR, rWord_or, iWord_or]
theorem p_seq (rs rt rd : BitVec 5) (sa : Word) : code c!"seq" [.gpr rd, .gpr rs, .gpr rt] = some (encR .Seq (rs.setWidth 32) (rt.setWidth 32) (rd.setWidth 32) sa) := by
  refine code_of (is := [(c!"xor", [.gpr rd, .gpr rs, .gpr rt]), (c!"sltiu", [.gpr rd, .gpr rd, .num 1])]) rfl rfl ?_
  mach
  simp [encR, rWord_or, iWord_or]
theorem p_sne (rs rt rd : BitVec 5) (sa : Word) : code c!"sne" [.gpr rd, .gpr rs, .gpr rt] = some (encR .Sne (rs.setWidth 32) (rt.setWidth 32) (rd.setWidth 32) sa) := by
  refine code_of (is := [(c!"xor", [.gpr rd, .gpr rs, .gpr rt]), (c!"sltu", [.gpr rd, .gpr 0, .gpr rd])]) rfl rfl ?_
  mach
  simp [encR, rWord_or, iWord_or]
theorem p_sge (rs rt rd : BitVec 5) (sa : Word) : code c!"sge" [.gpr rd, .gpr rs, .gpr rt] = some (encR .Sge (rs.setWidth 32) (rt.setWidth 32) (rd.setWidth 32) sa) := by
  refine code_of (is := [(c!"slt", [.gpr rd, .gpr rs, .gpr rt]), (c!"xori", [.gpr rd, .gpr rd, .num 1])]) rfl rfl ?_
  mach
  simp [encR, rWord_or, iWord_or]
theorem p_sgeu (rs rt rd : BitVec 5) (sa : Word) : code c!"sgeu" [.gpr rd, .gpr rs, .gpr rt] = some (encR .Sgeu (rs.setWidth 32) (rt.setWidth 32) (rd.setWidth 32) sa) := by
  refine code_of (is := [(c!"sltu", [.gpr rd, .gpr rs, .gpr rt]), (c!"xori", [.gpr rd, .gpr rd, .num 1])]) rfl rfl ?_
  mach
  simp [encR, rWord_or, iWord_or]
theorem p_sgt (rs rt rd : BitVec 5) (sa : Word) : code c!"sgt" [.gpr rd, .gpr rs, .gpr rt] = some (encR .Sgt (rs.setWidth 32) (rt.setWidth 32) (rd.setWidth 32) sa) := by
  refine code_of (is := [(c!"slt", [.gpr rd, .gpr rt, .gpr rs])]) rfl rfl ?_
  mach
  simp [encR, rWord_or, iWord_or]
theorem p_sgtu (rs rt rd : BitVec 5) (sa : Word) : code c!"sgtu" [.gpr rd, .gpr rs, .gpr rt] = some (encR .Sgtu (rs.setWidth 32) (rt.setWidth 32) (rd.setWidth 32) sa) := by
  refine code_of (is := [(c!"sltu", [.gpr rd, .gpr rt, .gpr rs])]) rfl rfl ?_
  mach
  simp [encR, rWord_or, iWord_or]
theorem p_sle (rs rt rd : BitVec 5) (sa : Word) : code c!"sle" [.gpr rd, .gpr rs, .gpr rt] = some (encR .Sle (rs.setWidth 32) (rt.setWidth 32) (rd.setWidth 32) sa) := by
  refine code_of (is := [(c!"slt", [.gpr rd, .gpr rt, .gpr rs]), (c!"xori", [.gpr rd, .gpr rd, .num 1])]) rfl rfl ?_
  mach
  simp [encR, rWord_or, iWord_or]
theorem p_sleu (rs rt rd : BitVec 5) (sa : Word) : code c!"sleu" [.gpr rd, .gpr rs, .gpr rt] = some (encR .Sleu (rs.setWidth 32) (rt.setWidth 32) (rd.setWidth 32) sa) := by
  refine code_of (is := [(c!"sltu", [.gpr rd, .gpr rt, .gpr rs]), (c!"xori", [.gpr rd, .gpr rd, .num 1])]) rfl rfl ?_
  mach
  simp [encR, rWord_or, iWord_or]
theorem p_abs (rs rd : BitVec 5) (rt sa : Word) : code c!"abs" [.gpr rd, .gpr rs] = some (encR .Abs (rs.setWidth 32) rt (rd.setWidth 32) sa) := by
  refine code_of (is := [(c!"sra", [.gpr 1, .gpr rs, .num 31]), (c!"xor", [.gpr rd, .gpr rs, .gpr 1]), (c!"subu", [.gpr rd, .gpr rd, .gpr 1])]) rfl rfl ?_
  mach
  simp [encR, rWord_or, iWord_or]
theorem p_dabs (rs rd : BitVec 5) (rt sa : Word) : code c!"dabs" [.gpr rd, .gpr rs] = some (encR .Dabs (rs.setWidth 32) rt (rd.setWidth 32) sa) := by
  refine code_of (is := [(c!"dsra", [.gpr 1, .gpr rs, .num 31]), (c!"xor", [.gpr rd, .gpr rs, .gpr 1]), (c!"dsub", [.gpr rd, .gpr rd, .gpr 1])]) rfl rfl ?_
  mach
  simp [encR, rWord_or, iWord_or]
theorem p_move (rs rd : BitVec 5) (rt sa : Word) : code c!"move" [.gpr rd, .gpr rs] = some (encR .Move (rs.setWidth 32) rt (rd.setWidth 32) sa) := by
  refine code_of (is := [(c!"addu", [.gpr rd, .gpr 0, .gpr rs])]) rfl rfl ?_
  mach
  simp [encR, rWord_or, iWord_or]
theorem p_dmove (rs rd : BitVec 5) (rt sa : Word) : code c!"dmove" [.gpr rd, .gpr rs] = some (encR .Dmove (rs.setWidth 32) rt (rd.setWidth 32) sa) := by
  refine code_of (is := [(c!"daddu", [.gpr rd, .gpr rs, .gpr 0])]) rfl rfl ?_
  mach
  simp [encR, rWord_or, iWord_or]
theorem p_not (rs rd : BitVec 5) (rt sa : Word) : code c!"not" [.gpr rd, .gpr rs] = some (encR .Not (rs.setWidth 32) rt (rd.setWidth 32) sa) := by
  refine code_of (is := [(c!"nor", [.gpr rd, .gpr rs, .gpr 0])]) rfl rfl ?_
  mach
  simp [encR, rWord_or, iWord_or]
theorem p_neg (rs rd : BitVec 5) (rt sa : Word) : code c!"neg" [.gpr rd, .gpr rs] = some (encR .Neg (rs.setWidth 32) rt (rd.setWidth 32) sa) := by
  refine code_of (is := [(c!"sub", [.gpr rd, .gpr 0, .gpr rs])]) rfl rfl ?_
  mach
  simp [encR, rWord_or, iWord_or]
theorem p_negu (rs rd : BitVec 5) (rt sa : Word) : code c!"negu" [.gpr rd, .gpr rs] = some (encR .Negu (rs.setWidth 32) rt (rd.setWidth 32) sa) := by
  refine code_of (is := [(c!"subu", [.gpr rd, .gpr 0, .gpr rs])]) rfl rfl ?_
  mach
  simp [encR, rWord_or, iWord_or]
theorem p_dneg (rs rd : BitVec 5) (rt sa : Word) : code c!"dneg" [.gpr rd, .gpr rs] = some (encR .Dneg (rs.setWidth 32) rt (rd.setWidth 32) sa) := by
  refine code_of (is := [(c!"dsub", [.gpr rd, .gpr 0, .gpr rs])]) rfl rfl ?_
  mach
  simp [encR, rWord_or, iWord_or]
theorem p_dnegu (rs rd : BitVec 5) (rt sa : Word) : code c!"dnegu" [.gpr rd, .gpr rs] = some (encR .Dnegu (rs.setWidth 32) rt (rd.setWidth 32) sa) := by
  refine code_of (is := [(c!"dsubu", [.gpr rd, .gpr 0, .gpr rs])]) rfl rfl ?_
  mach
  simp [encR, rWord_or, iWord_or]
theorem p_div2 (rs rd : BitVec 5) (sa : Word) : code c!"div" [.gpr rd, .gpr rs] = some (encR .Div (rs.setWidth 32) 0#32 (rd.setWidth 32) sa) := by
  refine code_of (is := [(c!"div", [.gpr rd, .gpr rs])]) rfl rfl ?_
  mach
  simp [encR, rWord_or, iWord_or]
theorem p_div3 (rs rt rd : BitVec 5) (sa : Word) : code c!"div" [.gpr rd, .gpr rs, .gpr rt] = some (encR .Div (rs.setWidth 32) (rt.setWidth 32) (rd.setWidth 32) sa) := by
  by_cases h : rt = 0
  · subst h
    refine code_of (is := [(c!"div", [.gpr rd, .gpr rs])]) rfl rfl ?_
    mach
    simp [encR, rWord_or, iWord_or]
  · have h' : rt.setWidth 32 ≠ 0#32 := reg_ne h
    refine code_of (is := [(c!"teq", [.gpr rt, .gpr 0, .num 7]), (c!"div", [.gpr rs, .gpr rt]), (c!"lui", [.gpr 1, .num 0xFFFF]), (c!"ori", [.gpr 1, .gpr 1, .num 0xFFFF]), (c!"bne", [.gpr rt, .gpr 1, .num 3]), (c!"lui", [.gpr 1, .num 0x8000]), (c!"teq", [.gpr rs, .gpr 1, .num 6]), (c!"mflo", [.gpr rd])]) rfl ((if_neg (c := Val.gpr rt = zero) (fun e => h (by cases e; rfl))).trans rfl) ?_
    mach
    simp only [encR, if_neg h']
    simp [rWord_or, iWord_or]
theorem p_divu2 (rs rd : BitVec 5) (sa : Word) : code c!"divu" [.gpr rd, .gpr rs] = some (encR .Divu (rs.setWidth 32) 0#32 (rd.setWidth 32) sa) := by
  refine code_of (is := [(c!"divu", [.gpr rd, .gpr rs])]) rfl rfl ?_
  mach
  simp [encR, rWord_or, iWord_or]
theorem p_divu3 (rs rt rd : BitVec 5) (sa : Word) : code c!"divu" [.gpr rd, .gpr rs, .gpr rt] = some (encR .Divu (rs.setWidth 32) (rt.setWidth 32) (rd.setWidth 32) sa) := by
  by_cases h : rt = 0
  · subst h
    refine code_of (is := [(c!"divu", [.gpr rd, .gpr rs])]) rfl rfl ?_
    mach
    simp [encR, rWord_or, iWord_or]
  · have h' : rt.setWidth 32 ≠ 0#32 := reg_ne h
    refine code_of (is := [(c!"teq", [.gpr rt, .gpr 0, .num 7]), (c!"divu", [.gpr rs, .gpr rt]), (c!"mflo", [.gpr rd])]) rfl ((if_neg (c := Val.gpr rt = zero) (fun e => h (by cases e; rfl))).trans rfl) ?_
    mach
    simp only [encR, if_neg h']
    simp [rWord_or, iWord_or]
theorem p_ddiv2 (rs rd : BitVec 5) (sa : Word) : code c!"ddiv" [.gpr rd, .gpr rs] = some (encR .Ddiv (rs.setWidth 32) 0#32 (rd.setWidth 32) sa) := by
  refine code_of (is := [(c!"ddiv", [.gpr rd, .gpr rs])]) rfl rfl ?_
  mach
  simp [encR, rWord_or, iWord_or]
theorem p_ddiv3 (rs rt rd : BitVec 5) (sa : Word) : code c!"ddiv" [.gpr rd, .gpr rs, .gpr rt] = some (encR .Ddiv (rs.setWidth 32) (rt.setWidth 32) (rd.setWidth 32) sa) := by
  by_cases h : rt = 0
  · subst h
    refine code_of (is := [(c!"ddiv", [.gpr rd, .gpr rs])]) rfl rfl ?_
    mach
    simp [encR, rWord_or, iWord_or]
  · have h' : rt.setWidth 32 ≠ 0#32 := reg_ne h
    refine code_of (is := [(c!"teq", [.gpr rt, .gpr 0, .num 7]), (c!"ddiv", [.gpr rs, .gpr rt]), (c!"daddiu", [.gpr 1, .gpr 0, .num (-1)]), (c!"bne", [.gpr rt, .gpr 1, .num 4]), (c!"daddiu", [.gpr 1, .gpr 0, .num 1]), (c!"dsll32", [.gpr 1, .gpr 1, .num 31]), (c!"teq", [.gpr rs, .gpr 1, .num 6]), (c!"mflo", [.gpr rd])]) rfl ((if_neg (c := Val.gpr rt = zero) (fun e => h (by cases e; rfl))).trans rfl) ?_
    mach
    simp only [encR, if_neg h']
    simp [rWord_or, iWord_or]
theorem p_ddivu2 (rs rd : BitVec 5) (sa : Word) : code c!"ddivu" [.gpr rd, .gpr rs] = some (encR .Ddivu (rs.setWidth 32) 0#32 (rd.setWidth 32) sa) := by
  refine code_of (is := [(c!"ddivu", [.gpr rd, .gpr rs])]) rfl rfl ?_
  mach
  simp [encR, rWord_or, iWord_or]
theorem p_ddivu3 (rs rt rd : BitVec 5) (sa : Word) : code c!"ddivu" [.gpr rd, .gpr rs, .gpr rt] = some (encR .Ddivu (rs.setWidth 32) (rt.setWidth 32) (rd.setWidth 32) sa) := by
  by_cases h : rt = 0
  · subst h
    refine code_of (is := [(c!"ddivu", [.gpr rd, .gpr rs])]) rfl rfl ?_
    mach
    simp [encR, rWord_or, iWord_or]
  · have h' : rt.setWidth 32 ≠ 0#32 := reg_ne h
    refine code_of (is := [(c!"teq", [.gpr rt, .gpr 0, .num 7]), (c!"ddivu", [.gpr rs, .gpr rt]), (c!"mflo", [.gpr rd])]) rfl ((if_neg (c := Val.gpr rt = zero) (fun e => h (by cases e; rfl))).trans rfl) ?_
    mach
    simp only [encR, if_neg h']
    simp [rWord_or, iWord_or]

theorem p_nop (rs rt rd sa : Word) : code c!"nop" [] = some (encR .Nop rs rt rd sa) := by
  refine code_of (is := [(c!"sll", [.gpr 0, .gpr 0, .num 0])]) rfl rfl ?_
  mach
  simp [encR]
theorem p_clear (rs rt : Word) (rd : BitVec 5) (sa : Word) : code c!"clear" [.gpr rd] = some (encR .Clear rs rt (rd.setWidth 32) sa) := by
  refine code_of (is := [(c!"addu", [.gpr rd, .gpr 0, .gpr 0])]) rfl rfl ?_
  mach
  simp [encR, rWord_or]
theorem p_jalr (rs : BitVec 5) (rt sa : Word) : code c!"jalr" [.gpr rs] = some (encR .Jalr (rs.setWidth 32) rt 31#32 sa) := by
  refine code_of (is := [(c!"jalr", [.gpr 31, .gpr rs])]) rfl rfl ?_
  mach
  simp [encR, rWord_or]

end Mips
