/- GENERATED by tools/gen_enc.py.
What the encoder model emits for each native row: exactly the specification's word. -/
import Verif.Lemmas.Bits
import Verif.Lemmas.Rows

namespace Mips
open Isa

theorem enc_rtRsSimm_arith_main : ∀ e ∈ L_rtRsSimm_arith_main, ∀ (ovf : Bool) (rs rt : BitVec 5) (v : BitVec 16) (l : BitVec 64),
    encI ovf e.2.1 (rs.setWidth 32) (rt.setWidth 32) (v.setWidth 32) l = some [iWord e.2.2 rs rt v] := by
  simp only [L_rtRsSimm_arith_main, List.forall_mem_cons]
  repeat' apply And.intro
  all_goals first | (intros; simp [encI, iWord_or, copOp]; done) | simp

theorem enc_rtRsUimm_arith_main : ∀ e ∈ L_rtRsUimm_arith_main, ∀ (ovf : Bool) (rs rt : BitVec 5) (v : BitVec 16) (l : BitVec 64),
    encI ovf e.2.1 (rs.setWidth 32) (rt.setWidth 32) (v.setWidth 32) l = some [iWord e.2.2 rs rt v] := by
  simp only [L_rtRsUimm_arith_main, List.forall_mem_cons]
  repeat' apply And.intro
  all_goals first | (intros; simp [encI, iWord_or, copOp]; done) | simp

theorem enc_rtUimm_lui_main : ∀ e ∈ L_rtUimm_lui_main, ∀ (ovf : Bool) (rt : BitVec 5) (v : BitVec 16) (l : BitVec 64),
    encI ovf e.2.1 0#32 (rt.setWidth 32) (v.setWidth 32) l = some [iWord e.2.2 0 rt v] := by
  simp only [L_rtUimm_lui_main, List.forall_mem_cons]
  repeat' apply And.intro
  all_goals first | (intros; simp [encI, iWord_or, copOp]; done) | simp

theorem enc_rtMem_mem_main : ∀ e ∈ L_rtMem_mem_main, ∀ (ovf : Bool) (rs rt : BitVec 5) (v : BitVec 16) (l : BitVec 64),
    encI ovf e.2.1 (rs.setWidth 32) (rt.setWidth 32) (v.setWidth 32) l = some [iWord e.2.2 rs rt v] := by
  simp only [L_rtMem_mem_main, List.forall_mem_cons]
  repeat' apply And.intro
  all_goals first | (intros; simp [encI, iWord_or, copOp]; done) | simp

theorem enc_copMem_mem_main : ∀ e ∈ L_copMem_mem_main, ∀ (ovf : Bool) (rs rt : BitVec 5) (v : BitVec 16) (l : BitVec 64),
    encI ovf e.2.1 (rs.setWidth 32) (rt.setWidth 32) (v.setWidth 32) l = some [iWord e.2.2 rs rt v] := by
  simp only [L_copMem_mem_main, List.forall_mem_cons]
  repeat' apply And.intro
  all_goals first | (intros; simp [encI, iWord_or, copOp]; done) | simp

theorem enc_ftMem_fmem_main : ∀ e ∈ L_ftMem_fmem_main, ∀ (ovf : Bool) (rs rt : BitVec 5) (v : BitVec 16) (l : BitVec 64),
    encI ovf e.2.1 (rs.setWidth 32) (rt.setWidth 32) (v.setWidth 32) l = some [iWord e.2.2 rs rt v] := by
  simp only [L_ftMem_fmem_main, List.forall_mem_cons]
  repeat' apply And.intro
  all_goals first | (intros; simp [encI, iWord_or, copOp]; done) | simp

theorem enc_rsRtOff_br2_main : ∀ e ∈ L_rsRtOff_br2_main, ∀ (ovf : Bool) (rs rt : BitVec 5) (v : BitVec 16) (l : BitVec 64),
    encI ovf e.2.1 (rs.setWidth 32) (rt.setWidth 32) (v.setWidth 32) l = some [iWord e.2.2 rs rt v] := by
  simp only [L_rsRtOff_br2_main, List.forall_mem_cons]
  repeat' apply And.intro
  all_goals first | (intros; simp [encI, iWord_or, copOp]; done) | simp

theorem enc_rsOff_br1_main : ∀ e ∈ L_rsOff_br1_main, ∀ (ovf : Bool) (rs : BitVec 5) (v : BitVec 16) (l : BitVec 64),
    encI ovf e.2.1 (rs.setWidth 32) 0#32 (v.setWidth 32) l = some [iWord e.2.2 rs 0 v] := by
  simp only [L_rsOff_br1_main, List.forall_mem_cons]
  repeat' apply And.intro
  all_goals first | (intros; simp [encI, iWord_or, copOp]; done) | simp

theorem enc_rsOff_br1_regimm : ∀ e ∈ L_rsOff_br1_regimm, ∀ (ovf : Bool) (rs : BitVec 5) (v : BitVec 16) (l : BitVec 64),
    encI ovf e.2.1 (rs.setWidth 32) 0#32 (v.setWidth 32) l = some [iWord 1 rs e.2.2 v] := by
  simp only [L_rsOff_br1_regimm, List.forall_mem_cons]
  repeat' apply And.intro
  all_goals first | (intros; simp [encI, iWord_or, copOp]; done) | simp

theorem enc_rsSimm_trapi_regimm : ∀ e ∈ L_rsSimm_trapi_regimm, ∀ (ovf : Bool) (rs : BitVec 5) (v : BitVec 16) (l : BitVec 64),
    encI ovf e.2.1 (rs.setWidth 32) 0#32 (v.setWidth 32) l = some [iWord 1 rs e.2.2 v] := by
  simp only [L_rsSimm_trapi_regimm, List.forall_mem_cons]
  repeat' apply And.intro
  all_goals first | (intros; simp [encI, iWord_or, copOp]; done) | simp

theorem enc_off_bc_bc : ∀ e ∈ L_off_bc_bc, ∀ (ovf : Bool) (v : BitVec 16) (l : BitVec 64),
    encI ovf e.2.1 0#32 0#32 (v.setWidth 32) l = some [iWord (copOp e.2.2.1) 8 e.2.2.2 v] := by
  simp only [L_off_bc_bc, List.forall_mem_cons]
  repeat' apply And.intro
  all_goals first | (intros; simp [encI, iWord_or, copOp]; done) | simp

theorem enc_rdRsRt_reg3_special : ∀ e ∈ L_rdRsRt_reg3_special, ∀ (rs rt rd : BitVec 5),
    encR e.2.1 (rs.setWidth 32) (rt.setWidth 32) (rd.setWidth 32) 0#32 = [rWord 0 rs rt rd 0 e.2.2] := by
  simp only [L_rdRsRt_reg3_special, List.forall_mem_cons]
  repeat' apply And.intro
  all_goals first | (intros; simp [encR, rWord_or, code_or, copOp]; done) | (intros; simp [encR, rWord_or, copOp, BitVec.or_assoc]; done) | simp | decide

theorem enc_rdRtSa_shift_special : ∀ e ∈ L_rdRtSa_shift_special, ∀ (rt rd v : BitVec 5),
    encR e.2.1 0#32 (rt.setWidth 32) (rd.setWidth 32) (v.setWidth 32) = [rWord 0 0 rt rd v e.2.2] := by
  simp only [L_rdRtSa_shift_special, List.forall_mem_cons]
  repeat' apply And.intro
  all_goals first | (intros; simp [encR, rWord_or, code_or, copOp]; done) | (intros; simp [encR, rWord_or, copOp, BitVec.or_assoc]; done) | simp | decide

theorem enc_rdRtRs_shiftv_special : ∀ e ∈ L_rdRtRs_shiftv_special, ∀ (rs rt rd : BitVec 5),
    encR e.2.1 (rs.setWidth 32) (rt.setWidth 32) (rd.setWidth 32) 0#32 = [rWord 0 rs rt rd 0 e.2.2] := by
  simp only [L_rdRtRs_shiftv_special, List.forall_mem_cons]
  repeat' apply And.intro
  all_goals first | (intros; simp [encR, rWord_or, code_or, copOp]; done) | (intros; simp [encR, rWord_or, copOp, BitVec.or_assoc]; done) | simp | decide

theorem enc_rs_rs1_special : ∀ e ∈ L_rs_rs1_special, ∀ (rs : BitVec 5),
    encR e.2.1 (rs.setWidth 32) 0#32 0#32 0#32 = [rWord 0 rs 0 0 0 e.2.2] := by
  simp only [L_rs_rs1_special, List.forall_mem_cons]
  repeat' apply And.intro
  all_goals first | (intros; simp [encR, rWord_or, code_or, copOp]; done) | (intros; simp [encR, rWord_or, copOp, BitVec.or_assoc]; done) | simp | decide

theorem enc_rdRs_jalr_special : ∀ e ∈ L_rdRs_jalr_special, ∀ (rs rd : BitVec 5),
    encR e.2.1 (rs.setWidth 32) 0#32 (rd.setWidth 32) 0#32 = [rWord 0 rs 0 rd 0 e.2.2] := by
  simp only [L_rdRs_jalr_special, List.forall_mem_cons]
  repeat' apply And.intro
  all_goals first | (intros; simp [encR, rWord_or, code_or, copOp]; done) | (intros; simp [encR, rWord_or, copOp, BitVec.or_assoc]; done) | simp | decide

theorem enc_code_code_special : ∀ e ∈ L_code_code_special, ∀ (v : BitVec 20),
    encR e.2.1 0#32 0#32 0#32 (v.setWidth 32) = [0#6 ++ v ++ e.2.2] := by
  simp only [L_code_code_special, List.forall_mem_cons]
  repeat' apply And.intro
  all_goals first | (intros; simp [encR, rWord_or, code_or, copOp]; done) | (intros; simp [encR, rWord_or, copOp, BitVec.or_assoc]; done) | simp | decide

theorem enc_none_bare_special : ∀ e ∈ L_none_bare_special,
    encR e.2.1 0#32 0#32 0#32 0#32 = [rWord 0 0 0 0 0 e.2.2] := by
  simp only [L_none_bare_special, List.forall_mem_cons]
  repeat' apply And.intro
  all_goals first | (intros; simp [encR, rWord_or, code_or, copOp]; done) | (intros; simp [encR, rWord_or, copOp, BitVec.or_assoc]; done) | simp | decide

theorem enc_rd_rd1_special : ∀ e ∈ L_rd_rd1_special, ∀ (rd : BitVec 5),
    encR e.2.1 0#32 0#32 (rd.setWidth 32) 0#32 = [rWord 0 0 0 rd 0 e.2.2] := by
  simp only [L_rd_rd1_special, List.forall_mem_cons]
  repeat' apply And.intro
  all_goals first | (intros; simp [encR, rWord_or, code_or, copOp]; done) | (intros; simp [encR, rWord_or, copOp, BitVec.or_assoc]; done) | simp | decide

theorem enc_rsRt_reg2_special : ∀ e ∈ L_rsRt_reg2_special, ∀ (rs rt : BitVec 5),
    encR e.2.1 (rs.setWidth 32) (rt.setWidth 32) 0#32 0#32 = [rWord 0 rs rt 0 0 e.2.2] := by
  simp only [L_rsRt_reg2_special, List.forall_mem_cons]
  repeat' apply And.intro
  all_goals first | (intros; simp [encR, rWord_or, code_or, copOp]; done) | (intros; simp [encR, rWord_or, copOp, BitVec.or_assoc]; done) | simp | decide

theorem enc_rsRt_div_special : ∀ e ∈ L_rsRt_div_special, ∀ (rs rt : BitVec 5),
    encR e.2.1 (rt.setWidth 32) 0#32 (rs.setWidth 32) 0#32 = [rWord 0 rs rt 0 0 e.2.2] := by
  simp only [L_rsRt_div_special, List.forall_mem_cons]
  repeat' apply And.intro
  all_goals first | (intros; simp [encR, rWord_or, code_or, copOp]; done) | (intros; simp [encR, rWord_or, copOp, BitVec.or_assoc]; done) | simp | decide

theorem enc_rtC0_cop0_cop : ∀ e ∈ L_rtC0_cop0_cop, ∀ (rt rd : BitVec 5),
    encR e.2.1 0#32 (rt.setWidth 32) (rd.setWidth 32) 0#32 = [rWord (copOp e.2.2.1) e.2.2.2 rt rd 0 0] := by
  simp only [L_rtC0_cop0_cop, List.forall_mem_cons]
  repeat' apply And.intro
  all_goals first | (intros; simp [encR, rWord_or, code_or, copOp]; done) | (intros; simp [encR, rWord_or, copOp, BitVec.or_assoc]; done) | simp | decide

theorem enc_rtFs_cop1_cop : ∀ e ∈ L_rtFs_cop1_cop, ∀ (rt rd : BitVec 5),
    encR e.2.1 0#32 (rt.setWidth 32) (rd.setWidth 32) 0#32 = [rWord (copOp e.2.2.1) e.2.2.2 rt rd 0 0] := by
  simp only [L_rtFs_cop1_cop, List.forall_mem_cons]
  repeat' apply And.intro
  all_goals first | (intros; simp [encR, rWord_or, code_or, copOp]; done) | (intros; simp [encR, rWord_or, copOp, BitVec.or_assoc]; done) | simp | decide

theorem enc_none_tlb_co : ∀ e ∈ L_none_tlb_co,
    encR e.2.1 0#32 0#32 0#32 0#32 = [rWord (copOp 0) 16 0 0 0 e.2.2] := by
  simp only [L_none_tlb_co, List.forall_mem_cons]
  repeat' apply And.intro
  all_goals first | (intros; simp [encR, rWord_or, code_or, copOp]; done) | (intros; simp [encR, rWord_or, copOp, BitVec.or_assoc]; done) | simp | decide

theorem enc_fdFsFt_other_fp : ∀ e ∈ L_fdFsFt_other_fp, ∀ (fd fs ft : BitVec 5),
    encR e.2.1 (fs.setWidth 32) (ft.setWidth 32) (fd.setWidth 32) 0#32 = [rWord (copOp 1) e.2.2.1 ft fs fd e.2.2.2] := by
  simp only [L_fdFsFt_other_fp, List.forall_mem_cons]
  repeat' apply And.intro
  all_goals first | (intros; simp [encR, rWord_or, code_or, copOp]; done) | (intros; simp [encR, rWord_or, copOp, BitVec.or_assoc]; done) | simp | decide

theorem enc_fdFs_other_fp : ∀ e ∈ L_fdFs_other_fp, ∀ (fd fs : BitVec 5),
    encR e.2.1 (fs.setWidth 32) 0#32 (fd.setWidth 32) 0#32 = [rWord (copOp 1) e.2.2.1 0 fs fd e.2.2.2] := by
  simp only [L_fdFs_other_fp, List.forall_mem_cons]
  repeat' apply And.intro
  all_goals first | (intros; simp [encR, rWord_or, code_or, copOp]; done) | (intros; simp [encR, rWord_or, copOp, BitVec.or_assoc]; done) | simp | decide

theorem enc_fsFt_other_fp : ∀ e ∈ L_fsFt_other_fp, ∀ (fs ft : BitVec 5),
    encR e.2.1 (fs.setWidth 32) (ft.setWidth 32) 0#32 ((e.2.2.2.setWidth 4).setWidth 32) = [rWord (copOp 1) e.2.2.1 ft fs 0 e.2.2.2] := by
  simp only [L_fsFt_other_fp, List.forall_mem_cons]
  repeat' apply And.intro
  all_goals first | (intros; simp [encR, rWord_or, code_or, copOp]; done) | (intros; simp [encR, rWord_or, copOp, BitVec.or_assoc]; done) | simp | decide

theorem enc_target_jump_main : ∀ e ∈ L_target_jump_main, ∀ (t : BitVec 32),
    encJ e.2.1 t = [jWord e.2.2 (((t >>> 2).setWidth 24).setWidth 26)] := by
  simp only [L_target_jump_main, List.forall_mem_cons]
  repeat' apply And.intro
  all_goals first | (intro t; simp only [encJ, jWord_or, jump_or]; congr 2; done) | simp

end Mips
