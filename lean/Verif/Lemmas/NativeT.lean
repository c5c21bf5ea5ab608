/- The native-instruction line theorem. -/
import Verif.Lemmas.NativeL
import Verif.Lemmas.PlaceL

namespace Mips
open Isa Syntax

/-- Label resolution leaves this instruction alone, and nothing has been emitted for it yet. -/
def Plain : Instruction → Prop
  | .imm _ _ _ (.short _) b => b = []
  | .reg _ _ _ _ _ b => b = []
  | _ => False

theorem table_mnOk : ∀ r ∈ table, mnOk r.mn = true := by decide +kernel

theorem L_fsFt_cond : ∀ e ∈ L_fsFt_other_fp, condOk e = true := by decide +kernel
theorem L_fp3_facts : ∀ e ∈ L_fdFsFt_other_fp, 2 ≤ e.1.length ∧
    [c!"add", c!"sub", c!"mul", c!"div"].contains (e.1.take (e.1.length - 2)) = true := by decide +kernel
theorem L_fp2_facts : ∀ e ∈ L_fdFs_other_fp, 2 ≤ e.1.length ∧
    [c!"add", c!"sub", c!"mul", c!"div"].contains (e.1.take (e.1.length - 2)) = false ∧
    fp2Prefixes.contains (e.1.take (e.1.length - 2)) = true := by decide +kernel
theorem L_simm_facts : ∀ e ∈ L_rtRsSimm_arith_main, e.1 ≠ c!"andi" ∧ e.1 ≠ c!"ori" ∧ e.1 ≠ c!"xori" := by decide +kernel
theorem L_uimm_facts : ∀ e ∈ L_rtRsUimm_arith_main, e.1 = c!"andi" ∨ e.1 = c!"ori" ∨ e.1 = c!"xori" := by decide +kernel
theorem L_mem_facts : ∀ e ∈ L_rtMem_mem_main, e.1 ≠ c!"cache" := by decide +kernel
theorem L_cop_facts : ∀ e ∈ L_copMem_mem_main, e.1 = c!"cache" := by decide +kernel

theorem encode_imm (ovf : Bool) (op : ITypeOp) (rs rt : Register) (v : BitVec 16) (b : List Word) :
    encode ovf (.imm op rs rt (.short v) b) = encI ovf op rs.num rt.num (v.setWidth 32) (v.setWidth 64) := rfl
theorem encode_reg (ovf : Bool) (op : RTypeOp) (rs rt rd : Register) (sa : Word) (b : List Word) :
    encode ovf (.reg op rs rt rd sa b) = some (encR op rs.num rt.num rd.num sa) := rfl

/-- The class of outcomes we claim for a native line. -/
def NativeOut (res : Res ParserError Instruction) (w : Word) : Prop :=
  ∃ inst, res = .ok inst ∧ Plain inst ∧ ∀ ovf, encode ovf inst = some [w]

set_option maxHeartbeats 2000000 in
theorem native_args [Unicode] (x : Ctx) (hl : NoNumLabel x.labels) {r : Row} (hr : r ∈ table) {mn' text : Str}
    (hm : SameName mn' r.mn) (hcase : r.syn = .rtRsUimm → mn' = r.mn) {args : List Arg} (hs : SpellsAll text args)
    {w : Word} (hw : place r.code r.syn args = some w) :
    NativeOut (parseInst x (mn' ++ ' ' :: text)).res w := by
  have hmn : Mn mn' r.mn := ⟨hm, table_mnOk r hr⟩
  rw [parseInst_args x hmn]
  have hsp := spellsAll_split hs
  cases rowKind r hr with
  | target_jump_main m o f he =>
    obtain ⟨t, rfl, rfl⟩ := place_target_main hw
    obtain ⟨s, h0, h1⟩ := spellsL1 hsp
    cases h1
  | rsRtOff_br2_main m o f he =>
    obtain ⟨rs, rt, v, rfl, rfl⟩ := place_rsRtOff_main hw
    obtain ⟨s, t, u, h0, h1, h2, h3⟩ := spellsL3 hsp
    cases h3
  | rsOff_br1_main m o f he =>
    obtain ⟨rs, v, rfl, rfl⟩ := place_rsOff_main hw
    obtain ⟨s, t, h0, h1, h2⟩ := spellsL2 hsp
    cases h2
  | rsOff_br1_regimm m o f he =>
    obtain ⟨rs, v, rfl, rfl⟩ := place_rsOff_regimm hw
    obtain ⟨s, t, h0, h1, h2⟩ := spellsL2 hsp
    cases h2
  | off_bc_bc m o z f he =>
    obtain ⟨v, rfl, rfl⟩ := place_off_bc hw
    obtain ⟨s, h0, h1⟩ := spellsL1 hsp
    cases h1
  | none_bare_special m o f he =>
    obtain ⟨rfl, rfl⟩ := place_none_special hw
    cases hs
  | none_tlb_co m o f he =>
    obtain ⟨rfl, rfl⟩ := place_none_co hw
    cases hs
  | rtRsSimm_arith_main m o f he =>
    obtain ⟨_, k2, k3⟩ := L_rtRsSimm_arith_main_ok _ he
    obtain ⟨rt, rs, v, rfl, rfl⟩ := place_rtRsSimm_main hw
    obtain ⟨s, t, u, h0, h1, h2, h3⟩ := spellsL3 hsp
    dsimp only at k2 k3 ⊢
    rw [k2, arm_arith_s x hmn k3 h0 (L_simm_facts _ he) h1.gpr' h2.gpr' (parseImm_i16 x hl h3.simm')]
    refine ⟨_, rfl, rfl, fun ovf => ?_⟩
    simp only [encode_imm, num_toFin, num_null]; exact enc_rtRsSimm_arith_main _ he ovf rs rt v _
  | rtRsUimm_arith_main m o f he =>
    obtain ⟨_, k2, k3⟩ := L_rtRsUimm_arith_main_ok _ he
    obtain ⟨rt, rs, v, rfl, rfl⟩ := place_rtRsUimm_main hw
    obtain ⟨s, t, u, h0, h1, h2, h3⟩ := spellsL3 hsp
    dsimp only at k2 k3 hcase ⊢
    have hmm : mn' = m := hcase rfl
    rw [k2, arm_arith_u x hmn k3 h0 (by rw [hmm]; exact L_uimm_facts _ he) h1.gpr' h2.gpr' (parseImm_u16 x hl h3.uimm')]
    refine ⟨_, rfl, rfl, fun ovf => ?_⟩
    simp only [encode_imm, num_toFin, num_null]; exact enc_rtRsUimm_arith_main _ he ovf rs rt v _
  | rtUimm_lui_main m o f he =>
    obtain ⟨_, k2, k3⟩ := L_rtUimm_lui_main_ok _ he
    obtain ⟨rt, v, rfl, rfl⟩ := place_rtUimm_main hw
    obtain ⟨s, t, h0, h1, h2⟩ := spellsL2 hsp
    dsimp only at k2 k3 ⊢
    rw [k2, arm_lui x hmn k3 h0 h1.gpr' (parseImm_u16 x hl h2.uimm')]
    refine ⟨_, rfl, rfl, fun ovf => ?_⟩
    simp only [encode_imm, num_toFin, num_null]; exact enc_rtUimm_lui_main _ he ovf rt v _
  | rtMem_mem_main m o f he =>
    obtain ⟨_, k2, k3⟩ := L_rtMem_mem_main_ok _ he
    obtain ⟨rt, v, b, rfl, rfl⟩ := place_rtMem_main hw
    obtain ⟨s, t, h0, h1, h2⟩ := spellsL2 hsp
    dsimp only at k2 k3 ⊢
    rw [k2, arm_mem x hmn k3 h0 hl (L_mem_facts _ he) h1.gpr' h2]
    refine ⟨_, rfl, rfl, fun ovf => ?_⟩
    simp only [encode_imm, num_toFin, num_null]; exact enc_rtMem_mem_main _ he ovf b rt v _
  | copMem_mem_main m o f he =>
    obtain ⟨_, k2, k3⟩ := L_copMem_mem_main_ok _ he
    obtain ⟨c, v, b, rfl, rfl⟩ := place_copMem_main hw
    obtain ⟨s, t, h0, h1, h2⟩ := spellsL2 hsp
    have hc : m = c!"cache" := L_cop_facts _ he
    dsimp only at k2 k3 hmn ⊢
    rw [k2]; rw [hc] at hmn k3
    rw [arm_cache x hmn k3 h0 hl h1.cop' h2]
    refine ⟨_, rfl, rfl, fun ovf => ?_⟩
    simp only [encode_imm, num_toFin, num_null]; exact enc_copMem_mem_main _ he ovf b c v _
  | ftMem_fmem_main m o f he =>
    obtain ⟨_, k2, k3⟩ := L_ftMem_fmem_main_ok _ he
    obtain ⟨rt, v, b, rfl, rfl⟩ := place_ftMem_main hw
    obtain ⟨s, t, h0, h1, h2⟩ := spellsL2 hsp
    dsimp only at k2 k3 ⊢
    rw [k2, arm_fmem x hmn k3 h0 hl h1.fpr' h2]
    refine ⟨_, rfl, rfl, fun ovf => ?_⟩
    simp only [encode_imm, num_toFin, num_null]; exact enc_ftMem_fmem_main _ he ovf b rt v _
  | rdRtSa_shift_special m o f he =>
    obtain ⟨_, k2, k3⟩ := L_rdRtSa_shift_special_ok _ he
    obtain ⟨rd, rt, v, rfl, rfl⟩ := place_rdRtSa_special hw
    obtain ⟨s, t, u, h0, h1, h2, h3⟩ := spellsL3 hsp
    dsimp only at k2 k3 ⊢
    rw [k2, arm_shift x hmn k3 h0 h1.gpr' h2.gpr' (by have := v.isLt; omega) h3.sa']
    refine ⟨_, rfl, rfl, fun ovf => ?_⟩
    have hv : BitVec.ofNat 32 v.toNat = v.setWidth 32 := by rw [BitVec.ofNat_toNat]
    simp only [encode_reg, num_toFin, num_null, hv]; exact congrArg some (enc_rdRtSa_shift_special _ he rt rd v)
  | rdRtRs_shiftv_special m o f he =>
    obtain ⟨_, k2, k3⟩ := L_rdRtRs_shiftv_special_ok _ he
    obtain ⟨rd, rt, rs, rfl, rfl⟩ := place_rdRtRs_special hw
    obtain ⟨s, t, u, h0, h1, h2, h3⟩ := spellsL3 hsp
    dsimp only at k2 k3 ⊢
    rw [k2, arm_shiftv x hmn k3 h0 h1.gpr' h2.gpr' h3.gpr']
    refine ⟨_, rfl, rfl, fun ovf => ?_⟩
    simp only [encode_reg, num_toFin, num_null]; exact congrArg some (enc_rdRtRs_shiftv_special _ he rs rt rd)
  | rs_rs1_special m o f he =>
    obtain ⟨_, k2, k3⟩ := L_rs_rs1_special_ok _ he
    obtain ⟨rs, rfl, rfl⟩ := place_rs_special hw
    obtain ⟨s, h0, h1⟩ := spellsL1 hsp
    dsimp only at k2 k3 ⊢
    rw [k2, arm_rs1 x hmn k3 h0 h1.gpr']
    refine ⟨_, rfl, rfl, fun ovf => ?_⟩
    simp only [encode_reg, num_toFin, num_null]; exact congrArg some (enc_rs_rs1_special _ he rs)
  | rdRs_jalr_special m o f he =>
    obtain ⟨_, k2, k3⟩ := L_rdRs_jalr_special_ok _ he
    obtain ⟨rd, rs, rfl, rfl⟩ := place_rdRs_special hw
    obtain ⟨s, t, h0, h1, h2⟩ := spellsL2 hsp
    dsimp only at k2 k3 ⊢
    rw [k2, arm_jalr2 x hmn k3 h0 h1.gpr' h2.gpr']
    refine ⟨_, rfl, rfl, fun ovf => ?_⟩
    simp only [encode_reg, num_toFin, num_null]; exact congrArg some (enc_rdRs_jalr_special _ he rs rd)
  | code_code_special m o f he =>
    obtain ⟨_, k2, k3⟩ := L_code_code_special_ok _ he
    obtain ⟨v, rfl, rfl⟩ := place_code_special hw
    obtain ⟨s, h0, h1⟩ := spellsL1 hsp
    dsimp only at k2 k3 ⊢
    obtain ⟨hv, hlt⟩ := h1.code'
    have e : (v.setWidth 16).toNat = v.toNat := by simp only [BitVec.toNat_setWidth]; omega
    have e2 : (v.setWidth 16).setWidth 32 = v.setWidth 32 := by
      apply BitVec.eq_of_toNat_eq
      simp only [BitVec.toNat_setWidth]; omega
    rw [k2, arm_code x hmn k3 h0 hl (v := v.setWidth 16) (by rw [e]; exact hv)]
    refine ⟨_, rfl, rfl, fun ovf => ?_⟩
    simp only [encode_reg, num_toFin, num_null, e2]; exact congrArg some (enc_code_code_special _ he v)
  | rd_rd1_special m o f he =>
    obtain ⟨_, k2, k3⟩ := L_rd_rd1_special_ok _ he
    obtain ⟨rd, rfl, rfl⟩ := place_rd_special hw
    obtain ⟨s, h0, h1⟩ := spellsL1 hsp
    dsimp only at k2 k3 ⊢
    rw [k2, arm_rd1 x hmn k3 h0 h1.gpr']
    refine ⟨_, rfl, rfl, fun ovf => ?_⟩
    simp only [encode_reg, num_toFin, num_null]; exact congrArg some (enc_rd_rd1_special _ he rd)
  | rsRt_reg2_special m o f he =>
    obtain ⟨_, k2, k3⟩ := L_rsRt_reg2_special_ok _ he
    obtain ⟨rs, rt, rfl, rfl⟩ := place_rsRt_special hw
    obtain ⟨s, t, h0, h1, h2⟩ := spellsL2 hsp
    dsimp only at k2 k3 ⊢
    rw [k2, arm_reg2 x hmn k3 h0 h1.gpr' h2.gpr']
    refine ⟨_, rfl, rfl, fun ovf => ?_⟩
    simp only [encode_reg, num_toFin, num_null]; exact congrArg some (enc_rsRt_reg2_special _ he rs rt)
  | rsRt_div_special m o f he =>
    obtain ⟨_, k2, k3⟩ := L_rsRt_div_special_ok _ he
    obtain ⟨rs, rt, rfl, rfl⟩ := place_rsRt_special hw
    obtain ⟨s, t, h0, h1, h2⟩ := spellsL2 hsp
    dsimp only at k2 k3 ⊢
    rw [k2, arm_div2 x hmn k3 h0 h1.gpr' h2.gpr']
    refine ⟨_, rfl, rfl, fun ovf => ?_⟩
    simp only [encode_reg, num_toFin, num_null]; exact congrArg some (enc_rsRt_div_special _ he rs rt)
  | rdRsRt_reg3_special m o f he =>
    obtain ⟨_, k2, k3⟩ := L_rdRsRt_reg3_special_ok _ he
    obtain ⟨rd, rs, rt, rfl, rfl⟩ := place_rdRsRt_special hw
    obtain ⟨s, t, u, h0, h1, h2, h3⟩ := spellsL3 hsp
    dsimp only at k2 k3 ⊢
    rw [k2, arm_reg3 x hmn k3 h0 h1.gpr' h2.gpr' h3.gpr']
    refine ⟨_, rfl, rfl, fun ovf => ?_⟩
    simp only [encode_reg, num_toFin, num_null]; exact congrArg some (enc_rdRsRt_reg3_special _ he rs rt rd)
  | rsSimm_trapi_regimm m o f he =>
    obtain ⟨_, k2, k3⟩ := L_rsSimm_trapi_regimm_ok _ he
    obtain ⟨rs, v, rfl, rfl⟩ := place_rsSimm_regimm hw
    obtain ⟨s, t, h0, h1, h2⟩ := spellsL2 hsp
    dsimp only at k2 k3 ⊢
    rw [k2, arm_trapi x hmn k3 h0 h1.gpr' (parseImm_i16 x hl h2.simm')]
    refine ⟨_, rfl, rfl, fun ovf => ?_⟩
    simp only [encode_imm, num_toFin, num_null]; exact enc_rsSimm_trapi_regimm _ he ovf rs v _
  | rtC0_cop0_cop m o z f he =>
    obtain ⟨_, k2, k3⟩ := L_rtC0_cop0_cop_ok _ he
    obtain ⟨rt, rd, rfl, rfl⟩ := place_rtC0_cop hw
    obtain ⟨s, t, h0, h1, h2⟩ := spellsL2 hsp
    dsimp only at k2 k3 ⊢
    rw [k2, arm_cop0 x hmn k3 h0 h1.gpr' h2.c0']
    refine ⟨_, rfl, rfl, fun ovf => ?_⟩
    simp only [encode_reg, num_toFin, num_null]; exact congrArg some (enc_rtC0_cop0_cop _ he rt rd)
  | rtFs_cop1_cop m o z f he =>
    obtain ⟨_, k2, k3⟩ := L_rtFs_cop1_cop_ok _ he
    obtain ⟨rt, rd, rfl, rfl⟩ := place_rtFs_cop hw
    obtain ⟨s, t, h0, h1, h2⟩ := spellsL2 hsp
    dsimp only at k2 k3 ⊢
    rw [k2, arm_cop1 x hmn k3 h0 h1.gpr' h2.fpr']
    refine ⟨_, rfl, rfl, fun ovf => ?_⟩
    simp only [encode_reg, num_toFin, num_null]; exact congrArg some (enc_rtFs_cop1_cop _ he rt rd)
  | fdFsFt_other_fp m o z f he =>
    obtain ⟨_, k2, k3⟩ := L_fdFsFt_other_fp_ok _ he
    obtain ⟨fd, fs, ft, rfl, rfl⟩ := place_fdFsFt_fp hw
    obtain ⟨s, t, u, h0, h1, h2, h3⟩ := spellsL3 hsp
    obtain ⟨f1, f2⟩ := L_fp3_facts _ he
    dsimp only at k2 k3 ⊢
    rw [k2, arm_fp3 x hmn k3 h0 f1 f2 h1.fpr' h2.fpr' h3.fpr']
    refine ⟨_, rfl, rfl, fun ovf => ?_⟩
    simp only [encode_reg, num_toFin, num_null]; exact congrArg some (enc_fdFsFt_other_fp _ he fd fs ft)
  | fdFs_other_fp m o z f he =>
    obtain ⟨_, k2, k3⟩ := L_fdFs_other_fp_ok _ he
    obtain ⟨fd, fs, rfl, rfl⟩ := place_fdFs_fp hw
    obtain ⟨s, t, h0, h1, h2⟩ := spellsL2 hsp
    obtain ⟨f1, f2, f3⟩ := L_fp2_facts _ he
    dsimp only at k2 k3 ⊢
    rw [k2, arm_fp2 x hmn k3 h0 f1 f2 f3 h1.fpr' h2.fpr']
    refine ⟨_, rfl, rfl, fun ovf => ?_⟩
    simp only [encode_reg, num_toFin, num_null]; exact congrArg some (enc_fdFs_other_fp _ he fd fs)
  | fsFt_other_fp m o z f he =>
    obtain ⟨_, k2, _⟩ := L_fsFt_other_fp_ok _ he
    obtain ⟨fs, ft, rfl, rfl⟩ := place_fsFt_fp hw
    obtain ⟨s, t, h0, h1, h2⟩ := spellsL2 hsp
    dsimp only at k2 ⊢
    rw [k2, arm_cond x (e := (m, o, z, f)) hmn (L_fsFt_cond _ he) h0 h1.fpr' h2.fpr']
    refine ⟨_, rfl, rfl, fun ovf => ?_⟩
    simp only [encode_reg, num_toFin, num_null]; exact congrArg some (enc_fsFt_other_fp _ he fs ft)

/-- Operand-less instructions, and `break`/`syscall` without a code. -/
theorem native_bare [Unicode] (x : Ctx) {r : Row} (hr : r ∈ table) {mn' : Str} (hm : SameName mn' r.mn)
    {w : Word} (hw : place r.code r.syn [] = some w ∨ place r.code r.syn [.code 0] = some w) :
    NativeOut (parseInst x mn').res w := by
  have hmn : Mn mn' r.mn := ⟨hm, table_mnOk r hr⟩
  rw [parseInst_bare x hmn]
  cases rowKind r hr with
  | none_bare_special m o f he =>
    obtain ⟨_, k2, k3⟩ := L_none_bare_special_ok _ he
    rcases hw with hw | hw
    · obtain ⟨-, rfl⟩ := place_none_special hw
      dsimp only at k2 k3 ⊢
      rw [k2, arm_bare x hmn k3]
      refine ⟨_, rfl, rfl, fun ovf => ?_⟩
      simp only [encode_reg, num_null]; exact congrArg some (enc_none_bare_special _ he)
    · obtain ⟨h, -⟩ := place_none_special hw; cases h
  | none_tlb_co m o f he =>
    obtain ⟨_, k2, k3⟩ := L_none_tlb_co_ok _ he
    rcases hw with hw | hw
    · obtain ⟨-, rfl⟩ := place_none_co hw
      dsimp only at k2 k3 ⊢
      rw [k2, arm_tlb x hmn k3]
      refine ⟨_, rfl, rfl, fun ovf => ?_⟩
      simp only [encode_reg, num_null]; exact congrArg some (enc_none_tlb_co _ he)
    · obtain ⟨h, -⟩ := place_none_co hw; cases h
  | code_code_special m o f he =>
    obtain ⟨_, k2, k3⟩ := L_code_code_special_ok _ he
    rcases hw with hw | hw
    · obtain ⟨v, h, -⟩ := place_code_special hw; cases h
    · obtain ⟨v, h, rfl⟩ := place_code_special hw
      cases h
      dsimp only at k2 k3 ⊢
      rw [k2, arm_code0 x hmn k3]
      refine ⟨_, rfl, rfl, fun ovf => ?_⟩
      simp only [encode_reg, num_null]; exact congrArg some (enc_code_code_special _ he 0#20)
  | _ => rcases hw with hw | hw <;> simp [place] at hw

end Mips
