/- The code of the machine instructions, by rows of the instruction table (for C57).  GENERATED by tools/gen_code.py. -/
import Verif.Lemmas.Enc
import Verif.Spec.Code

namespace Mips
open Isa Lang

/-! ### mnemonics that are no pseudo-instructions -/

theorem code_num3 {mn : Str} {a b : Val} {v : Int} {w : Word} (h : (expandNum.lookup mn).isNone = true ∧ mn ∉ Branch.cmpBranchNames)
    (hm : machine mn [a, b, .num v] = some w) : code mn [a, b, .num v] = some [w] := by
  have e : expand mn [a, b, .num v] = [(mn, [a, b, .num v])] := by
    simp only [expand, Option.isNone_iff_eq_none.1 h.1]
  have hn : ¬ (mn ∈ Branch.cmpBranchNames ∧ v % 65536 = 0) := fun c => h.2 c.1
  simp only [code, if_neg hn, e, List.mapM_cons, List.mapM_nil, hm]; rfl
theorem code_num1 {mn : Str} {v : Int} {w : Word} (h : mn ≠ c!"b" ∧ mn ≠ c!"bal") (hm : machine mn [.num v] = some w) : code mn [.num v] = some [w] := by
  have e : expand mn [.num v] = [(mn, [.num v])] := by simp only [expand, if_neg h.1, if_neg h.2]
  simp only [code, e, List.mapM_cons, List.mapM_nil, hm]; rfl
theorem code_one {mn : Str} {a : Val} {w : Word} (ha : ∀ v, a ≠ .num v) (h : mn ≠ c!"clear" ∧ mn ≠ c!"jalr") (hm : machine mn [a] = some w) : code mn [a] = some [w] := by
  have e : expand mn [a] = [(mn, [a])] := by
    cases a <;> first | exact absurd rfl (ha _) | simp only [expand, if_neg h.1, if_neg h.2]
  simp only [code, e, List.mapM_cons, List.mapM_nil, hm]; rfl
theorem code_num2 {mn : Str} {a : Val} {v : Int} {w : Word} (h : (expandOne.lookup mn).isNone = true)
    (hm : machine mn [a, .num v] = some w) : code mn [a, .num v] = some [w] := by
  have e : expand mn [a, .num v] = [(mn, [a, .num v])] := by simp only [expand, Option.isNone_iff_eq_none.1 h]
  simp only [code, e, List.mapM_cons, List.mapM_nil, hm]; rfl
theorem code_two {mn : Str} {a b : Val} {w : Word} (hb : ∀ v, b ≠ .num v) (h : (expandTwo.lookup mn).isNone = true)
    (hm : machine mn [a, b] = some w) : code mn [a, b] = some [w] := by
  have e : expand mn [a, b] = [(mn, [a, b])] := by
    cases b <;> first | exact absurd rfl (hb _) | simp only [expand, Option.isNone_iff_eq_none.1 h]
  simp only [code, e, List.mapM_cons, List.mapM_nil, hm]; rfl
theorem code_three {mn : Str} {a b c : Val} {w : Word} (hc : ∀ v, c ≠ .num v) (h : (expandRegs.lookup mn).isNone = true ∧ (expandDiv.lookup mn).isNone = true)
    (hm : machine mn [a, b, c] = some w) : code mn [a, b, c] = some [w] := by
  have e : expand mn [a, b, c] = [(mn, [a, b, c])] := by
    cases c <;> first | exact absurd rfl (hc _) | simp only [expand, Option.isNone_iff_eq_none.1 h.1, Option.isNone_iff_eq_none.1 h.2]
  have e2 : code mn [a, b, c] = (expand mn [a, b, c]).mapM fun i => machine i.1 i.2 := by
    cases c <;> first | exact absurd rfl (hc _) | rfl
  simp only [e2, e, List.mapM_cons, List.mapM_nil, hm]; rfl
theorem code_nil {mn : Str} {w : Word} (h : mn ≠ c!"nop") (hm : machine mn [] = some w) : code mn [] = some [w] := by
  have e : expand mn [] = [(mn, [])] := by simp only [expand, if_neg h]
  simp only [code, e, List.mapM_cons, List.mapM_nil, hm]; rfl

theorem machine_row {mn : Str} {r : Row} {s : Syn} {vs : List Val} {as : List Arg} {w : BitVec 32}
    (h : (table.find? fun r => r.mn == mn) = some r ∧ synOf mn = s) (ha : Lang.args s vs = as) (hp : place r.code r.syn as = some w)
    (he : extra s vs = 0#32) : machine mn vs = some w := by
  unfold machine encoding
  rw [h.2, ha, he, h.1]
  simp only [hp, Option.map_some]
  simp

/-! ### the rows -/

theorem row_rtRsSimm_arith_main : ∀ e ∈ L_rtRsSimm_arith_main, ((table.find? fun r => r.mn == e.1) = some ⟨e.1, .rtRsSimm, .main e.2.2⟩ ∧ synOf e.1 = .rtRsSimm) ∧ (expandNum.lookup e.1).isNone = true ∧ e.1 ∉ Branch.cmpBranchNames := by decide +kernel
theorem mach_rtRsSimm_arith_main : ∀ e ∈ L_rtRsSimm_arith_main, ∀ (rs rt : BitVec 5) (v : Int), machine e.1 [.gpr rt, .gpr rs, .num v] = some (iWord e.2.2 rs rt (.ofInt 16 v)) :=
  fun e he _ _ _ => machine_row (row_rtRsSimm_arith_main e he).1 rfl rfl rfl
theorem code_rtRsSimm_arith_main : ∀ e ∈ L_rtRsSimm_arith_main, ∀ (rs rt : BitVec 5) (v : Int), code e.1 [.gpr rt, .gpr rs, .num v] = some [iWord e.2.2 rs rt (.ofInt 16 v)] :=
  fun e he _ _ _ => code_num3 (row_rtRsSimm_arith_main e he).2 (mach_rtRsSimm_arith_main e he _ _ _ )

theorem row_rtRsUimm_arith_main : ∀ e ∈ L_rtRsUimm_arith_main, ((table.find? fun r => r.mn == e.1) = some ⟨e.1, .rtRsUimm, .main e.2.2⟩ ∧ synOf e.1 = .rtRsUimm) ∧ (expandNum.lookup e.1).isNone = true ∧ e.1 ∉ Branch.cmpBranchNames := by decide +kernel
theorem mach_rtRsUimm_arith_main : ∀ e ∈ L_rtRsUimm_arith_main, ∀ (rs rt : BitVec 5) (v : Int), machine e.1 [.gpr rt, .gpr rs, .num v] = some (iWord e.2.2 rs rt (.ofInt 16 v)) :=
  fun e he _ _ _ => machine_row (row_rtRsUimm_arith_main e he).1 rfl rfl rfl
theorem code_rtRsUimm_arith_main : ∀ e ∈ L_rtRsUimm_arith_main, ∀ (rs rt : BitVec 5) (v : Int), code e.1 [.gpr rt, .gpr rs, .num v] = some [iWord e.2.2 rs rt (.ofInt 16 v)] :=
  fun e he _ _ _ => code_num3 (row_rtRsUimm_arith_main e he).2 (mach_rtRsUimm_arith_main e he _ _ _ )

theorem row_rtUimm_lui_main : ∀ e ∈ L_rtUimm_lui_main, ((table.find? fun r => r.mn == e.1) = some ⟨e.1, .rtUimm, .main e.2.2⟩ ∧ synOf e.1 = .rtUimm) ∧ (expandOne.lookup e.1).isNone = true := by decide +kernel
theorem mach_rtUimm_lui_main : ∀ e ∈ L_rtUimm_lui_main, ∀ (rt : BitVec 5) (v : Int), machine e.1 [.gpr rt, .num v] = some (iWord e.2.2 0 rt (.ofInt 16 v)) :=
  fun e he _ _ => machine_row (row_rtUimm_lui_main e he).1 rfl rfl rfl
theorem code_rtUimm_lui_main : ∀ e ∈ L_rtUimm_lui_main, ∀ (rt : BitVec 5) (v : Int), code e.1 [.gpr rt, .num v] = some [iWord e.2.2 0 rt (.ofInt 16 v)] :=
  fun e he _ _ => code_num2 (row_rtUimm_lui_main e he).2 (mach_rtUimm_lui_main e he _ _ )

theorem row_rtMem_mem_main : ∀ e ∈ L_rtMem_mem_main, ((table.find? fun r => r.mn == e.1) = some ⟨e.1, .rtMem, .main e.2.2⟩ ∧ synOf e.1 = .rtMem) ∧ (expandNum.lookup e.1).isNone = true ∧ e.1 ∉ Branch.cmpBranchNames := by decide +kernel
theorem mach_rtMem_mem_main : ∀ e ∈ L_rtMem_mem_main, ∀ (rs rt : BitVec 5) (v : Int), machine e.1 [.gpr rt, .gpr rs, .num v] = some (iWord e.2.2 rs rt (.ofInt 16 v)) :=
  fun e he _ _ _ => machine_row (row_rtMem_mem_main e he).1 rfl rfl rfl
theorem code_rtMem_mem_main : ∀ e ∈ L_rtMem_mem_main, ∀ (rs rt : BitVec 5) (v : Int), code e.1 [.gpr rt, .gpr rs, .num v] = some [iWord e.2.2 rs rt (.ofInt 16 v)] :=
  fun e he _ _ _ => code_num3 (row_rtMem_mem_main e he).2 (mach_rtMem_mem_main e he _ _ _ )

theorem row_copMem_mem_main : ∀ e ∈ L_copMem_mem_main, ((table.find? fun r => r.mn == e.1) = some ⟨e.1, .copMem, .main e.2.2⟩ ∧ synOf e.1 = .copMem) ∧ (expandNum.lookup e.1).isNone = true ∧ e.1 ∉ Branch.cmpBranchNames := by decide +kernel
theorem mach_copMem_mem_main : ∀ e ∈ L_copMem_mem_main, ∀ (rs : BitVec 5) (c v : Int), machine e.1 [.num c, .gpr rs, .num v] = some (iWord e.2.2 rs (.ofInt 5 c) (.ofInt 16 v)) :=
  fun e he _ _ _ => machine_row (row_copMem_mem_main e he).1 rfl rfl rfl
theorem code_copMem_mem_main : ∀ e ∈ L_copMem_mem_main, ∀ (rs : BitVec 5) (c v : Int), code e.1 [.num c, .gpr rs, .num v] = some [iWord e.2.2 rs (.ofInt 5 c) (.ofInt 16 v)] :=
  fun e he _ _ _ => code_num3 (row_copMem_mem_main e he).2 (mach_copMem_mem_main e he _ _ _ )

theorem row_ftMem_fmem_main : ∀ e ∈ L_ftMem_fmem_main, ((table.find? fun r => r.mn == e.1) = some ⟨e.1, .ftMem, .main e.2.2⟩ ∧ synOf e.1 = .ftMem) ∧ (expandNum.lookup e.1).isNone = true ∧ e.1 ∉ Branch.cmpBranchNames := by decide +kernel
theorem mach_ftMem_fmem_main : ∀ e ∈ L_ftMem_fmem_main, ∀ (rs rt : BitVec 5) (v : Int), machine e.1 [.fpr rt, .gpr rs, .num v] = some (iWord e.2.2 rs rt (.ofInt 16 v)) :=
  fun e he _ _ _ => machine_row (row_ftMem_fmem_main e he).1 rfl rfl rfl
theorem code_ftMem_fmem_main : ∀ e ∈ L_ftMem_fmem_main, ∀ (rs rt : BitVec 5) (v : Int), code e.1 [.fpr rt, .gpr rs, .num v] = some [iWord e.2.2 rs rt (.ofInt 16 v)] :=
  fun e he _ _ _ => code_num3 (row_ftMem_fmem_main e he).2 (mach_ftMem_fmem_main e he _ _ _ )

theorem row_rsRtOff_br2_main : ∀ e ∈ L_rsRtOff_br2_main, ((table.find? fun r => r.mn == e.1) = some ⟨e.1, .rsRtOff, .main e.2.2⟩ ∧ synOf e.1 = .rsRtOff) ∧ (expandNum.lookup e.1).isNone = true ∧ e.1 ∉ Branch.cmpBranchNames := by decide +kernel
theorem mach_rsRtOff_br2_main : ∀ e ∈ L_rsRtOff_br2_main, ∀ (rs rt : BitVec 5) (v : Int), machine e.1 [.gpr rs, .gpr rt, .num v] = some (iWord e.2.2 rs rt (.ofInt 16 v)) :=
  fun e he _ _ _ => machine_row (row_rsRtOff_br2_main e he).1 rfl rfl rfl
theorem code_rsRtOff_br2_main : ∀ e ∈ L_rsRtOff_br2_main, ∀ (rs rt : BitVec 5) (v : Int), code e.1 [.gpr rs, .gpr rt, .num v] = some [iWord e.2.2 rs rt (.ofInt 16 v)] :=
  fun e he _ _ _ => code_num3 (row_rsRtOff_br2_main e he).2 (mach_rsRtOff_br2_main e he _ _ _ )

theorem row_rsOff_br1_main : ∀ e ∈ L_rsOff_br1_main, ((table.find? fun r => r.mn == e.1) = some ⟨e.1, .rsOff, .main e.2.2⟩ ∧ synOf e.1 = .rsOff) ∧ (expandOne.lookup e.1).isNone = true := by decide +kernel
theorem mach_rsOff_br1_main : ∀ e ∈ L_rsOff_br1_main, ∀ (rs : BitVec 5) (v : Int), machine e.1 [.gpr rs, .num v] = some (iWord e.2.2 rs 0 (.ofInt 16 v)) :=
  fun e he _ _ => machine_row (row_rsOff_br1_main e he).1 rfl rfl rfl
theorem code_rsOff_br1_main : ∀ e ∈ L_rsOff_br1_main, ∀ (rs : BitVec 5) (v : Int), code e.1 [.gpr rs, .num v] = some [iWord e.2.2 rs 0 (.ofInt 16 v)] :=
  fun e he _ _ => code_num2 (row_rsOff_br1_main e he).2 (mach_rsOff_br1_main e he _ _ )

theorem row_rsOff_br1_regimm : ∀ e ∈ L_rsOff_br1_regimm, ((table.find? fun r => r.mn == e.1) = some ⟨e.1, .rsOff, .regimm e.2.2⟩ ∧ synOf e.1 = .rsOff) ∧ (expandOne.lookup e.1).isNone = true := by decide +kernel
theorem mach_rsOff_br1_regimm : ∀ e ∈ L_rsOff_br1_regimm, ∀ (rs : BitVec 5) (v : Int), machine e.1 [.gpr rs, .num v] = some (iWord 1 rs e.2.2 (.ofInt 16 v)) :=
  fun e he _ _ => machine_row (row_rsOff_br1_regimm e he).1 rfl rfl rfl
theorem code_rsOff_br1_regimm : ∀ e ∈ L_rsOff_br1_regimm, ∀ (rs : BitVec 5) (v : Int), code e.1 [.gpr rs, .num v] = some [iWord 1 rs e.2.2 (.ofInt 16 v)] :=
  fun e he _ _ => code_num2 (row_rsOff_br1_regimm e he).2 (mach_rsOff_br1_regimm e he _ _ )

theorem row_rsSimm_trapi_regimm : ∀ e ∈ L_rsSimm_trapi_regimm, ((table.find? fun r => r.mn == e.1) = some ⟨e.1, .rsSimm, .regimm e.2.2⟩ ∧ synOf e.1 = .rsSimm) ∧ (expandOne.lookup e.1).isNone = true := by decide +kernel
theorem mach_rsSimm_trapi_regimm : ∀ e ∈ L_rsSimm_trapi_regimm, ∀ (rs : BitVec 5) (v : Int), machine e.1 [.gpr rs, .num v] = some (iWord 1 rs e.2.2 (.ofInt 16 v)) :=
  fun e he _ _ => machine_row (row_rsSimm_trapi_regimm e he).1 rfl rfl rfl
theorem code_rsSimm_trapi_regimm : ∀ e ∈ L_rsSimm_trapi_regimm, ∀ (rs : BitVec 5) (v : Int), code e.1 [.gpr rs, .num v] = some [iWord 1 rs e.2.2 (.ofInt 16 v)] :=
  fun e he _ _ => code_num2 (row_rsSimm_trapi_regimm e he).2 (mach_rsSimm_trapi_regimm e he _ _ )

theorem row_off_bc_bc : ∀ e ∈ L_off_bc_bc, ((table.find? fun r => r.mn == e.1) = some ⟨e.1, .off, .bc e.2.2.1 e.2.2.2⟩ ∧ synOf e.1 = .off) ∧ e.1 ≠ c!"b" ∧ e.1 ≠ c!"bal" := by decide +kernel
theorem mach_off_bc_bc : ∀ e ∈ L_off_bc_bc, ∀ (v : Int), machine e.1 [.num v] = some (iWord (copOp e.2.2.1) 8 e.2.2.2 (.ofInt 16 v)) :=
  fun e he _ => machine_row (row_off_bc_bc e he).1 rfl rfl rfl
theorem code_off_bc_bc : ∀ e ∈ L_off_bc_bc, ∀ (v : Int), code e.1 [.num v] = some [iWord (copOp e.2.2.1) 8 e.2.2.2 (.ofInt 16 v)] :=
  fun e he _ => code_num1 (row_off_bc_bc e he).2 (mach_off_bc_bc e he _ )

theorem row_rdRsRt_reg3_special : ∀ e ∈ L_rdRsRt_reg3_special, ((table.find? fun r => r.mn == e.1) = some ⟨e.1, .rdRsRt, .special e.2.2⟩ ∧ synOf e.1 = .rdRsRt) ∧ (expandRegs.lookup e.1).isNone = true ∧ (expandDiv.lookup e.1).isNone = true := by decide +kernel
theorem mach_rdRsRt_reg3_special : ∀ e ∈ L_rdRsRt_reg3_special, ∀ (rs rt rd : BitVec 5), machine e.1 [.gpr rd, .gpr rs, .gpr rt] = some (rWord 0 rs rt rd 0 e.2.2) :=
  fun e he _ _ _ => machine_row (row_rdRsRt_reg3_special e he).1 rfl rfl rfl
theorem code_rdRsRt_reg3_special : ∀ e ∈ L_rdRsRt_reg3_special, ∀ (rs rt rd : BitVec 5), code e.1 [.gpr rd, .gpr rs, .gpr rt] = some [rWord 0 rs rt rd 0 e.2.2] :=
  fun e he _ _ _ => code_three (fun _ h => by cases h) (row_rdRsRt_reg3_special e he).2 (mach_rdRsRt_reg3_special e he _ _ _ )

theorem row_rdRtRs_shiftv_special : ∀ e ∈ L_rdRtRs_shiftv_special, ((table.find? fun r => r.mn == e.1) = some ⟨e.1, .rdRtRs, .special e.2.2⟩ ∧ synOf e.1 = .rdRtRs) ∧ (expandRegs.lookup e.1).isNone = true ∧ (expandDiv.lookup e.1).isNone = true := by decide +kernel
theorem mach_rdRtRs_shiftv_special : ∀ e ∈ L_rdRtRs_shiftv_special, ∀ (rs rt rd : BitVec 5), machine e.1 [.gpr rd, .gpr rt, .gpr rs] = some (rWord 0 rs rt rd 0 e.2.2) :=
  fun e he _ _ _ => machine_row (row_rdRtRs_shiftv_special e he).1 rfl rfl rfl
theorem code_rdRtRs_shiftv_special : ∀ e ∈ L_rdRtRs_shiftv_special, ∀ (rs rt rd : BitVec 5), code e.1 [.gpr rd, .gpr rt, .gpr rs] = some [rWord 0 rs rt rd 0 e.2.2] :=
  fun e he _ _ _ => code_three (fun _ h => by cases h) (row_rdRtRs_shiftv_special e he).2 (mach_rdRtRs_shiftv_special e he _ _ _ )

theorem row_rs_rs1_special : ∀ e ∈ L_rs_rs1_special, ((table.find? fun r => r.mn == e.1) = some ⟨e.1, .rs, .special e.2.2⟩ ∧ synOf e.1 = .rs) ∧ e.1 ≠ c!"clear" ∧ e.1 ≠ c!"jalr" := by decide +kernel
theorem mach_rs_rs1_special : ∀ e ∈ L_rs_rs1_special, ∀ (rs : BitVec 5), machine e.1 [.gpr rs] = some (rWord 0 rs 0 0 0 e.2.2) :=
  fun e he _ => machine_row (row_rs_rs1_special e he).1 rfl rfl rfl
theorem code_rs_rs1_special : ∀ e ∈ L_rs_rs1_special, ∀ (rs : BitVec 5), code e.1 [.gpr rs] = some [rWord 0 rs 0 0 0 e.2.2] :=
  fun e he _ => code_one (fun _ h => by cases h) (row_rs_rs1_special e he).2 (mach_rs_rs1_special e he _ )

theorem row_rdRs_jalr_special : ∀ e ∈ L_rdRs_jalr_special, ((table.find? fun r => r.mn == e.1) = some ⟨e.1, .rdRs, .special e.2.2⟩ ∧ synOf e.1 = .rdRs) ∧ (expandTwo.lookup e.1).isNone = true := by decide +kernel
theorem mach_rdRs_jalr_special : ∀ e ∈ L_rdRs_jalr_special, ∀ (rs rd : BitVec 5), machine e.1 [.gpr rd, .gpr rs] = some (rWord 0 rs 0 rd 0 e.2.2) :=
  fun e he _ _ => machine_row (row_rdRs_jalr_special e he).1 rfl rfl rfl
theorem code_rdRs_jalr_special : ∀ e ∈ L_rdRs_jalr_special, ∀ (rs rd : BitVec 5), code e.1 [.gpr rd, .gpr rs] = some [rWord 0 rs 0 rd 0 e.2.2] :=
  fun e he _ _ => code_two (fun _ h => by cases h) (row_rdRs_jalr_special e he).2 (mach_rdRs_jalr_special e he _ _ )

theorem row_code_code_special : ∀ e ∈ L_code_code_special, ((table.find? fun r => r.mn == e.1) = some ⟨e.1, .code, .special e.2.2⟩ ∧ synOf e.1 = .code) ∧ e.1 ≠ c!"b" ∧ e.1 ≠ c!"bal" := by decide +kernel
theorem mach_code_code_special : ∀ e ∈ L_code_code_special, ∀ (v : Int), machine e.1 [.num v] = some (0#6 ++ BitVec.ofInt 20 v ++ e.2.2) :=
  fun e he _ => machine_row (row_code_code_special e he).1 rfl rfl rfl
theorem code_code_code_special : ∀ e ∈ L_code_code_special, ∀ (v : Int), code e.1 [.num v] = some [0#6 ++ BitVec.ofInt 20 v ++ e.2.2] :=
  fun e he _ => code_num1 (row_code_code_special e he).2 (mach_code_code_special e he _ )

theorem row_none_bare_special : ∀ e ∈ L_none_bare_special, ((table.find? fun r => r.mn == e.1) = some ⟨e.1, .none, .special e.2.2⟩ ∧ synOf e.1 = .none) ∧ e.1 ≠ c!"nop" := by decide +kernel
theorem mach_none_bare_special : ∀ e ∈ L_none_bare_special, machine e.1 [] = some (rWord 0 0 0 0 0 e.2.2) :=
  fun e he => machine_row (row_none_bare_special e he).1 rfl rfl rfl
theorem code_none_bare_special : ∀ e ∈ L_none_bare_special, code e.1 [] = some [rWord 0 0 0 0 0 e.2.2] :=
  fun e he => code_nil (row_none_bare_special e he).2 (mach_none_bare_special e he )

theorem row_rd_rd1_special : ∀ e ∈ L_rd_rd1_special, ((table.find? fun r => r.mn == e.1) = some ⟨e.1, .rd, .special e.2.2⟩ ∧ synOf e.1 = .rd) ∧ e.1 ≠ c!"clear" ∧ e.1 ≠ c!"jalr" := by decide +kernel
theorem mach_rd_rd1_special : ∀ e ∈ L_rd_rd1_special, ∀ (rd : BitVec 5), machine e.1 [.gpr rd] = some (rWord 0 0 0 rd 0 e.2.2) :=
  fun e he _ => machine_row (row_rd_rd1_special e he).1 rfl rfl rfl
theorem code_rd_rd1_special : ∀ e ∈ L_rd_rd1_special, ∀ (rd : BitVec 5), code e.1 [.gpr rd] = some [rWord 0 0 0 rd 0 e.2.2] :=
  fun e he _ => code_one (fun _ h => by cases h) (row_rd_rd1_special e he).2 (mach_rd_rd1_special e he _ )

theorem row_rsRt_reg2_special : ∀ e ∈ L_rsRt_reg2_special, ((table.find? fun r => r.mn == e.1) = some ⟨e.1, .rsRt, .special e.2.2⟩ ∧ synOf e.1 = .rsRt) ∧ (expandTwo.lookup e.1).isNone = true := by decide +kernel
theorem mach_rsRt_reg2_special : ∀ e ∈ L_rsRt_reg2_special, ∀ (rs rt : BitVec 5), machine e.1 [.gpr rs, .gpr rt] = some (rWord 0 rs rt 0 0 e.2.2) :=
  fun e he _ _ => machine_row (row_rsRt_reg2_special e he).1 rfl rfl rfl
theorem code_rsRt_reg2_special : ∀ e ∈ L_rsRt_reg2_special, ∀ (rs rt : BitVec 5), code e.1 [.gpr rs, .gpr rt] = some [rWord 0 rs rt 0 0 e.2.2] :=
  fun e he _ _ => code_two (fun _ h => by cases h) (row_rsRt_reg2_special e he).2 (mach_rsRt_reg2_special e he _ _ )

theorem row_rsRt_div_special : ∀ e ∈ L_rsRt_div_special, ((table.find? fun r => r.mn == e.1) = some ⟨e.1, .rsRt, .special e.2.2⟩ ∧ synOf e.1 = .rsRt) ∧ (expandTwo.lookup e.1).isNone = true := by decide +kernel
theorem mach_rsRt_div_special : ∀ e ∈ L_rsRt_div_special, ∀ (rs rt : BitVec 5), machine e.1 [.gpr rs, .gpr rt] = some (rWord 0 rs rt 0 0 e.2.2) :=
  fun e he _ _ => machine_row (row_rsRt_div_special e he).1 rfl rfl rfl
theorem code_rsRt_div_special : ∀ e ∈ L_rsRt_div_special, ∀ (rs rt : BitVec 5), code e.1 [.gpr rs, .gpr rt] = some [rWord 0 rs rt 0 0 e.2.2] :=
  fun e he _ _ => code_two (fun _ h => by cases h) (row_rsRt_div_special e he).2 (mach_rsRt_div_special e he _ _ )

theorem row_rtC0_cop0_cop : ∀ e ∈ L_rtC0_cop0_cop, ((table.find? fun r => r.mn == e.1) = some ⟨e.1, .rtC0, .cop e.2.2.1 e.2.2.2⟩ ∧ synOf e.1 = .rtC0) ∧ (expandTwo.lookup e.1).isNone = true := by decide +kernel
theorem mach_rtC0_cop0_cop : ∀ e ∈ L_rtC0_cop0_cop, ∀ (rt rd : BitVec 5), machine e.1 [.gpr rt, .c0 rd] = some (rWord (copOp e.2.2.1) e.2.2.2 rt rd 0 0) :=
  fun e he _ _ => machine_row (row_rtC0_cop0_cop e he).1 rfl rfl rfl
theorem code_rtC0_cop0_cop : ∀ e ∈ L_rtC0_cop0_cop, ∀ (rt rd : BitVec 5), code e.1 [.gpr rt, .c0 rd] = some [rWord (copOp e.2.2.1) e.2.2.2 rt rd 0 0] :=
  fun e he _ _ => code_two (fun _ h => by cases h) (row_rtC0_cop0_cop e he).2 (mach_rtC0_cop0_cop e he _ _ )

theorem row_rtFs_cop1_cop : ∀ e ∈ L_rtFs_cop1_cop, ((table.find? fun r => r.mn == e.1) = some ⟨e.1, .rtFs, .cop e.2.2.1 e.2.2.2⟩ ∧ synOf e.1 = .rtFs) ∧ (expandTwo.lookup e.1).isNone = true := by decide +kernel
theorem mach_rtFs_cop1_cop : ∀ e ∈ L_rtFs_cop1_cop, ∀ (rt rd : BitVec 5), machine e.1 [.gpr rt, .fpr rd] = some (rWord (copOp e.2.2.1) e.2.2.2 rt rd 0 0) :=
  fun e he _ _ => machine_row (row_rtFs_cop1_cop e he).1 rfl rfl rfl
theorem code_rtFs_cop1_cop : ∀ e ∈ L_rtFs_cop1_cop, ∀ (rt rd : BitVec 5), code e.1 [.gpr rt, .fpr rd] = some [rWord (copOp e.2.2.1) e.2.2.2 rt rd 0 0] :=
  fun e he _ _ => code_two (fun _ h => by cases h) (row_rtFs_cop1_cop e he).2 (mach_rtFs_cop1_cop e he _ _ )

theorem row_none_tlb_co : ∀ e ∈ L_none_tlb_co, ((table.find? fun r => r.mn == e.1) = some ⟨e.1, .none, .co e.2.2⟩ ∧ synOf e.1 = .none) ∧ e.1 ≠ c!"nop" := by decide +kernel
theorem mach_none_tlb_co : ∀ e ∈ L_none_tlb_co, machine e.1 [] = some (rWord (copOp 0) 16 0 0 0 e.2.2) :=
  fun e he => machine_row (row_none_tlb_co e he).1 rfl rfl rfl
theorem code_none_tlb_co : ∀ e ∈ L_none_tlb_co, code e.1 [] = some [rWord (copOp 0) 16 0 0 0 e.2.2] :=
  fun e he => code_nil (row_none_tlb_co e he).2 (mach_none_tlb_co e he )

theorem row_fdFsFt_other_fp : ∀ e ∈ L_fdFsFt_other_fp, ((table.find? fun r => r.mn == e.1) = some ⟨e.1, .fdFsFt, .fp e.2.2.1 e.2.2.2⟩ ∧ synOf e.1 = .none) ∧ (expandRegs.lookup e.1).isNone = true ∧ (expandDiv.lookup e.1).isNone = true := by decide +kernel
theorem mach_fdFsFt_other_fp : ∀ e ∈ L_fdFsFt_other_fp, ∀ (fd fs ft : BitVec 5), machine e.1 [.fpr fd, .fpr fs, .fpr ft] = some (rWord (copOp 1) e.2.2.1 ft fs fd e.2.2.2) :=
  fun e he _ _ _ => machine_row (row_fdFsFt_other_fp e he).1 rfl rfl rfl
theorem code_fdFsFt_other_fp : ∀ e ∈ L_fdFsFt_other_fp, ∀ (fd fs ft : BitVec 5), code e.1 [.fpr fd, .fpr fs, .fpr ft] = some [rWord (copOp 1) e.2.2.1 ft fs fd e.2.2.2] :=
  fun e he _ _ _ => code_three (fun _ h => by cases h) (row_fdFsFt_other_fp e he).2 (mach_fdFsFt_other_fp e he _ _ _ )

theorem row_fdFs_other_fp : ∀ e ∈ L_fdFs_other_fp, ((table.find? fun r => r.mn == e.1) = some ⟨e.1, .fdFs, .fp e.2.2.1 e.2.2.2⟩ ∧ synOf e.1 = .none) ∧ (expandTwo.lookup e.1).isNone = true := by decide +kernel
theorem mach_fdFs_other_fp : ∀ e ∈ L_fdFs_other_fp, ∀ (fd fs : BitVec 5), machine e.1 [.fpr fd, .fpr fs] = some (rWord (copOp 1) e.2.2.1 0 fs fd e.2.2.2) :=
  fun e he _ _ => machine_row (row_fdFs_other_fp e he).1 rfl rfl rfl
theorem code_fdFs_other_fp : ∀ e ∈ L_fdFs_other_fp, ∀ (fd fs : BitVec 5), code e.1 [.fpr fd, .fpr fs] = some [rWord (copOp 1) e.2.2.1 0 fs fd e.2.2.2] :=
  fun e he _ _ => code_two (fun _ h => by cases h) (row_fdFs_other_fp e he).2 (mach_fdFs_other_fp e he _ _ )

theorem row_fsFt_other_fp : ∀ e ∈ L_fsFt_other_fp, ((table.find? fun r => r.mn == e.1) = some ⟨e.1, .fsFt, .fp e.2.2.1 e.2.2.2⟩ ∧ synOf e.1 = .none) ∧ (expandTwo.lookup e.1).isNone = true := by decide +kernel
theorem mach_fsFt_other_fp : ∀ e ∈ L_fsFt_other_fp, ∀ (fs ft : BitVec 5), machine e.1 [.fpr fs, .fpr ft] = some (rWord (copOp 1) e.2.2.1 ft fs 0 e.2.2.2) :=
  fun e he _ _ => machine_row (row_fsFt_other_fp e he).1 rfl rfl rfl
theorem code_fsFt_other_fp : ∀ e ∈ L_fsFt_other_fp, ∀ (fs ft : BitVec 5), code e.1 [.fpr fs, .fpr ft] = some [rWord (copOp 1) e.2.2.1 ft fs 0 e.2.2.2] :=
  fun e he _ _ => code_two (fun _ h => by cases h) (row_fsFt_other_fp e he).2 (mach_fsFt_other_fp e he _ _ )

theorem row_target_jump_main : ∀ e ∈ L_target_jump_main, ((table.find? fun r => r.mn == e.1) = some ⟨e.1, .target, .main e.2.2⟩ ∧ synOf e.1 = .target) ∧ e.1 ≠ c!"clear" ∧ e.1 ≠ c!"jalr" := by decide +kernel
theorem mach_target_jump_main : ∀ e ∈ L_target_jump_main, ∀ (a : BitVec 32), machine e.1 [.addr a] = some (jWord e.2.2 (((a >>> 2).setWidth 24).setWidth 26)) :=
  fun e he _ => machine_row (row_target_jump_main e he).1 rfl rfl rfl
theorem code_target_jump_main : ∀ e ∈ L_target_jump_main, ∀ (a : BitVec 32), code e.1 [.addr a] = some [jWord e.2.2 (((a >>> 2).setWidth 24).setWidth 26)] :=
  fun e he _ => code_one (fun _ h => by cases h) (row_target_jump_main e he).2 (mach_target_jump_main e he _ )

theorem row_rdRtSa_shift_special : ∀ e ∈ L_rdRtSa_shift_special, ((table.find? fun r => r.mn == e.1) = some ⟨e.1, .rdRtSa, .special e.2.2⟩ ∧ synOf e.1 = .rdRtSa) ∧ (expandNum.lookup e.1).isNone = true ∧ e.1 ∉ Branch.cmpBranchNames := by decide +kernel
theorem mach_rdRtSa_shift_special : ∀ e ∈ L_rdRtSa_shift_special, ∀ (rt rd : BitVec 5) (v : Int), machine e.1 [.gpr rd, .gpr rt, .num v] = some (rWord 0 0 rt rd 0 e.2.2 ||| BitVec.ofInt 32 v <<< 6) := by
  intro e he rt rd v
  unfold machine encoding
  rw [(row_rdRtSa_shift_special e he).1.2, (row_rdRtSa_shift_special e he).1.1]
  rfl
theorem code_rdRtSa_shift_special : ∀ e ∈ L_rdRtSa_shift_special, ∀ (rt rd : BitVec 5) (v : Int), code e.1 [.gpr rd, .gpr rt, .num v] = some [rWord 0 0 rt rd 0 e.2.2 ||| BitVec.ofInt 32 v <<< 6] :=
  fun e he _ _ _ => code_num3 (row_rdRtSa_shift_special e he).2 (mach_rdRtSa_shift_special e he _ _ _)

theorem mach_trap : ∀ e ∈ L_rsRt_reg2_special, ∀ (rs rt : BitVec 5) (v : Int), machine e.1 [.gpr rs, .gpr rt, .num v] = some (rWord 0 rs rt 0 0 e.2.2 ||| BitVec.ofInt 32 v <<< 6) := by
  intro e he rs rt v
  unfold machine encoding
  rw [(row_rsRt_reg2_special e he).1.2, (row_rsRt_reg2_special e he).1.1]
  rfl

end Mips
