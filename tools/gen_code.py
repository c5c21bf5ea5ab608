out=[]
w=out.append
w('''/- The code of the machine instructions, by rows of the instruction table (for C57).  GENERATED by tools/gen_code.py. -/
import Verif.Lemmas.Enc
import Verif.Spec.Code

namespace Mips
open Isa Lang

/-! ### mnemonics that are no pseudo-instructions -/

theorem code_num3 {mn : Str} {a b : Val} {v : Int} {w : Word} (h : (expandNum.lookup mn).isNone = true ∧ mn ∉ Branch.cmpBranchNames)
    (hm : machine mn [a, b, .num v] = some w) : code mn [a, b, .num v] = some [w] := by
  have e : expand mn [a, b, .num v] = [(mn, [a, b, .num v])] := by
    simp only [expand, Option.isNone_iff_eq_none.1 h.1]
  have hn : ¬ (mn ∈ Branch.cmpBranchNames ∧ v % 65536 = 0) := fun c => h.2 c.1
  simp only [code, if_neg hn, e, List.mapM_cons, List.mapM_nil, hm]; rfl
theorem code_num1 {mn : Str} {v : Int} {w : Word} (h : mn ≠ c!"b" ∧ mn ≠ c!"bal") (hm : machine mn [.num v] = some w) : code mn [.num v] = some [w] := by
  have e : expand mn [.num v] = [(mn, [.num v])] := by simp only [expand, if_neg h.1, if_neg h.2]
  simp only [code, e, List.mapM_cons, List.mapM_nil, hm]; rfl
theorem code_one {mn : Str} {a : Val} {w : Word} (ha : ∀ v, a ≠ .num v) (h : mn ≠ c!"clear" ∧ mn ≠ c!"jalr") (hm : machine mn [a] = some w) : code mn [a] = some [w] := by
  have e : expand mn [a] = [(mn, [a])] := by
    cases a <;> first | exact absurd rfl (ha _) | simp only [expand, if_neg h.1, if_neg h.2]
  simp only [code, e, List.mapM_cons, List.mapM_nil, hm]; rfl
theorem code_num2 {mn : Str} {a : Val} {v : Int} {w : Word} (h : (expandOne.lookup mn).isNone = true)
    (hm : machine mn [a, .num v] = some w) : code mn [a, .num v] = some [w] := by
  have e : expand mn [a, .num v] = [(mn, [a, .num v])] := by simp only [expand, Option.isNone_iff_eq_none.1 h]
  simp only [code, e, List.mapM_cons, List.mapM_nil, hm]; rfl
theorem code_two {mn : Str} {a b : Val} {w : Word} (hb : ∀ v, b ≠ .num v) (h : (expandTwo.lookup mn).isNone = true)
    (hm : machine mn [a, b] = some w) : code mn [a, b] = some [w] := by
  have e : expand mn [a, b] = [(mn, [a, b])] := by
    cases b <;> first | exact absurd rfl (hb _) | simp only [expand, Option.isNone_iff_eq_none.1 h]
  simp only [code, e, List.mapM_cons, List.mapM_nil, hm]; rfl
theorem code_three {mn : Str} {a b c : Val} {w : Word} (hc : ∀ v, c ≠ .num v) (h : (expandRegs.lookup mn).isNone = true ∧ (expandDiv.lookup mn).isNone = true)
    (hm : machine mn [a, b, c] = some w) : code mn [a, b, c] = some [w] := by
  have e : expand mn [a, b, c] = [(mn, [a, b, c])] := by
    cases c <;> first | exact absurd rfl (hc _) | simp only [expand, Option.isNone_iff_eq_none.1 h.1, Option.isNone_iff_eq_none.1 h.2]
  have e2 : code mn [a, b, c] = (expand mn [a, b, c]).mapM fun i => machine i.1 i.2 := by
    cases c <;> first | exact absurd rfl (hc _) | rfl
  simp only [e2, e, List.mapM_cons, List.mapM_nil, hm]; rfl
theorem code_nil {mn : Str} {w : Word} (h : mn ≠ c!"nop") (hm : machine mn [] = some w) : code mn [] = some [w] := by
  have e : expand mn [] = [(mn, [])] := by simp only [expand, if_neg h]
  simp only [code, e, List.mapM_cons, List.mapM_nil, hm]; rfl

theorem machine_row {mn : Str} {r : Row} {s : Syn} {vs : List Val} {as : List Arg} {w : BitVec 32}
    (h : (table.find? fun r => r.mn == mn) = some r ∧ synOf mn = s) (ha : Lang.args s vs = as) (hp : place r.code r.syn as = some w)
    (he : extra s vs = 0#32) : machine mn vs = some w := by
  unfold machine encoding
  rw [h.2, ha, he, h.1]
  simp only [hp, Option.map_some]
  simp

/-! ### the rows -/
''')
G=lambda x:f'.gpr {x}'
# name, syn, code pattern, binders, vals, word, synof, codelemma, negfacts
I='(v : Int)'
rows=[
('rtRsSimm_arith_main','.rtRsSimm','.main e.2.2','(rs rt : BitVec 5) (v : Int)','[.gpr rt, .gpr rs, .num v]','iWord e.2.2 rs rt (.ofInt 16 v)',None,'num3'),
('rtRsUimm_arith_main','.rtRsUimm','.main e.2.2','(rs rt : BitVec 5) (v : Int)','[.gpr rt, .gpr rs, .num v]','iWord e.2.2 rs rt (.ofInt 16 v)',None,'num3'),
('rtUimm_lui_main','.rtUimm','.main e.2.2','(rt : BitVec 5) (v : Int)','[.gpr rt, .num v]','iWord e.2.2 0 rt (.ofInt 16 v)',None,'num2'),
('rtMem_mem_main','.rtMem','.main e.2.2','(rs rt : BitVec 5) (v : Int)','[.gpr rt, .gpr rs, .num v]','iWord e.2.2 rs rt (.ofInt 16 v)',None,'num3'),
('copMem_mem_main','.copMem','.main e.2.2','(rs : BitVec 5) (c v : Int)','[.num c, .gpr rs, .num v]','iWord e.2.2 rs (.ofInt 5 c) (.ofInt 16 v)',None,'num3'),
('ftMem_fmem_main','.ftMem','.main e.2.2','(rs rt : BitVec 5) (v : Int)','[.fpr rt, .gpr rs, .num v]','iWord e.2.2 rs rt (.ofInt 16 v)',None,'num3'),
('rsRtOff_br2_main','.rsRtOff','.main e.2.2','(rs rt : BitVec 5) (v : Int)','[.gpr rs, .gpr rt, .num v]','iWord e.2.2 rs rt (.ofInt 16 v)',None,'num3'),
('rsOff_br1_main','.rsOff','.main e.2.2','(rs : BitVec 5) (v : Int)','[.gpr rs, .num v]','iWord e.2.2 rs 0 (.ofInt 16 v)',None,'num2'),
('rsOff_br1_regimm','.rsOff','.regimm e.2.2','(rs : BitVec 5) (v : Int)','[.gpr rs, .num v]','iWord 1 rs e.2.2 (.ofInt 16 v)',None,'num2'),
('rsSimm_trapi_regimm','.rsSimm','.regimm e.2.2','(rs : BitVec 5) (v : Int)','[.gpr rs, .num v]','iWord 1 rs e.2.2 (.ofInt 16 v)',None,'num2'),
('off_bc_bc','.off','.bc e.2.2.1 e.2.2.2','(v : Int)','[.num v]','iWord (copOp e.2.2.1) 8 e.2.2.2 (.ofInt 16 v)',None,'num1'),
('rdRsRt_reg3_special','.rdRsRt','.special e.2.2','(rs rt rd : BitVec 5)','[.gpr rd, .gpr rs, .gpr rt]','rWord 0 rs rt rd 0 e.2.2',None,'three'),
('rdRtRs_shiftv_special','.rdRtRs','.special e.2.2','(rs rt rd : BitVec 5)','[.gpr rd, .gpr rt, .gpr rs]','rWord 0 rs rt rd 0 e.2.2',None,'three'),
('rs_rs1_special','.rs','.special e.2.2','(rs : BitVec 5)','[.gpr rs]','rWord 0 rs 0 0 0 e.2.2',None,'one'),
('rdRs_jalr_special','.rdRs','.special e.2.2','(rs rd : BitVec 5)','[.gpr rd, .gpr rs]','rWord 0 rs 0 rd 0 e.2.2',None,'two'),
('code_code_special','.code','.special e.2.2','(v : Int)','[.num v]','0#6 ++ BitVec.ofInt 20 v ++ e.2.2',None,'num1'),
('none_bare_special','.none','.special e.2.2','','[]','rWord 0 0 0 0 0 e.2.2',None,'nil'),
('rd_rd1_special','.rd','.special e.2.2','(rd : BitVec 5)','[.gpr rd]','rWord 0 0 0 rd 0 e.2.2',None,'one'),
('rsRt_reg2_special','.rsRt','.special e.2.2','(rs rt : BitVec 5)','[.gpr rs, .gpr rt]','rWord 0 rs rt 0 0 e.2.2',None,'two'),
('rsRt_div_special','.rsRt','.special e.2.2','(rs rt : BitVec 5)','[.gpr rs, .gpr rt]','rWord 0 rs rt 0 0 e.2.2',None,'two'),
('rtC0_cop0_cop','.rtC0','.cop e.2.2.1 e.2.2.2','(rt rd : BitVec 5)','[.gpr rt, .c0 rd]','rWord (copOp e.2.2.1) e.2.2.2 rt rd 0 0',None,'two'),
('rtFs_cop1_cop','.rtFs','.cop e.2.2.1 e.2.2.2','(rt rd : BitVec 5)','[.gpr rt, .fpr rd]','rWord (copOp e.2.2.1) e.2.2.2 rt rd 0 0',None,'two'),
('none_tlb_co','.none','.co e.2.2','','[]','rWord (copOp 0) 16 0 0 0 e.2.2',None,'nil'),
('fdFsFt_other_fp','.fdFsFt','.fp e.2.2.1 e.2.2.2','(fd fs ft : BitVec 5)','[.fpr fd, .fpr fs, .fpr ft]','rWord (copOp 1) e.2.2.1 ft fs fd e.2.2.2','.none','three'),
('fdFs_other_fp','.fdFs','.fp e.2.2.1 e.2.2.2','(fd fs : BitVec 5)','[.fpr fd, .fpr fs]','rWord (copOp 1) e.2.2.1 0 fs fd e.2.2.2','.none','two'),
('fsFt_other_fp','.fsFt','.fp e.2.2.1 e.2.2.2','(fs ft : BitVec 5)','[.fpr fs, .fpr ft]','rWord (copOp 1) e.2.2.1 ft fs 0 e.2.2.2','.none','two'),
('target_jump_main','.target','.main e.2.2','(a : BitVec 32)','[.addr a]','jWord e.2.2 (((a >>> 2).setWidth 24).setWidth 26)',None,'one'),
]
neg={'num3':'(expandNum.lookup e.1).isNone = true ∧ e.1 ∉ Branch.cmpBranchNames','num2':'(expandOne.lookup e.1).isNone = true','num1':'e.1 ≠ c!"b" ∧ e.1 ≠ c!"bal"','one':'e.1 ≠ c!"clear" ∧ e.1 ≠ c!"jalr"','two':'(expandTwo.lookup e.1).isNone = true','three':'(expandRegs.lookup e.1).isNone = true ∧ (expandDiv.lookup e.1).isNone = true','nil':'e.1 ≠ c!"nop"'}
for n,syn,code,b,vals,word,so,cl in rows:
    so=so or syn
    q=f', ∀ {b}' if b else ''
    w(f'''theorem row_{n} : ∀ e ∈ L_{n}, ((table.find? fun r => r.mn == e.1) = some ⟨e.1, {syn}, {code}⟩ ∧ synOf e.1 = {so}) ∧ {neg[cl]} := by decide +kernel
theorem mach_{n} : ∀ e ∈ L_{n}{q}, machine e.1 {vals} = some ({word}) :=
  fun e he {'_ '*len([x for g in b.strip('()').split(') (') for x in g.split(':')[0].split()]) if b else ''}=> machine_row (row_{n} e he).1 rfl rfl rfl
theorem code_{n} : ∀ e ∈ L_{n}{q}, code e.1 {vals} = some [{word}] :=
  fun e he {'_ '*len([x for g in b.strip('()').split(') (') for x in g.split(':')[0].split()]) if b else ''}=> code_{cl} {'(fun _ h => by cases h) ' if cl in('one','two','three') else ''}(row_{n} e he).2 (mach_{n} e he {'_ '*len([x for g in b.strip('()').split(') (') for x in g.split(':')[0].split()]) if b else ''})
''')
n='rdRtSa_shift_special'
w(f'''theorem row_{n} : ∀ e ∈ L_{n}, ((table.find? fun r => r.mn == e.1) = some ⟨e.1, .rdRtSa, .special e.2.2⟩ ∧ synOf e.1 = .rdRtSa) ∧ {neg['num3']} := by decide +kernel
theorem mach_{n} : ∀ e ∈ L_{n}, ∀ (rt rd : BitVec 5) (v : Int), machine e.1 [.gpr rd, .gpr rt, .num v] = some (rWord 0 0 rt rd 0 e.2.2 ||| BitVec.ofInt 32 v <<< 6) := by
  intro e he rt rd v
  unfold machine encoding
  rw [(row_{n} e he).1.2, (row_{n} e he).1.1]
  rfl
theorem code_{n} : ∀ e ∈ L_{n}, ∀ (rt rd : BitVec 5) (v : Int), code e.1 [.gpr rd, .gpr rt, .num v] = some [rWord 0 0 rt rd 0 e.2.2 ||| BitVec.ofInt 32 v <<< 6] :=
  fun e he _ _ _ => code_num3 (row_{n} e he).2 (mach_{n} e he _ _ _)

theorem mach_trap : ∀ e ∈ L_rsRt_reg2_special, ∀ (rs rt : BitVec 5) (v : Int), machine e.1 [.gpr rs, .gpr rt, .num v] = some (rWord 0 rs rt 0 0 e.2.2 ||| BitVec.ofInt 32 v <<< 6) := by
  intro e he rs rt v
  unfold machine encoding
  rw [(row_rsRt_reg2_special e he).1.2, (row_rsRt_reg2_special e he).1.1]
  rfl

end Mips''')
open('/verif/lean/Verif/Lemmas/CodeL2.lean','w').write('\n'.join(out)+'\n')
