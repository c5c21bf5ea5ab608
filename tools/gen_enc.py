#!/usr/bin/env python3
"""Generate lean/Verif/Lemmas/Enc.lean: the word the encoder emits for each native row."""
out=['''/- GENERATED by tools/gen_enc.py.
What the encoder model emits for each native row: exactly the specification's word. -/
import Verif.Lemmas.Bits
import Verif.Lemmas.Rows

namespace Mips
open Isa

''']
W=lambda x: '0#32' if x=='0' else f'({x}.setWidth 32)'
def I(lst,vars5,rs,rt,imm,word):
    out.append(f'''theorem enc_{lst[2:]} : ∀ e ∈ {lst}, ∀ (ovf : Bool) ({vars5} : BitVec 5) ({imm} : BitVec 16) (l : BitVec 64),
    encI ovf e.2.1 {W(rs)} {W(rt)} {W(imm)} l = some [{word}] := by
  simp only [{lst}, List.forall_mem_cons]
  repeat' apply And.intro
  all_goals first | (intros; simp [encI, iWord_or, copOp]; done) | simp

''' if vars5 else f'''theorem enc_{lst[2:]} : ∀ e ∈ {lst}, ∀ (ovf : Bool) ({imm} : BitVec 16) (l : BitVec 64),
    encI ovf e.2.1 {W(rs)} {W(rt)} {W(imm)} l = some [{word}] := by
  simp only [{lst}, List.forall_mem_cons]
  repeat' apply And.intro
  all_goals first | (intros; simp [encI, iWord_or, copOp]; done) | simp

''')
def R(lst,binders,rs,rt,rd,sa,word):
    b=', ∀ '+binders if binders else ''
    out.append(f'''theorem enc_{lst[2:]} : ∀ e ∈ {lst}{b},
    encR e.2.1 {W(rs)} {W(rt)} {W(rd)} {W(sa)} = [{word}] := by
  simp only [{lst}, List.forall_mem_cons]
  repeat' apply And.intro
  all_goals first | (intros; simp [encR, rWord_or, code_or, copOp]; done) | (intros; simp [encR, rWord_or, copOp, BitVec.or_assoc]; done) | simp | decide

''')
I('L_rtRsSimm_arith_main','rs rt','rs','rt','v','iWord e.2.2 rs rt v')
I('L_rtRsUimm_arith_main','rs rt','rs','rt','v','iWord e.2.2 rs rt v')
I('L_rtUimm_lui_main','rt','0','rt','v','iWord e.2.2 0 rt v')
I('L_rtMem_mem_main','rs rt','rs','rt','v','iWord e.2.2 rs rt v')
I('L_copMem_mem_main','rs rt','rs','rt','v','iWord e.2.2 rs rt v')
I('L_ftMem_fmem_main','rs rt','rs','rt','v','iWord e.2.2 rs rt v')
I('L_rsRtOff_br2_main','rs rt','rs','rt','v','iWord e.2.2 rs rt v')
I('L_rsOff_br1_main','rs','rs','0','v','iWord e.2.2 rs 0 v')
I('L_rsOff_br1_regimm','rs','rs','0','v','iWord 1 rs e.2.2 v')
I('L_rsSimm_trapi_regimm','rs','rs','0','v','iWord 1 rs e.2.2 v')
I('L_off_bc_bc','','0','0','v','iWord (copOp e.2.2.1) 8 e.2.2.2 v')
R('L_rdRsRt_reg3_special','(rs rt rd : BitVec 5)','rs','rt','rd','0','rWord 0 rs rt rd 0 e.2.2')
R('L_rdRtSa_shift_special','(rt rd v : BitVec 5)','0','rt','rd','v','rWord 0 0 rt rd v e.2.2')
R('L_rdRtRs_shiftv_special','(rs rt rd : BitVec 5)','rs','rt','rd','0','rWord 0 rs rt rd 0 e.2.2')
R('L_rs_rs1_special','(rs : BitVec 5)','rs','0','0','0','rWord 0 rs 0 0 0 e.2.2')
R('L_rdRs_jalr_special','(rs rd : BitVec 5)','rs','0','rd','0','rWord 0 rs 0 rd 0 e.2.2')
R('L_code_code_special','(v : BitVec 20)','0','0','0','v','0#6 ++ v ++ e.2.2')
R('L_none_bare_special','','0','0','0','0','rWord 0 0 0 0 0 e.2.2')
R('L_rd_rd1_special','(rd : BitVec 5)','0','0','rd','0','rWord 0 0 0 rd 0 e.2.2')
R('L_rsRt_reg2_special','(rs rt : BitVec 5)','rs','rt','0','0','rWord 0 rs rt 0 0 e.2.2')
R('L_rsRt_div_special','(rs rt : BitVec 5)','rt','0','rs','0','rWord 0 rs rt 0 0 e.2.2')
R('L_rtC0_cop0_cop','(rt rd : BitVec 5)','0','rt','rd','0','rWord (copOp e.2.2.1) e.2.2.2 rt rd 0 0')
R('L_rtFs_cop1_cop','(rt rd : BitVec 5)','0','rt','rd','0','rWord (copOp e.2.2.1) e.2.2.2 rt rd 0 0')
R('L_none_tlb_co','','0','0','0','0','rWord (copOp 0) 16 0 0 0 e.2.2')
R('L_fdFsFt_other_fp','(fd fs ft : BitVec 5)','fs','ft','fd','0','rWord (copOp 1) e.2.2.1 ft fs fd e.2.2.2')
R('L_fdFs_other_fp','(fd fs : BitVec 5)','fs','0','fd','0','rWord (copOp 1) e.2.2.1 0 fs fd e.2.2.2')
R('L_fsFt_other_fp','(fs ft : BitVec 5)','fs','ft','0','(e.2.2.2.setWidth 4)','rWord (copOp 1) e.2.2.1 ft fs 0 e.2.2.2')
out.append('''theorem enc_target_jump_main : ∀ e ∈ L_target_jump_main, ∀ (t : BitVec 32),
    encJ e.2.1 t = [jWord e.2.2 (((t >>> 2).setWidth 24).setWidth 26)] := by
  simp only [L_target_jump_main, List.forall_mem_cons]
  repeat' apply And.intro
  all_goals first | (intro t; simp only [encJ, jWord_or, jump_or]; congr 2; done) | simp

end Mips
''')
open('/verif/lean/Verif/Lemmas/Enc.lean','w').write(''.join(out))
