out=[];w=out.append
w('''/- The code of the instructions, by arm of the parser (for C57).  GENERATED by tools/gen_code4.py. -/
import Verif.Lemmas.CodeL4
import Verif.Lemmas.LangL11

namespace Mips
open Isa hiding Code
open Lang

/-- the mnemonic, in small letters -/
abbrev iname (o : ITypeOp) : Str := o.name.map asciiLower
/-- see `iname` -/
abbrev rname (o : RTypeOp) : Str := o.name.map asciiLower
/-- see `iname` -/
abbrev jname (o : JTypeOp) : Str := o.name.map asciiLower

theorem same_code {a b : Option (List Word)} (h : a = b) {ws : List Word} (hw : a = some ws) : b = some ws := by rw [← h]; exact hw
theorem pair_mem {α β : Type} {L : List (Str × α × β)} {n : Str} {o : α} (h : (n, o) ∈ L.map fun e => (e.1, e.2.1)) : ∃ f, (n, o, f) ∈ L := by
  obtain ⟨⟨a, b, f⟩, he, e⟩ := List.mem_map.1 h
  cases e; exact ⟨f, he⟩
''')
# class, op kind, cond, binders, encargs, vals, lists [(L, enc args, code args)], pseudos [(n,O,term)]
def cls(name,K,cond,binders,encl,vals,lists,pseudos,ov='ovf ',v16=True,nm=None):
    nm=nm or name
    T={'I':'ITypeOp','R':'RTypeOp','J':'JTypeOp'}[K]; nmf={'I':'iname','R':'rname','J':'jname'}[K]
    alts=' ∨ '.join([f'({nmf} o, o) ∈ L_{L}.map (fun e => (e.1, e.2.1))' for L,_,_ in lists]+([f'({nmf} o, o) ∈ [{", ".join(f"(c!{chr(34)}{n}{chr(34)}, .{O})" for n,O,_ in pseudos)}]'] if pseudos else []))
    w(f'''theorem in_{nm} : ∀ o ∈ {T}.all, classify ({nmf} o) = .{name}{cond} → {alts} := by decide +kernel''')
    enc = {'I':f'encI ovf o {encl}','R':f'some (encR o {encl})','J':f'some (encJ o {encl})'}[K]
    w(f'''theorem cl_{nm} {{o : {T}}} (ho : o ∈ {T}.all) (hc : classify ({nmf} o) = .{name}{cond}) {binders} {{ws : List Word}}
    (h : {enc} = some ws) : code ({nmf} o) {vals} = some ws := by
  have hm := in_{nm} o ho hc
  revert h hm
  generalize {nmf} o = n
  intro h hm''')
    total=len(lists)+(1 if pseudos else 0)
    if total>1: w('  rcases hm with '+' | '.join(['hm']*total))
    ind='  · ' if total>1 else '  '
    ind2='    ' if total>1 else '  '
    for L,ea,ca in lists:
        if isinstance(ea,str) and ea.startswith('!'):
            pr=ea[1:]
        else:
            pr=f'congrArg some (enc_{L} _ hf {ea})' if K!='I' else f'enc_{L} _ hf {ea}'
        w(f'''{ind}obtain ⟨f, hf⟩ := pair_mem hm
{ind2}exact same_code (({pr}).trans (code_{L} _ hf {ca}).symm) h''')
    if pseudos:
        w(f'{ind}simp only [List.mem_cons, List.not_mem_nil, or_false, Prod.mk.injEq] at hm')
        w(f'{ind2}rcases hm with '+' | '.join(['⟨rfl, rfl⟩']*len(pseudos)))
        for n,O,t in pseudos:
            w(f'{ind2}· exact {t}')
V='((BitVec.ofInt 16 v).setWidth 32)'
RS='(rs.setWidth 32)';RT='(rt.setWidth 32)';RD='(rd.setWidth 32)'
B3='(ovf : Bool) (rs rt : BitVec 5) (v : Int) (l : BitVec 64)'
e3=f'{RS} {RT} {V} l'
ps=lambda n,O,a:(n,O,f'same_code (p_{n} {a}) h')
cls('arith','I','',B3,e3,'[.gpr rt, .gpr rs, .num v]',[('rtRsSimm_arith_main','ovf rs rt _ l','rs rt v'),('rtRsUimm_arith_main','ovf rs rt _ l','rs rt v')],[ps(n,n.capitalize(),'ovf rs rt v l') for n in ['subi','subiu','dsubi','dsubiu']])
cls('mem','I',' ∧ iname o ≠ c!"cache"',B3,e3,'[.gpr rt, .gpr rs, .num v]',[('rtMem_mem_main','ovf rs rt _ l','rs rt v')],[])
cls('mem','I',' ∧ iname o = c!"cache"','(ovf : Bool) (rs : BitVec 5) (c v : Int) (l : BitVec 64)',f'{RS} ((BitVec.ofInt 5 c).setWidth 32) {V} l','[.num c, .gpr rs, .num v]',[('copMem_mem_main','ovf rs _ _ l','rs c v')],[],nm='cache')
cls('fmem','I','',B3,e3,'[.fpr rt, .gpr rs, .num v]',[('ftMem_fmem_main','ovf rs rt _ l','rs rt v')],[])
cls('br2','I','',B3,e3,'[.gpr rs, .gpr rt, .num v]',[('rsRtOff_br2_main','ovf rs rt _ l','rs rt v')],[(n,n.capitalize(),f'p_{n} ovf rs rt v l h') for n in 'bge bgt ble blt bgeu bgtu bleu bltu bgel bgtl blel bltl bgeul bgtul bleul bltul'.split()])
B1='(ovf : Bool) (rs : BitVec 5) (v : Int) (l : BitVec 64)'
e1=f'{RS} 0#32 {V} l'
cls('br1','I','',B1,e1,'[.gpr rs, .num v]',[('rsOff_br1_main','ovf rs _ l','rs v'),('rsOff_br1_regimm','ovf rs _ l','rs v')],[ps(n,n.capitalize(),'ovf rs 0#32 v l') for n in ['beqz','bnez','beqzl','bnezl']])
cls('trapi','I','',B1,e1,'[.gpr rs, .num v]',[('rsSimm_trapi_regimm','ovf rs _ l','rs v')],[])
Bt='(ovf : Bool) (rt : BitVec 5) (v : Int) (l : BitVec 64)'
et=f'0#32 {RT} {V} l'
cls('lui','I','',Bt,et,'[.gpr rt, .num v]',[('rtUimm_lui_main','ovf rt _ l','rt v')],[ps('lli','Lli','ovf 0#32 rt v l')])
B0='(ovf : Bool) (v : Int) (l : BitVec 64)'
e0=f'0#32 0#32 {V} l'
cls('b','I','',B0,e0,'[.num v]',[],[ps('b','B','ovf 0#32 0#32 v l'),ps('bal','Bal','ovf 0#32 0#32 v l')])
cls('bc','I','',B0,e0,'[.num v]',[('off_bc_bc','ovf _ l','v')],[])
cls('dli','I','','(ovf : Bool) (rt : BitVec 5) (v : Int) (i : Word)',f'0#32 {RT} i (BitVec.ofInt 64 v)','[.gpr rt, .num v]',[],[ps('dli','Dli','ovf 0#32 rt v i')])
Bl='(ovf : Bool) (rt : BitVec 5) (v : Int) (l : BitVec 64) (h0 : 0 ≤ v) (h1 : v ≤ 4294967295)'
for n in ['li','liu']:
    cls(n,'I','',Bl,f'0#32 {RT} (BitVec.ofInt 32 v) l','[.gpr rt, .num v]',[],[ps(n,n.capitalize(),'ovf 0#32 rt v l h0 h1')])
# R
psr=lambda n,O,a:(n,O,f'same_code (p_{n} {a}).symm h')
R3='(rs rt rd : BitVec 5)'
r3=f'{RS} {RT} {RD} 0#32'
cls('reg3','R','',R3,r3,'[.gpr rd, .gpr rs, .gpr rt]',[('rdRsRt_reg3_special','rs rt rd','rs rt rd')],[psr(n,n.capitalize(),'rs rt rd 0#32') for n in 'dmul dmulu dmulo dmulou drem dremu drol dror mul mulu mulo mulou rem remu seq sge sgeu sgt sgtu sle sleu sne'.split()])
cls('shiftv','R','',R3,r3,'[.gpr rd, .gpr rt, .gpr rs]',[('rdRtRs_shiftv_special','rs rt rd','rs rt rd')],[])
cls('shift','R','','(rt rd : BitVec 5) (v : Int)',f'0#32 {RT} {RD} (BitVec.ofInt 32 v)','[.gpr rd, .gpr rt, .num v]',[('rdRtSa_shift_special','!congrArg some (enc_shift hf rt rd (BitVec.ofInt 32 v))','rt rd v')],[])
cls('code','R','','(v : Int)','0#32 0#32 0#32 ((BitVec.ofInt 20 v).setWidth 32)','[.num v]',[('code_code_special','(BitVec.ofInt 20 v)','v')],[])
cls('reg2','R','','(rs rt : BitVec 5)',f'{RS} {RT} 0#32 0#32','[.gpr rs, .gpr rt]',[('rsRt_reg2_special','rs rt','rs rt')],[])
cls('pseudo2','R','','(rs rd : BitVec 5)',f'{RS} 0#32 {RD} 0#32','[.gpr rd, .gpr rs]',[],[psr(n,n.capitalize(),'rs rd 0#32 0#32') for n in 'abs dabs dmove dneg dnegu move neg negu not'.split()])
cls('jalr','R','','(rs rd : BitVec 5)',f'{RS} 0#32 {RD} 0#32','[.gpr rd, .gpr rs]',[('rdRs_jalr_special','rs rd','rs rd')],[],nm='jalr2')
cls('jalr','R','','(rs : BitVec 5)',f'{RS} 0#32 31#32 0#32','[.gpr rs]',[],[psr('jalr','Jalr','rs 0#32 0#32')],nm='jalr1')
cls('div','R','','(rs rd : BitVec 5)',f'{RS} 0#32 {RD} 0#32','[.gpr rd, .gpr rs]',[],[(n,n.capitalize(),f'same_code (p_{n}2 rs rd 0#32).symm h') for n in 'div divu ddiv ddivu'.split()],nm='div2')
cls('div','R','',R3,r3,'[.gpr rd, .gpr rs, .gpr rt]',[],[(n,n.capitalize(),f'same_code (p_{n}3 rs rt rd 0#32).symm h') for n in 'div divu ddiv ddivu'.split()],nm='div3')
cls('rs1','R','','(rs : BitVec 5)',f'{RS} 0#32 0#32 0#32','[.gpr rs]',[('rs_rs1_special','rs','rs')],[])
cls('rd1','R','','(rd : BitVec 5)',f'0#32 0#32 {RD} 0#32','[.gpr rd]',[('rd_rd1_special','rd','rd')],[psr('clear','Clear','0#32 0#32 rd 0#32')])
cls('bare','R','','','0#32 0#32 0#32 0#32','[]',[('none_bare_special','','')],[psr('nop','Nop','0#32 0#32 0#32 0#32')])
cls('tlb','R','','','0#32 0#32 0#32 0#32','[]',[('none_tlb_co','','')],[])
cls('cop0','R','','(rt rd : BitVec 5)',f'0#32 {RT} {RD} 0#32','[.gpr rt, .c0 rd]',[('rtC0_cop0_cop','rt rd','rt rd')],[])
cls('cop1','R','','(rt rd : BitVec 5)',f'0#32 {RT} {RD} 0#32','[.gpr rt, .fpr rd]',[('rtFs_cop1_cop','rt rd','rt rd')],[])
cls('jump','J','','(a : Word)','a','[.addr a]',[('target_jump_main','a','a')],[])
w('\nend Mips')
open('/verif/lean/Verif/Lemmas/CodeL5.lean','w').write('\n'.join(out)+'\n')
