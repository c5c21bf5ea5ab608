import re
rows=open('/verif/lean/Verif/Lemmas/Rows.lean').read()
tab={}
for m in re.finditer(r'def (L_\w+) : .*?:=\n(.*?)\n\n',rows,re.S):
    for e in re.finditer(r'\(c!"([^"]+)", \.(\w+), (.*?)\)[,\]]',m.group(2)):
        tab.setdefault(e.group(1),[]).append((m.group(1),e.group(2),e.group(3)))
out=[]; w=out.append
spec=open('/verif/lean/Verif/Spec/Code.lean').read()
def section(name):
    a=spec.index('def '+name+' '); return spec[a:spec.index('\n\n',a)]
def exp(sec,n):
    t=section(sec)
    m=re.search(r"\(c!\""+n+r"\", fun ([\w ]+) => (\[.*?\)\])\)(,\n   \(c|\]$|\] \+)",t,re.S)
    vs=m.group(1).split(); b=re.sub(r'\s+',' ',m.group(2))
    for v in vs:
        if v!='v': b=re.sub(r'(?<![\w."])'+v+r'(?![\w"])','.gpr '+v,b)
    b=b.replace('zero','.gpr 0').replace('«at»','.gpr 1')
    return b

w('''/- The code of the pseudo-instructions (for C57).  GENERATED by tools/gen_code2.py. -/
import Verif.Lemmas.CodeL2
import Verif.Props.Shift

namespace Mips
open Isa hiding Code
open Lang

theorem trap_or (rs rt : BitVec 5) (f : BitVec 6) (u : Word) :
    rWord 0 rs rt 0 0 f ||| u = rs.setWidth 32 <<< 21 ||| rt.setWidth 32 <<< 16 ||| u ||| f.setWidth 32 := by
  rw [rWord_or]
  have e : ∀ n : Nat, (0 : BitVec 5).setWidth 32 <<< n = 0#32 := by intro n; simp
  have e' : ∀ n : Nat, (0 : BitVec 6).setWidth 32 <<< n = 0#32 := by intro n; simp
  rw [e, e, e', BitVec.zero_or, BitVec.or_zero, BitVec.or_zero]
  rw [BitVec.or_assoc, BitVec.or_comm (f.setWidth 32), ← BitVec.or_assoc]

/-! ### the machine instructions used -/
''')
def use(n,trap=False):
    L,op,f=tab[n][0]
    base=L[2:]
    return L,op,f,base
N={}
def emit(n,trap=False):
    L,op,f,base=use(n)
    if trap: th='mach_trap';b='(rs rt : BitVec 5) (v : Int)';vals='[.gpr rs, .gpr rt, .num v]';word=f'rs.setWidth 32 <<< 21 ||| rt.setWidth 32 <<< 16 ||| BitVec.ofInt 32 v <<< 6 ||| ({f}).setWidth 32';a='rs rt v';pre='trap_or _ _ _ _'
    else:
        pre=None
        th='mach_'+base
        d={'rsRt':('(rs rt : BitVec 5)','[.gpr rs, .gpr rt]',f'rWord 0 rs rt 0 0 {f}','rs rt'),
           'rd':('(rd : BitVec 5)','[.gpr rd]',f'rWord 0 0 0 rd 0 {f}','rd'),
           'rdRsRt':('(rs rt rd : BitVec 5)','[.gpr rd, .gpr rs, .gpr rt]',f'rWord 0 rs rt rd 0 {f}','rs rt rd'),
           'rdRtRs':('(rs rt rd : BitVec 5)','[.gpr rd, .gpr rt, .gpr rs]',f'rWord 0 rs rt rd 0 {f}','rs rt rd'),
           'rdRs':('(rs rd : BitVec 5)','[.gpr rd, .gpr rs]',f'rWord 0 rs 0 rd 0 {f}','rs rd'),
           'rtUimm':('(rt : BitVec 5) (v : Int)','[.gpr rt, .num v]',f'iWord {f} 0 rt (.ofInt 16 v)','rt v'),
           'rtRsUimm':('(rs rt : BitVec 5) (v : Int)','[.gpr rt, .gpr rs, .num v]',f'iWord {f} rs rt (.ofInt 16 v)','rs rt v'),
           'rtRsSimm':('(rs rt : BitVec 5) (v : Int)','[.gpr rt, .gpr rs, .num v]',f'iWord {f} rs rt (.ofInt 16 v)','rs rt v'),
           'rsRtOff':('(rs rt : BitVec 5) (v : Int)','[.gpr rs, .gpr rt, .num v]',f'iWord {f} rs rt (.ofInt 16 v)','rs rt v'),
           'rsOff':('(rs : BitVec 5) (v : Int)','[.gpr rs, .num v]',f'iWord 1 rs {f} (.ofInt 16 v)','rs v'),
           'rdRtSa':('(rt rd : BitVec 5) (v : Int)','[.gpr rd, .gpr rt, .num v]',f'rt.setWidth 32 <<< 16 ||| rd.setWidth 32 <<< 11 ||| BitVec.ofInt 32 v <<< 6 ||| ({f}).setWidth 32','rt rd v'),
        }[base.split('_')[0]]
        b,vals,word,a=d
        if base.startswith('rdRtSa'): pre='shift_or _ _ _ _'
    t=f'{th} (c!"{n}", .{op}, {f}) (by decide +kernel) {a}'
    if pre: t=f'({t}).trans (congrArg some ({pre}))'
    w(f'theorem m_{n} {b} : machine c!"{n}" {vals} = some ({word}) :=\n  {t}')
regs='mult multu dmult dmultu mflo mfhi sra dsra dsra32 dsll dsll32 sll lui ori xori addi addiu daddi daddiu sltiu bne bnel beq beql bgezal sub subu dsub dsubu addu daddu or xor nor slt sltu dsrlv dsllv jalr div divu ddiv ddivu'.split()
for n in regs: emit(n)
emit('tne',True); emit('teq',True)
ms=', '.join('m_'+n for n in regs+['tne','teq'])
w(f'''
macro "mach" : tactic => `(tactic| simp only [List.mapM_cons, List.mapM_nil, {ms}, Option.pure_def, Option.bind_eq_bind, Option.bind_some])

theorem code_of {{mn : Str}} {{vs : List Val}} {{is : Code}} {{ws : List Word}} (h : code mn vs = (expand mn vs).mapM fun i => machine i.1 i.2) (he : expand mn vs = is)
    (hm : (is.mapM fun i => machine i.1 i.2) = some ws) : code mn vs = some ws := by rw [h, he, hm]

/-! ### registers only -/
''')
regs3=[('mul','Mul'),('mulu','Mulu'),('dmul','Dmul'),('dmulu','Dmulu'),('mulo','Mulo'),('dmulo','Dmulo'),('mulou','Mulou'),('dmulou','Dmulou'),('rem','Rem'),('remu','Remu'),('drem','Drem'),('dremu','Dremu'),('drol','Drol'),('dror','Dror'),('seq','Seq'),('sne','Sne'),('sge','Sge'),('sgeu','Sgeu'),('sgt','Sgt'),('sgtu','Sgtu'),('sle','Sle'),('sleu','Sleu')]
for n,o in regs3:
    w(f'''theorem p_{n} (rs rt rd : BitVec 5) (sa : Word) : code c!"{n}" [.gpr rd, .gpr rs, .gpr rt] = some (encR .{o} (rs.setWidth 32) (rt.setWidth 32) (rd.setWidth 32) sa) := by
  refine code_of (is := {exp('expandRegs',n)}) rfl rfl ?_
  mach
  simp [encR, rWord_or, iWord_or]''')
two=[('abs','Abs'),('dabs','Dabs'),('move','Move'),('dmove','Dmove'),('not','Not'),('neg','Neg'),('negu','Negu'),('dneg','Dneg'),('dnegu','Dnegu')]
for n,o in two:
    w(f'''theorem p_{n} (rs rd : BitVec 5) (rt sa : Word) : code c!"{n}" [.gpr rd, .gpr rs] = some (encR .{o} (rs.setWidth 32) rt (rd.setWidth 32) sa) := by
  refine code_of (is := {exp('expandTwo',n)}) rfl rfl ?_
  mach
  simp [encR, rWord_or, iWord_or]''')
for n,o in [('div','Div'),('divu','Divu'),('ddiv','Ddiv'),('ddivu','Ddivu')]:
    w(f'''theorem p_{n}2 (rs rd : BitVec 5) (sa : Word) : code c!"{n}" [.gpr rd, .gpr rs] = some (encR .{o} (rs.setWidth 32) 0#32 (rd.setWidth 32) sa) := by
  refine code_of (is := [(c!"{n}", [.gpr rd, .gpr rs])]) rfl rfl ?_
  mach
  simp [encR, rWord_or, iWord_or]
theorem p_{n}3 (rs rt rd : BitVec 5) (sa : Word) : code c!"{n}" [.gpr rd, .gpr rs, .gpr rt] = some (encR .{o} (rs.setWidth 32) (rt.setWidth 32) (rd.setWidth 32) sa) := by
  by_cases h : rt = 0
  · subst h
    refine code_of (is := [(c!"{n}", [.gpr rd, .gpr rs])]) rfl rfl ?_
    mach
    simp [encR, rWord_or, iWord_or]
  · have h' : rt.setWidth 32 ≠ 0#32 := reg_ne h
    refine code_of (is := {exp('expandDiv',n)}) rfl ((if_neg (c := Val.gpr rt = zero) (fun e => h (by cases e; rfl))).trans rfl) ?_
    mach
    simp only [encR, if_neg h']
    simp [rWord_or, iWord_or]''')
i=out.index
# helper before
w('''
theorem p_nop (rs rt rd sa : Word) : code c!"nop" [] = some (encR .Nop rs rt rd sa) := by
  refine code_of (is := [(c!"sll", [.gpr 0, .gpr 0, .num 0])]) rfl rfl ?_
  mach
  simp [encR]
theorem p_clear (rs rt : Word) (rd : BitVec 5) (sa : Word) : code c!"clear" [.gpr rd] = some (encR .Clear rs rt (rd.setWidth 32) sa) := by
  refine code_of (is := [(c!"addu", [.gpr rd, .gpr 0, .gpr 0])]) rfl rfl ?_
  mach
  simp [encR, rWord_or]
theorem p_jalr (rs : BitVec 5) (rt sa : Word) : code c!"jalr" [.gpr rs] = some (encR .Jalr (rs.setWidth 32) rt 31#32 sa) := by
  refine code_of (is := [(c!"jalr", [.gpr 31, .gpr rs])]) rfl rfl ?_
  mach
  simp [encR, rWord_or]

end Mips''')
s='\n'.join(out)+'\n'
s=s.replace('''/-! ### registers only -/''','''theorem reg_ne {rt : BitVec 5} (h : rt ≠ 0) : rt.setWidth 32 ≠ 0#32 := by
  intro e; apply h; apply BitVec.eq_of_toNat_eq
  have := congrArg BitVec.toNat e
  simp only [BitVec.toNat_setWidth] at this
  have l := rt.isLt
  rw [Nat.mod_eq_of_lt (by omega)] at this
  exact this

/-! ### registers only -/''')
open('/verif/lean/Verif/Lemmas/CodeL3.lean','w').write(s)
