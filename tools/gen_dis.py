#!/usr/bin/env python3
"""Generates lean/Verif/Model/Disassembler.lean from /repo/src/disassembler.rs (arm by arm)."""
import re
L=open('/repo/src/disassembler.rs').read().split('\n')
def tr(s):
    m=re.match(r'inst!\((.*)\),?$',s.strip()); a=[x.strip() for x in m.group(1).split(',')]
    def r(x): return '0' if x=='0' else 'f.'+x
    if a[0]=='Imm': return '.imm .%s %s %s (.short f.imm) [w]'%(a[1],r(a[2]),r(a[3]))
    if a[0]=='Jump': return '.jump .%s (.address (jumpTarget base w)) [w]'%a[1]
    if a[0]=='Bytes': return '.bytes w'
    if len(a)==6: return '.reg .%s %s %s %s 0#32 [w]'%(a[1],r(a[2]),r(a[3]),r(a[4]))
    sa={'sa':'f.sa32','code':'f.code','funct & 0xF':'(f.funct &&& 0xF#32)'}[a[5]]
    return '.reg .%s %s %s %s %s [w]'%(a[1],r(a[2]),r(a[3]),r(a[4]),sa)
# structure: nested matches
start=[i for i,l in enumerate(L) if 'let i = match op {' in l][0]
stack=[]; defs={}; cur='main'; defs['main']=(start+1,[]); 
i=start+1; order=['main']
end=None
while True:
    l=L[i].strip()
    if l in('},','};','}'):
        nm=stack.pop() if stack else None
        if nm is None: defs['main_end']=i+1; break
        defs[cur+'_end']=i+1; cur=nm; i+=1; continue
    m=re.match(r'(.+?) => (.*)$',l)
    if m:
        pat,rhs=m.groups()
        if rhs.startswith('match'):
            on=re.match(r'match (.*) \{',rhs).group(1)
            nm={'main':{'0':'special','1':'regimm','16':'cop0','17':'cop1'},
                'cop0':{'(_, _)':'cop0co'},'cop1':{'(16, _)':'cop1s','(17, _)':'cop1d','(20, _)':'cop1w','(21, _)':'cop1l'}}[cur][pat]
            defs[cur][1].append((pat,i+1,'@'+nm))
            stack.append(cur); cur=nm; defs[nm]=(i+1,[]); order.append(nm)
        else:
            defs[cur][1].append((pat,i+1,tr(rhs)))
    i+=1
out='''/-
Model of src/disassembler.rs.  GENERATED by tools/gen_dis.py, arm by arm.
-/
import Verif.Model.Ast

namespace Mips

/-- The fields extracted at src/disassembler.rs:49-57.  The register fields are `Fin 32`: the values
are masked with `0x1F`, so `Register::try_from(..).unwrap()` never fails (that is what `fld` proves). -/
structure Fields where
  op : Word
  rs : Register
  rt : Register
  rd : Register
  sa : Register
  sa32 : Word
  code : Word
  funct : Word
  imm : BitVec 16

/-- `Register::try_from((inst >> k) & 0x1F).unwrap()` -/
def fld (w : Word) (k : Nat) : Register :=
  ⟨((w >>> k) &&& 0x1F#32).toNat, by
    have h : ((w >>> k) &&& 0x1F#32).toNat ≤ 31 := by
      rw [BitVec.toNat_and]; exact Nat.and_le_right
    omega⟩

/-- src/disassembler.rs:49-57, 11 (`$imm as u16`). -/
def fields (w : Word) : Fields where
  op := w >>> 26
  rs := fld w 21
  rt := fld w 16
  rd := fld w 11
  sa := fld w 6
  sa32 := (w >>> 6) &&& 0x1F#32
  code := (w >>> 6) &&& 0xFFFFF#32
  funct := w &&& 0x3F#32
  imm := (w &&& 0xFFFF#32).setWidth 16

/-- `target` (src/disassembler.rs:57). -/
def jumpTarget (base w : Word) : Word :=
  ((w &&& 0x3FFFFFF#32) <<< 2) ||| (base &&& ~~~ 0xFFFFFFF#32)

'''
key={'special':'f.funct.toNat','regimm':'f.rt.val','cop0':None,'cop1':None,'cop0co':'f.funct.toNat',
     'cop1s':'f.funct.toNat','cop1d':'f.funct.toNat','cop1w':'f.funct.toNat','cop1l':'f.funct.toNat','main':'f.op.toNat'}
lname={'special':'decodeSpecial','regimm':'decodeRegimm','cop0':'decodeCop0','cop1':'decodeCop1','cop0co':'decodeCop0Co',
 'cop1s':'decodeCop1S','cop1d':'decodeCop1D','cop1w':'decodeCop1W','cop1l':'decodeCop1L','main':'decode'}
for nm in ['special','regimm','cop0co','cop0','cop1s','cop1d','cop1w','cop1l','cop1','main']:
    s,arms=defs[nm]; e=defs[nm+'_end']
    out+='/-- src/disassembler.rs:%d-%d -/\n'%(s,e)
    if nm=='main': out+='def decode (base w : Word) : Instruction :=\n  let f := fields w\n'
    else: out+='def %s (w : Word) (f : Fields) : Instruction :=\n'%lname[nm]
    pair=key[nm] is None
    out+='  match %s with\n'%('f.rs.val, f.rt.val' if pair else key[nm])
    for pat,ln,rhs in arms:
        if rhs.startswith('@'): rhs='%s w f'%lname[rhs[1:]]
        m=re.match(r'(\d+)\.\.=(\d+)$',pat)
        if m:
            pat=' | '.join(str(k) for k in range(int(m.group(1)),int(m.group(2))+1))
        if pair:
            pat='_, _' if pat=='_' else pat.strip('()')
        out+='  | %s => %s\n'%(pat,rhs)
    out+='\n'
out+='''/-- `disassembler::disassemble` (src/disassembler.rs:45-275). -/
def disassembleWords (ws : List Word) (base : Word) : List Instruction := ws.map (decode base)

end Mips
'''
open('/verif/lean/Verif/Model/Disassembler.lean','w').write(out)
