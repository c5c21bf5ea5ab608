#!/usr/bin/env python3
"""Generates lean/Verif/Model/Assembler.lean from /repo/src/assembler.rs (arm by arm translation)."""
import re
L = open('/repo/src/assembler.rs').read().split('\n')
def lit(m):
    return m.group(0)+'#32'
def tr(e):
    e = e.strip().rstrip(',').strip()
    # literals -> 32-bit literals, but not shift amounts
    e = e.replace('rs.as_num()','RS').replace('rt.as_num()','RT').replace('rd.as_num()','RD')
    e = e.replace('target.as_u32()','T')
    e = e.replace('((imm.as_u64() >> 32) & 0xFFFF) as u32','Q32').replace('((imm.as_u64() >> 16) & 0xFFFF) as u32','Q16')
    e = e.replace('(imm.as_u64() >> 48) as u32','Q48').replace('(imm.as_u64() & 0xFFFF) as u32','Q0')
    e = e.replace('(-(imm.as_u32() as i32) as u32)','(-IMM)').replace('-(imm.as_u32() as i64) as u32','(-IMM)')
    e = e.replace('(imm.as_u32() - 1)','SUB1').replace('imm.as_u32()','IMM')
    e = e.replace('(*sa as u32)','SA').replace('*sa as u32','SA').replace('*sa','SA')
    e = re.sub(r'\bimm\b','IMM',e)
    toks = re.findall(r'<<|>>|==|\||&|\(|\)|-|0b[01]+|0x[0-9A-Fa-f]+|\d+|\w+', e)
    out=[]; prev=None
    for t in toks:
        if re.match(r'^(0b|0x|\d)',t):
            if prev in('<<','>>'): out.append(t)
            else: out.append(t+'#32')
        else:
            out.append({'<<':'<<<','>>':'>>>','|':'|||','&':'&&&'}.get(t,t))
        prev=t
    s=' '.join(out).replace('( ','(').replace(' )',')').replace('- IMM','-IMM')
    for a,b in [('RS','rs'),('RT','rt'),('RD','rd'),('IMM','i'),('SA','sa'),
                ('Q48','(l >>> 48).setWidth 32'),('Q32','((l >>> 32) &&& 0xFFFF#64).setWidth 32'),
                ('Q16','((l >>> 16) &&& 0xFFFF#64).setWidth 32'),('Q0','(l &&& 0xFFFF#64).setWidth 32')]:
        s=re.sub(r'\b'+a+r'\b',b,s)
    s=re.sub(r'\bT\b','t',s)
    return s
arms={'I':[], 'J':[], 'R':[]}
i=0
n=len(L)
while i<n:
    m=re.match(r'\s*([IJR])::(\w+) => (.*)$', L[i])
    if not m: i+=1; continue
    k,op,rest=m.groups(); start=i+1
    rest=rest.split('//')[0].rstrip()
    if not rest.endswith('{') :
        arms[k].append((op,start,start,[rest])); i+=1; continue
    # block: collect until balanced
    depth=rest.count('{')-rest.count('}'); body=[rest]
    while depth>0:
        i+=1
        l=L[i].split('//')[0].rstrip()
        depth+=l.count('{')-l.count('}'); body.append(l)
        if depth==0 and l.strip().startswith('}') and 'else' in l: depth+=0
    # 'if .. {' arms: "} else {" keeps depth at 1, fine
    arms[k].append((op,start,i+1,body)); i+=1
def block(stmts):
    """straight-line block -> list expr"""
    ps=[];last=None
    for s in stmts:
        s=s.strip()
        if not s: continue
        m=re.match(r'bytes\.push\((.*)\);$',s)
        if m: ps.append(tr(m.group(1)))
        else: last=tr(s)
    return '['+', '.join(ps+[last])+']'
def arm(op,body):
    if len(body)==1:
        return '[%s]'%tr(body[0]), False
    txt=[b.strip() for b in body if b.strip()]
    if op in('Li','Liu'):
        return None, False
    if any('if rt.as_num() == 0' in t for t in txt):
        # if/else
        idx=[j for j,t in enumerate(txt) if 'else' in t][0]
        s=[j for j,t in enumerate(txt) if t.endswith('if rt.as_num() == 0 {') ][0]
        a=block(txt[s+1:idx]); b=block([t for t in txt[idx+1:] if t not in('}','},')])
        return 'if rt = 0#32 then %s\n      else %s'%(a,b), False
    b=block(txt[1:-1])
    return b, 'SUB1' in b
out='''/-
Model of src/assembler.rs.  GENERATED by tools/gen_asm.py: every arm is a token-by-token
translation of the Rust arm at the cited line (`<<` to `<<<`, `|` to `|||`, `&` to `&&&`;
Rust and Lean agree on their relative precedence).  `rs rt rd` stand for `x.as_num()`, `i` for
`imm.as_u32()`, `l` for `imm.as_u64()`, `t` for `target.as_u32()`, `sa` for `*sa`.
-/
import Verif.Model.Ast

namespace Mips

/-- `imm.as_u32() - 1` (src/assembler.rs:33 etc.): panics on 0 when overflow checks are on (`ovf`),
wraps otherwise. -/
def subOne (ovf : Bool) (i : Word) : Option Word :=
  if i = 0#32 ∧ ovf = true then none else some (i - 1#32)

'''
LI=[ (op,s,e) for op,s,e,b in arms['I'] if op=='Li'][0]
LIU=[ (op,s,e) for op,s,e,b in arms['I'] if op=='Liu'][0]
out+='''/-- `I::Li` (src/assembler.rs:%d-%d). -/
def encLi (rt i : Word) : List Word :=
  if i &&& 0xFFFF#32 = i then [0b001101#32 <<< 26 ||| rt <<< 16 ||| i]
  else if i &&& 0xFFFF#32 = 0#32 then [0b001111#32 <<< 26 ||| rt <<< 16 ||| i >>> 16]
  else if i &&& 0xFFFF8000#32 = 0xFFFF8000#32 then
    [0b001111#32 <<< 26 ||| rt <<< 16 ||| i >>> 16,
     0b001001#32 <<< 26 ||| rt <<< 21 ||| rt <<< 16 ||| i &&& 0xFFFF#32]
  else
    [0b001111#32 <<< 26 ||| rt <<< 16 ||| i >>> 16,
     0b001101#32 <<< 26 ||| rt <<< 21 ||| rt <<< 16 ||| i &&& 0xFFFF#32]

/-- `I::Liu` (src/assembler.rs:%d-%d). -/
def encLiu (rt i : Word) : List Word :=
  if i &&& 0xFFFF#32 = i then [0b001101#32 <<< 26 ||| rt <<< 16 ||| i]
  else if i &&& 0xFFFF#32 = 0#32 then [0b001111#32 <<< 26 ||| rt <<< 16 ||| i >>> 16]
  else
    [0b001111#32 <<< 26 ||| rt <<< 16 ||| i >>> 16,
     0b001101#32 <<< 26 ||| rt <<< 21 ||| rt <<< 16 ||| i &&& 0xFFFF#32]

'''%(LI[1],LI[2],LIU[1],LIU[2])
out+='/-- The `Immediate` arms (src/assembler.rs:%d-%d); `none` is a panic. -/\n'%(arms['I'][0][1],arms['I'][-1][2])
out+='def encI (ovf : Bool) (op : ITypeOp) (rs rt i : Word) (l : BitVec 64) : Option (List Word) :=\n  match op with\n'
for op,s,e,b in arms['I']:
    if op=='Li': x,sub='encLi rt i',False
    elif op=='Liu': x,sub='encLiu rt i',False
    else: x,sub=arm(op,b)
    if sub: out+='  | .%s => (subOne ovf i).map fun i1 => %s\n'%(op,x.replace('SUB1','i1'))
    else: out+='  | .%s => some %s\n'%(op,x if x.startswith('[') else '(%s)'%x)
out+='\n/-- The `Jump` arms (src/assembler.rs:%d-%d). -/\n'%(arms['J'][0][1],arms['J'][-1][2])
out+='def encJ (op : JTypeOp) (t : Word) : List Word :=\n  match op with\n'
for op,s,e,b in arms['J']:
    out+='  | .%s => %s\n'%(op,arm(op,b)[0])
out+='\n/-- The `Register` arms (src/assembler.rs:%d-%d). -/\n'%(arms['R'][0][1],arms['R'][-1][2])
out+='def encR (op : RTypeOp) (rs rt rd sa : Word) : List Word :=\n  match op with\n'
for op,s,e,b in arms['R']:
    out+='  | .%s => %s\n'%(op,arm(op,b)[0])
out+='''
/-- The words one loop iteration of `assemble` computes (src/assembler.rs:9-500); `none` is a panic. -/
def encode (ovf : Bool) : Instruction → Option (List Word)
  | .imm op rs rt im _ => do
    let i ← im.asU32
    let l ← im.asU64
    encI ovf op rs.num rt.num i l
  | .jump op t _ => do
    let a ← t.asU32
    some (encJ op a)
  | .reg op rs rt rd sa _ => some (encR op rs.num rt.num rd.num sa)
  | .bytes w => some [w]

/-- One iteration of the loop in `assemble`: compute the words and `push_bytes` them
(src/assembler.rs:9-11, 499-502). -/
def assembleInst (ovf : Bool) (i : Instruction) : Option Instruction := do
  let ws ← encode ovf i
  i.pushBytes ws

/-- `assembler::assemble` (src/assembler.rs:8-504); `none` is a panic. -/
def assembleAll (ovf : Bool) (is : List Instruction) : Option (List Instruction) :=
  is.mapM (assembleInst ovf)

end Mips
'''
open('/verif/lean/Verif/Model/Assembler.lean','w').write(out)
print({k:len(v) for k,v in arms.items()})
