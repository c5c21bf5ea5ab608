import re,random
src=open('/repo/src/assembler.rs').read()
arms={}
lines=src.split('\n')
i=0
while i<len(lines):
    m=re.match(r'\s+(I|J|R)::([\w|: ]+?) => (.*)$',lines[i])
    if m:
        names=re.findall(r'\w+',m.group(2).replace('I::','').replace('J::','').replace('R::',''))
        body=m.group(3)
        if body.strip()=='{' or (body.rstrip().endswith('{')):
            ind=len(lines[i])-len(lines[i].lstrip())
            j=i+1; blk=[]
            while not (lines[j].startswith(' '*ind+'}') ): blk.append(lines[j].strip()); j+=1
            arms.setdefault(m.group(1),{})[names[0]]=blk; i=j
        else:
            arms.setdefault(m.group(1),{})[names[0]]=[body.rstrip(',').strip()]
        if len(names)>1: print('multi',names)
    i+=1
print({k:len(v) for k,v in arms.items()})
lean=open('/verif/lean/Verif/Model/Assembler.lean').read()
larms={}
for kind,fn in (('I','encI'),('R','encR'),('J','encJ')):
    k=lean.find('def '+fn+' ')
    if k<0: print('no',fn); continue
    e=lean.find('\n/--',k)
    txt=lean[k:e]
    parts=re.split(r'\n  \| \.',txt)[1:]
    for p in parts:
        nm,b=p.split(' => ',1)
        larms.setdefault(kind,{})[nm.strip()]=' '.join(b.split())
print({k:len(v) for k,v in larms.items()})
def rust(e):
    e=e.replace('as_num()','').replace('rs.','rs').replace('rt.','rt').replace('rd.','rd')
    e=e.replace('imm.as_u32()','imm').replace('imm.as_u64()','L').replace('target.as_u32()','tgt')
    e=re.sub(r'\bas (u32|i64|u64|i32)\b','',e)
    e=e.replace('*sa','sa').rstrip(',;')
    return e
def leanx(e):
    e=re.sub(r'#\d+','',e).replace('|||','|').replace('&&&','&').replace('<<<','<<').replace('>>>','>>')
    return e
random.seed(1)
bad=0;okc=0;skip=[]
for k in arms:
    for nm,blk in arms[k].items():
        le=larms.get(k,{}).get(nm)
        if le is None: print('missing lean',k,nm); continue
        if any(('if ' in x or 'let ' in x or 'return' in x) for x in blk): skip.append((k,nm)); continue
        blk=[x for x in blk if x and not x.startswith('//')]
        res=True
        for t in range(30):
            env=dict(rs=random.randrange(32),rt=random.randrange(32),rd=random.randrange(32),sa=random.randrange(1<<32),imm=random.randrange(1,1<<16),L=random.randrange(1<<64),tgt=random.randrange(1<<32))
            if k=='R': env['sa']=random.randrange(1<<20)
            M=(1<<32)-1
            rw=[]
            try:
                for x in blk:
                    if x.startswith('bytes.push('): x=x[len('bytes.push('):].rstrip(';')[:-1]
                    rw.append(eval(rust(x),{},dict(env))&M)
            except Exception as ex:
                print('rust eval fail',k,nm,x,ex); res=False; break
            l=leanx(le)
            m=re.match(r'\(subOne ovf i\)\.map fun i1 => (.*)',l)
            env2=dict(env,i=env['imm'],l=env['L'],i1=env['imm']-1,t=env['tgt'])
            if m: l=m.group(1)
            l=re.sub(r'^some ','',l)
            l=re.sub(r'\((\w[^()]*(?:\([^()]*\))?[^()]*)\)\.setWidth 32',r'(\1)',l)
            l=l.replace('.setWidth 32','')
            try: lw=[v&M for v in eval(l,{},env2)]
            except Exception as ex: print('lean eval fail',k,nm,l,ex); res=False; break
            if lw!=rw: print('DIFF',k,nm,env,rw,lw,blk,l); bad+=1; res=False; break
        if res: okc+=1
print('ok',okc,'bad',bad,'skip',skip)
