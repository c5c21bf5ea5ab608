#!/usr/bin/env python3
"""Generate lean/Verif/Lemmas/PlaceL.lean: inversion of the specification's `place`."""
import re
src=open('/verif/lean/Verif/Spec/Isa.lean').read()
body=src.split('def place')[1].split('| _, _, _')[0]
out=['''/- GENERATED by tools/gen_place.py: which operands the specification's `place` accepts. -/
import Verif.Spec.Isa

namespace Mips
open Isa

''']
W={'special':['BitVec 6'],'main':['BitVec 6'],'regimm':['BitVec 5'],'cop':['BitVec 2','BitVec 5'],'bc':['BitVec 2','BitVec 5'],'co':['BitVec 6'],'fp':['BitVec 5','BitVec 6']}
for m in re.finditer(r'\| \.(\w+) ([\w ]+), \.(\w+), \[(.*?)\] => some (\(.*\))\n',body):
    code,vs,syn,args,word=m.groups()
    vs=vs.split()
    b=' '.join(f'{{{v} : {t}}}' for v,t in zip(vs,W[code]))
    args_l=[a.strip() for a in args.split(',')] if args.strip() else []
    avs=[]
    for a in args_l: avs+=a.split()[1:]
    # rename clash
    ex='∃ '+' '.join(avs)+', ' if avs else ''
    if avs:
        wit='⟨'+', '.join(['_']*len(avs))+', rfl, h.symm⟩'
    else: wit='⟨rfl, h.symm⟩'
    out.append(f'''theorem place_{syn}_{code} {b} {{args : List Arg}} {{w : BitVec 32}}
    (h : place (.{code} {' '.join(vs)}) .{syn} args = some w) :
    {ex}args = [{', '.join(args_l)}] ∧ w = {word} := by
  unfold place at h
  split at h
  all_goals first
    | (cases h; done)
    | (rename_i h1 h2; cases h1 <;> cases h2 <;> cases h <;> exact {'⟨'+', '.join(['_']*len(avs))+', rfl, rfl⟩' if avs else '⟨rfl, rfl⟩'})

''')
out.append('end Mips\n')
open('/verif/lean/Verif/Lemmas/PlaceL.lean','w').write(''.join(out))
