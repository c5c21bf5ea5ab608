# Generates lean/Verif/Model/Ops.lean (op enums and their strum names) from /repo/src/ast.rs,
# and lean/Verif/Model/Assembler.lean's match arms from /repo/src/assembler.rs.
import re
src=open('/repo/src/ast.rs').read().split('\n')
def enum(name):
    i=next(k for k,l in enumerate(src) if l.strip()=='pub enum %s {'%name)
    start=i+1
    out=[];ts=None
    k=i+1
    while src[k].strip()!='}':
        l=src[k].strip()
        m=re.match(r'#\[strum\(to_string = "(.*)"\)\]',l)
        if m: ts=m.group(1)
        else:
            m=re.match(r'(\w+)( = \d+)?,',l)
            if m:
                out.append((m.group(1), ts if ts else m.group(1).lower())); ts=None
        k+=1
    return out,start,k+1
o=[]
o.append('''/-
Operation enums of src/ast.rs with their strum names.  GENERATED by tools/gen_ast.py from /repo/src/ast.rs.

`#[strum(serialize_all = "snake_case")]` turns the (one-word) variant names into lower case;
`#[strum(to_string = ..)]` overrides it; `#[strum(ascii_case_insensitive)]` makes `FromStr` compare
with `eq_ignore_ascii_case`.
-/
import Verif.Model.Str

namespace Mips
''')
for n in ['ITypeOp','JTypeOp','RTypeOp']:
    es,a,b=enum(n)
    o.append('/-- `%s` (src/ast.rs:%d-%d). -/'%(n,a,b))
    o.append('inductive %s'%n)
    for i in range(0,len(es),8):
        o.append('  '+' '.join('| '+e for e,_ in es[i:i+8]))
    o.append('  deriving DecidableEq, Repr\n')
    o.append('/-- `%s as Display` (strum, src/ast.rs:%d-%d). -/'%(n,a-3,b))
    o.append('def %s.name : %s → Str'%(n,n))
    for e,s in es: o.append('  | .%s => c!"%s"'%(e,s))
    o.append('')
    o.append('/-- All variants in declaration order. -/')
    o.append('def %s.all : List %s :='%(n,n))
    L=['.'+e for e,_ in es]
    o.append('  ['+',\n   '.join(', '.join(L[i:i+10]) for i in range(0,len(L),10))+']\n')
    o.append('theorem %s.mem_all (o : %s) : o ∈ %s.all := by cases o <;> decide\n'%(n,n,n))
    o.append('/-- `str::parse::<%s>()` (strum `EnumString`, ascii_case_insensitive): first variant whose name matches. -/'%n)
    o.append('def %s.fromStr (s : Str) : Option %s := %s.all.find? fun o => eqIgnoreCase s o.name\n'%(n,n,n))
o.append('end Mips')
open('/verif/lean/Verif/Model/Ops.lean','w').write('\n'.join(o)+'\n')
