#!/usr/bin/env python3
"""Replays the repository's own test-suite expectations on the model (tests, not proofs)."""
import re
asmT=[];disT=[]
for fn in ['cpu_inst_tests.rs','fpu_inst_tests.rs']:
    s=open('/repo/tests/'+fn).read()
    for m in re.finditer(r'^(lbl_)?test!\(\s*(\w+),\s*"([^"]*)",\s*(0x[0-9a-fA-F]+)\s*\);',s,re.M):
        l,n,t,w=m.groups(); t=t.replace('\\n','\n')
        asmT.append((t,[w]))
        if l and ':\n' in t:
            lbl=t.split(':')[0]; y=t.split(':\n')[1].replace(lbl,'-0x1'); disT.append((w,y))
        else: disT.append((w,t))
    for m in re.finditer(r'let inst = asm\("([^"]*)"\);\s*assert_eq!\(\s*inst,\s*vec!\[([^\]]*)\]',s):
        t,ws=m.groups(); asmT.append((t.replace('\\n','\n'),[w.strip() for w in ws.split(',') if w.strip()]))
def q(t): return '"'+t.replace('\n','\\n')+'"'
out='''/-
GENERATED by tools/gen_tests.py: the expectations of /repo/tests replayed on the model.  These are
tests of the model's fidelity, not property proofs.
-/
import Verif.Model.Lib

namespace Mips.Tests

/-- A concrete runtime: overflow checks on, insertion-order hash maps. -/
def rt0 : Rt := ⟨true, fun _ l => l, fun _ _ => .refl _⟩

/-- `asm` of tests/common/mod.rs -/
def asm (t : Str) : Option (List Word) :=
  match @assemble asciiUnicode rt0 (Mipsasm.new.setBase 0x80000000#32) t with
  | .ok is _ => some (getBytes is)
  | _ => none

/-- `disasm` of tests/common/mod.rs -/
def dis (w : Word) : Option (List Str) :=
  disassemble rt0 ((Mipsasm.new.setBase 0x80000000#32).setDebug) [w]

'''
for t,ws in asmT:
    out+='example : asm c!%s = some [%s] := by decide +kernel\n'%(q(t),', '.join(w+'#32' for w in ws))
for w,t in disT:
    out+='example : dis %s#32 = some [c!%s] := by decide +kernel\n'%(w,q(t))
out+='\nend Mips.Tests\n'
open('/verif/lean/Verif/Tests/RepoTests.lean','w').write(out)
print(len(asmT),len(disT))
