#!/usr/bin/env python3
"""Regenerate lean/Verif.lean from the files present."""
import os,glob
root='/verif/lean'
mods=[]
for d in ['Model','Spec','Lemmas','Props','Tests']:
    for f in sorted(glob.glob(f'{root}/Verif/{d}/*.lean')):
        mods.append('Verif.'+d+'.'+os.path.basename(f)[:-5])
open(root+'/Verif.lean','w').write(''.join(f'import {m}\n' for m in mods))
