#!/usr/bin/env python3
"""Rewrites the last part of DESIGN.md: the counterexample theorems, with the comment each of them carries."""
import glob, os, re

ROOT = os.path.dirname(os.path.dirname(os.path.abspath(__file__)))
found = {}
for path in sorted(glob.glob(ROOT + '/lean/Verif/**/*Props*.lean', recursive=True)):
    text = open(path).read()
    for m in re.finditer(r'/--((?:(?!-/).)*?)-/\s*theorem (C\d\d+\w*counterexample\w*)', text, re.S):
        found[m.group(2)] = ' '.join(m.group(1).split())
out = ['<!-- generated by tools/design.py -->', '']
for name in sorted(found):
    text = found[name].replace('**', '')
    out.append(f'- `{name}`: {text}')
p = ROOT + '/DESIGN.md'
t = open(p).read()
head = t.split('<!-- generated by tools/design.py -->')[0].rstrip()
open(p, 'w').write(head + '\n\n' + '\n'.join(out) + '\n')
