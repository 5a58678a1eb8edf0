#!/usr/bin/env python3
"""Rewrite the generated part of DESIGN.md: axioms per property theorem. Needs a finished build."""
import json, subprocess, re, os
R = os.path.dirname(os.path.dirname(os.path.abspath(__file__)))
m = json.load(open(R + '/MANIFEST.json'))
names = [t for c in m['claims'] for t in c['theorems']]
src = 'import Verif\n' + ''.join('#print axioms %s\n' % n for n in dict.fromkeys(names))
open('/tmp/axioms.lean', 'w').write(src)
out = subprocess.run(['lake', 'env', 'lean', '/tmp/axioms.lean'], cwd=R + '/lean', capture_output=True, text=True).stdout
ax = {}
for a in re.finditer(r"'([^']+)' (?:depends on axioms: \[([^\]]*)\]|does not depend on any axioms)", out):
    ax[a.group(1)] = re.sub(r'\s+', ' ', a.group(2) or 'none')
mark = '## Axioms per theorem (generated by tools/mkdesign.py)'
d = open(R + '/DESIGN.md').read().split(mark)[0].rstrip('\n')
short = {'propext': 'p', 'Classical.choice': 'c', 'Quot.sound': 'q', 'none': '-'}
lines = ['', '', mark, '', '`p` = propext, `c` = Classical.choice, `q` = Quot.sound, `-` = none.', '', '| property | status | theorem: axioms |', '|---|---|---|']
for c in m['claims']:
    lines.append('| %s | %s | %s |' % (c['property'], c['status'], '; '.join('`%s`: %s' % (t.split('.')[-1], ' '.join(short[x.strip()] for x in ax[t].split(','))) for t in c['theorems'])))
open(R + '/DESIGN.md', 'w').write(d + '\n'.join(lines) + '\n')
print(len(ax))
