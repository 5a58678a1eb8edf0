#!/usr/bin/env python3
"""Writes lean/Verif/Ed25519/Tables.lean from the tables bi and base of /repo/crypto/edwards25519/const.go."""
import re
src = open('/repo/crypto/edwards25519/const.go').read()
def entries(name):
    i = re.search(r'^var %s = ' % name, src, re.M).start()
    j = src.index('\n}\n', i)
    first = src[:i].count('\n') + 1
    last = src[:j + 2].count('\n') + 1
    fes = re.findall(r'FieldElement\{([^}]*)\}', src[i:j])
    fes = [[int(x) for x in f.replace('\n', ' ').split(',') if x.strip()] for f in fes]
    assert all(len(f) == 10 for f in fes) and len(fes) % 3 == 0
    return [fes[k:k + 3] for k in range(0, len(fes), 3)], first, last
bi, b0, b1 = entries('bi')
base, a0, a1 = entries('base')
assert len(bi) == 8 and len(base) == 256, (len(bi), len(base))
def pc(e):
    return '⟨' + ',\n      '.join('[' + ', '.join(map(str, f)) + ']' for f in e) + '⟩'
o = '''import Verif.Ed25519.GroupModel
/-!
# The precomputed tables of `const.go`

Written by `tools/gen_tables.py` from the source text.
-/
set_option autoImplicit false

namespace Cardano.Ed

'''
o += f'/-- const.go:{b0}-{b1} `bi`. -/\ndef bi : List PreComp :=\n  [ ' + '\n  , '.join(map(pc, bi)) + ' ]\n\n'
for i in range(32):
    o += f'/-- Row {i} of `base`. -/\ndef base{i} : List PreComp :=\n  [ ' + '\n  , '.join(map(pc, base[8 * i:8 * i + 8])) + ' ]\n\n'
o += f'/-- const.go:{a0}-{a1} `base`. -/\ndef base : List (List PreComp) :=\n  [' + ', '.join(f'base{i}' for i in range(32)) + ']\n\nend Cardano.Ed\n'
open('/verif/lean/Verif/Ed25519/Tables.lean', 'w').write(o)
