#!/usr/bin/env python3
"""Writes lean/Verif/Proofs/ZigRows.lean: the numbers W[i]*2^114 and F[i]*2^114 of the ziggurat tables as pairs (m, k) for m*2^k.
Nothing about the file is trusted: the kernel checks them against the decimal constants of the model."""
import re
from fractions import Fraction as Fr
def tab(fn, p):
    s = open('/repo/' + fn).read()
    out = {}
    for n in 'KWF':
        m = re.search(r'var %s%s = \[1024\]\w+\{(.*?)\n\}' % (p, n), s, re.S)
        out[n] = [x.strip() for x in m.group(1).split(',') if x.strip()]
    return [int(x, 16) for x in out['K']], [float(x) for x in out['W']], [float(x) for x in out['F']]
o = ['/-', 'Generated by `tools/gen_zigrows.py`: the numbers `2^114 * W[i]` and `2^114 * F[i]` of the ziggurat\ntables, as pairs `(m, k)` for `m * 2^k`.',
     'The kernel checks them against the decimal constants of `Verif.Model.ZigTables`.', '-/', 'import Verif.Proofs.ZigRound',
     'namespace Crazy', '']
for fn, p in (('expo.go', 'expo'), ('normal.go', 'normal')):
    K, W, F = tab(fn, p)
    for n, T in (('W', W), ('F', F)):
        o.append(f'def {p}{n}Row : List (Nat × Nat) := [')
        for i in range(0, 1024, 4):
            vs = [Fr(x) * 2**114 for x in T[i:i + 4]]
            assert all(v.denominator == 1 for v in vs)
            def mk(n):
                k = n.bit_length() - 53
                assert n % 2**k == 0
                return f'({n >> k}, {k})'
            o.append('  ' + ', '.join(mk(v.numerator) for v in vs) + (',' if i < 1020 else ']'))
        o.append('')
        o.append(f'theorem {p}{n}Row_chk : chkRows {p}{n}Lit {p}{n}Row = true := by decide +kernel')
        o.append('')
o.append('end Crazy')
open('/verif/lean/Verif/Proofs/ZigRows.lean', 'w').write('\n'.join(o) + '\n')
