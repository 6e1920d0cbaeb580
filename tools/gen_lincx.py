#!/usr/bin/env python3
"""Writes lean/Verif/Proofs/LinCxCert*.lean: for bits of the outputs of Xoroshiro and Xoshiro, from one start state, the polynomial that
Berlekamp and Massey's algorithm has before its last change of length within the first 2^15 outputs. Lean checks it (`chk` in Proofs/LinCx.lean)."""
import os
M = (1 << 64) - 1
N = 1 << 15
rl = lambda x, k: ((x << k) | (x >> (64 - k))) & M

def xoro(n):
    a, b = 0x0123456789abcdef, 0xfedcba9876543210
    out = []
    for _ in range(n):
        out.append((a + b) & M)
        x = a ^ b
        a, b = (rl(a, 55) ^ x ^ ((x << 14) & M)), rl(x, 36)
    return out

def xoshi(n):
    w, x, y, z = 0x0123456789abcdef, 0xfedcba9876543210, 0xdeadbeefcafebabe, 0x0f1e2d3c4b5a6978
    out = []
    for _ in range(n):
        out.append((rl(x * 5 & M, 7) * 9) & M)
        t = (x << 17) & M
        y ^= w; z ^= x; x ^= y; w ^= z; y ^= t; z = rl(z, 45)
    return out

def last_change(s):
    C = 1; B = 1; L = 0; m = 1; rev = 0; ch = None
    for n, b in enumerate(s):
        rev = (rev << 1) | b
        if (C & rev).bit_count() & 1 == 0:
            m += 1
        elif 2 * L <= n:
            T = C; ch = (n, L, C); C ^= B << m; L = n + 1 - L; B = T; m = 1
        else:
            C ^= B << m; m += 1
    return ch

def pack(C):
    """u with C_i = bit j of slot q for i = q + 256 (63 - j): `spr` in Proofs/LinCx.lean undoes this."""
    assert C < 1 << 16384
    u = 0
    i = 0
    while C >> i:
        if C >> i & 1:
            q, r = i % 256, i // 256
            u |= 1 << (64 * q + 63 - r)
        i += 1
    return u

def write(name, defn, out, bits):
    here = os.path.dirname(os.path.abspath(__file__))
    rows = []
    for b in bits:
        t, L, C = last_change([(w >> b) & 1 for w in out])
        print(name, b, L, t, t + 1 - L, flush=True)
        rows.append('  (%d, %d, %d, 0x%x)' % (b, L, t, pack(C)))
    with open(os.path.join(here, '..', 'lean', 'Verif', 'Proofs', name + '.lean'), 'w') as f:
        f.write('/-\nGenerated by tools/gen_lincx.py: bit, degree, place and polynomial for `chks`.\n-/\nimport Verif.Proofs.LinCx\nnamespace Crazy\n\n')
        f.write('/-- See `chks`. -/\ndef %s : List (Nat × Nat × Nat × Nat) := [\n%s]\n\nend Crazy\n' % (defn, ',\n'.join(rows)))

if __name__ == '__main__':
    write('LinCxCertA', 'xoroBits', xoro(N), range(1, 64))
    write('LinCxCertB', 'xoshiBits', xoshi(N), range(64))
