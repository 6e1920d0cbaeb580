"""Generates lean/Verif/Model/ZigTables.lean from /repo/expo.go and /repo/normal.go: the tables, copied mechanically."""
import re,sys
out=['''/-
Generated by `tools/gen_zigtables.py`: the tables of `expo.go` 46-821 and `normal.go` 54-829, copied mechanically.
A decimal constant `d.ddde-xx` is stored as the pair `(digits, e)` that denotes `digits * 10^-e`.
-/
import Verif.Model.Float
namespace Crazy
''']
def dec(t):
    m=re.fullmatch(r'(\d)\.(\d+)e([+-]\d+)',t)
    digs=m[1]+m[2]; e=len(m[2])-int(m[3])
    return int(digs),e
for name in ['expo','normal']:
    src=open(f'/repo/{name}.go').read().split('\n')
    for tab in ['K','W','F']:
        st=[i for i,l in enumerate(src) if l.startswith(f'var {name}{tab} =')][0]
        en=[i for i in range(st,len(src)) if src[i]=='}'][0]
        toks=[t.strip() for l in src[st+1:en] for t in l.split(',') if t.strip()]
        assert len(toks)==1024
        ty='Nat' if tab=='K' else '(Nat × Nat)'
        out.append(f'/-- `{name}.go` {st+1}-{en+1}: the constants of `{name}{tab}`. -/\ndef {name}{tab}Lit : List {ty} := [')
        per=4
        rows=[]
        for i in range(0,1024,per):
            if tab=='K': rows.append('  '+', '.join(toks[i:i+per]))
            else: rows.append('  '+', '.join('(%d, %d)'%dec(t) for t in toks[i:i+per]))
        out.append(',\n'.join(rows)+']\n')
        out.append(f'theorem {name}{tab}Lit_length : {name}{tab}Lit.length = 1024 := by decide +kernel\n')
        if tab=='K':
            out.append(f'''/-- `{name}.go` {st+1}-{en+1}: `{name}K`. -/
def {name}K : Vector U64 1024 :=
  ⟨({name}KLit.map (BitVec.ofNat 64)).toArray, by rw [List.size_toArray, List.length_map, {name}KLit_length]⟩
''')
        else:
            out.append(f'''/-- `{name}.go` {st+1}-{en+1}: `{name}{tab}`. -/
def {name}{tab} : Vector F64 1024 :=
  ⟨({name}{tab}Lit.map fun d => F64.ofDec d.1 d.2).toArray, by rw [List.size_toArray, List.length_map, {name}{tab}Lit_length]⟩
''')
out.append('end Crazy')
open(sys.argv[1],'w').write('\n'.join(out)+'\n')
