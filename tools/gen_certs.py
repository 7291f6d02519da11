#!/usr/bin/env python3
"""Writes lean/Verif/Model/Named.lean (curve constants, copied from ec_curve.hpp) and lean/Verif/Proof/Certs/*.lean
(primality certificates found by ecpp.py, and the certificates that the curves have no point of order two)."""
import json, re, os
R = os.path.dirname(os.path.dirname(os.path.abspath(__file__)))
src = open('/repo/include/ack/ec_curve.hpp').read()
lines = src.split('\n')
cur = []
for m in re.finditer(r'ACK_EC_CURVE_FP\(\s*(\w+),\s*/\*size =\*/\s*(\d+),(.*?)\n    \)', src, re.S):
    name, bits, rest = m.groups()
    hexs = re.findall(r'"([0-9a-fA-F]*)"', rest)
    h = int(re.search(r'/\*h =\*/\s*(\d+)', rest).group(1))
    l0 = src[:m.start()].count('\n') + 1
    l1 = src[:m.end()].count('\n') + 1
    cur.append((name, int(bits), hexs, h, l0, l1))
assert len(cur) == 8
o = '''import Verif.Model.Utils
import Verif.Model.Ec
/-!
# Model of the named curves, ec_curve.hpp

Generated by tools/gen_certs.py: the strings are copied from the source.
-/
namespace Ack

/-- Arguments of the macro `ACK_EC_CURVE_FP`, ec_curve.hpp:25-37. -/
structure CurveParams where
  bits : Nat
  p : String
  a : String
  b : String
  gx : String
  gy : String
  n : String
  h : Word

/-- The integer type the macro selects: `bignum` in a wasm build when `bitsize >= 512`, else `ec_fixed_bigint<bitsize>`
(ec.hpp:14-15), whose storage has `2 * bitsize_to_wordsize(bitsize)` words. -/
def CurveParams.cap (q : CurveParams) (wasm : Bool) : Cap :=
  if wasm ∧ 512 ≤ q.bits then none else some (bitsizeToWordsize (bitsizeToWordsize q.bits * 32 * 2))

/-- The object the macro defines: every constant is converted by the literal constructor of the integer type, and the
curve constructor is called (ec_curve.hpp:27-36).  `addr` stands for the address of the object. -/
def CurveParams.build (q : CurveParams) (wasm : Bool) (addr : Nat) : Res Curve := do
  let p ← Big.ofHexLit (q.cap wasm) (chars q.p)
  let a ← Big.ofHexLit (q.cap wasm) (chars q.a)
  let b ← Big.ofHexLit (q.cap wasm) (chars q.b)
  let gx ← Big.ofHexLit (q.cap wasm) (chars q.gx)
  let gy ← Big.ofHexLit (q.cap wasm) (chars q.gy)
  let n ← Big.ofHexLit (q.cap wasm) (chars q.n)
  Curve.make (q.cap wasm) addr p a b gx gy n q.h

/-- The curves of namespace `ack::ec_curve`. -/
inductive Named
'''
for c in cur: o += f'  | {c[0]}\n'
o += 'deriving DecidableEq, Repr\n\nnamespace Named\n\n'
for name, bits, hx, h, l0, l1 in cur:
    p, a, b, gx, gy, n = hx
    o += f'''/-- ec_curve.hpp:{l0}-{l1} -/
def {name}Params : CurveParams where
  bits := {bits}
  p := "{p}"
  a := "{a}"
  b := "{b}"
  gx := "{gx}"
  gy := "{gy}"
  n := "{n}"
  h := {h}

'''
o += 'def params : Named → CurveParams\n'
for c in cur: o += f'  | {c[0]} => {c[0]}Params\n'
o += '\nend Named\nend Ack\n'
open(R + '/lean/Verif/Model/Named.lean', 'w').write(o)

def xpow(e, f, p):
    """x^e modulo x^3 + a x + b"""
    a, b = f
    c = (0, 1, 0)
    for i in range(e.bit_length() - 2, -1, -1):
        c0, c1, c2 = c
        d3, d4 = 2*c1*c2, c2*c2
        c = ((c0*c0 - b*d3) % p, (2*c0*c1 - a*d3 - b*d4) % p, (2*c0*c2 + c1*c1 - a*d4) % p)
        if e >> i & 1:
            c = (-b*c[2] % p, (c[0] - a*c[2]) % p, c[1])
    return c

def solve(M, r, p):
    """Gaussian elimination modulo p"""
    n = len(M)
    M = [row[:] + [x] for row, x in zip(M, r)]
    for i in range(n):
        j = next(j for j in range(i, n) if M[j][i] % p)
        M[i], M[j] = M[j], M[i]
        iv = pow(M[i][i], -1, p)
        M[i] = [x*iv % p for x in M[i]]
        for j in range(n):
            if j != i and M[j][i]:
                t = M[j][i]
                M[j] = [(x - t*y) % p for x, y in zip(M[j], M[i])]
    return [M[i][n] for i in range(n)]

os.makedirs(R + '/lean/Verif/Proof/Certs', exist_ok=True)
for name, bits, hx, h, l0, l1 in cur:
    p, a, b, gx, gy, n = [int(x, 16) for x in hx]
    steps = json.load(open(f'{R}/tools/certs/{name}.json'))
    assert int(steps[0]['N']) == n
    g0, g1, g2 = xpow(p, (a, b), p)
    g1 -= 1
    # unknowns u0 u1 v0 v1 v2
    M = [[b, 0, g0, 0, 0], [a, b, g1, g0, 0], [0, a, g2, g1, g0], [1, 0, 0, g2, g1], [0, 1, 0, 0, g2]]
    u0, u1, v0, v1, v2 = solve(M, [1, 0, 0, 0, 0], p)
    o = f'''import Verif.Proof.NamedCurve
/-!
# Certificates for {name}

Generated by tools/gen_certs.py.
-/
namespace Ack.Certs

'''
    last = int(steps[-1]['q'])
    o += f'theorem {name}_0 : Nat.Prime {last} := prime_of_trial (f := 20000) (by decide +kernel)\n'
    for i, s in enumerate(reversed(steps)):
        o += f"theorem {name}_{i+1} : Nat.Prime {s['N']} := ecpp (a := {s['a']}) (b := {s['b']}) (x := {s['x']}) (y := {s['y']}) {name}_{i} (by decide +kernel)\n"
    o += f'''
/-- The facts about the constants of {name} that are checked by computation. -/
theorem {name} : NumCert Named.{name}Params {p} {a} {b} {gx} {gy} {n} where
  hp := by decide +kernel
  ha := by decide +kernel
  hb := by decide +kernel
  hgx := by decide +kernel
  hgy := by decide +kernel
  hn := by decide +kernel
  np := {name}_{len(steps)}
  run := by decide +kernel
  root := ⟨{u0}, {u1}, {v0}, {v1}, {v2}, by decide +kernel⟩
  num := by decide +kernel

end Ack.Certs
'''
    open(f'{R}/lean/Verif/Proof/Certs/{name[0].upper()+name[1:]}.lean', 'w').write(o)
