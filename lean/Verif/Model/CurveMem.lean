import Verif.Model.KeyMem
/-!
# Validation of a curve on real storage

`ec_curve_fp::verify` of `/repo/include/ack/ec.hpp` on buffer objects.
-/
namespace Ack.Mem
open Big (Byte)

/-- `x * y` for a `word_t`, bigint.hpp:2540: a new object. -/
def BigSt.muluNew (K : Kind) (s : BigSt) (x : Nat) (y : Word) : Res BigSt := do
  let n := s.mem.objs.length
  let s ← s.create K 0
  s.mulu1 K n x y

namespace CurveR

/-- The discriminant test of `verify`, ec.hpp:1869-1876: `-16 * (4 * a.sqr() * a + 27 * b.sqr()) == 0`. -/
def isSingular (K : Kind) (c : CurveR) : M Bool := do
  let va ← newObj fun s => s.copyNew K c.a
  let vb ← newObj fun s => s.copyNew K c.b
  let afe : FeR := ⟨va, some c.p⟩
  let bfe : FeR := ⟨vb, some c.p⟩
  let a2 ← afe.sqr K
  let a2 ← a2.mulS K 4
  let a3 ← a2.mul K afe
  let b2 ← bfe.sqr K
  let b2 ← b2.mulS K 27
  let y2 ← a3.add K b2
  let d ← y2.mulS K (-16)
  d.eqS 0

/-- The test of the cofactor in `verify`, ec.hpp:1889-1896. -/
def cofactorOk (K : Kind) (c : CurveR) : M Bool :=
  if c.h.toNat < 1 then pure false
  else do
    let g ← ask fun s => s.gtU c.p c.h
    if !g then pure false
    else do
      let x ← newObj fun s => s.muluNew K c.n c.h
      let y ← newObj fun s => s.subsNew K c.p 1
      let e ← ask fun s => s.opEq x y
      pure (!e)

/-- `verify`, ec.hpp:1848-1899.  Temporaries end with the call. -/
def verify (K : Kind) (fuel : Nat) (c : CurveR) : M Bool := inScope do
  let x ← ask fun s => s.gtS c.p 3
  if !x then pure false
  else do
    let x ← ask fun s => s.gtS c.n 0
    if !x then pure false
    else do
      let x ← ask fun s => s.isNegative c.a
      if x then pure false
      else do
        let x ← ask fun s => s.opGe c.a c.p
        if x then pure false
        else do
          let x ← ask fun s => s.isNegative c.b
          if x then pure false
          else do
            let x ← ask fun s => s.opGe c.b c.p
            if x then pure false
            else do
              let x ← c.isSingular K
              if x then pure false
              else do
                let x ← c.g.isValid K fuel
                if !x then pure false
                else c.cofactorOk K

end CurveR

/-- A program that makes the six integers, a curve of them, and validates the curve. -/
def curveProgram (K : Kind) (fuel : Nat) (d : DomBytes) : M Bool := do
  let p ← newObj fun s => s.ofBytes K d.p
  let a ← newObj fun s => s.ofBytes K d.a
  let b ← newObj fun s => s.ofBytes K d.b
  let gx ← newObj fun s => s.ofBytes K d.gx
  let gy ← newObj fun s => s.ofBytes K d.gy
  let n ← newObj fun s => s.ofBytes K d.n
  let c ← CurveR.make K 1 p a b gx gy n d.h
  c.verify K fuel

end Ack.Mem
