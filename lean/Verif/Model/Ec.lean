import Verif.Model.Fp
/-!
# Elliptic curves over prime fields (include/ack/ec.hpp)

Points carry a pointer to their curve (`none` = null).  A curve object is identified by its address `addr`, which is what
the pointer comparisons of the code look at; everything else follows the pointee's value.  `check` failures are `abort`,
the use of a null modulus is `ub` (inside `Fe`).

The generator is stored by its two coordinates: the C++ member `g` is the point made of them with the curve pointer
`this` (ec.hpp:1546).

Evaluation order of pure subexpressions is not observable; they are written in the order of the source text.
-/
namespace Ack
open Big

/-- `ec_curve_fp`, ec.hpp:1506-1552 (data members 1522-1531). -/
structure Curve where
  addr : Nat
  p : Big
  a : Big
  b : Big
  gx : Fe
  gy : Fe
  n : Big
  h : Word
  aIsMinus3 : Bool
  aIsZero : Bool
  pMinusN : Big
deriving DecidableEq, Repr

/-- Pointer comparison `a.curve_ == b.curve_`. -/
def samePtr (a b : Option Curve) : Bool := a.map Curve.addr == b.map Curve.addr

/-- `ec_point_base::curve()`, ec.hpp:38-42. -/
def curveOf (c : Option Curve) : Res Curve :=
  match c with
  | some c => .ok c
  | none => .error .abort

/-- The `while` loop of `mul` in affine and projective coordinates, ec.hpp:548-554 and 896-902 (the same text). -/
def ladder {α : Type} (add : α → α → Res α) (dbl : α → Res α) : Nat → (r tmp : α) → Big → Res α
  | 0, _, _, _ => .error .fuel
  | f + 1, r, tmp, s =>
    if !eqS s 0 then do
      let r ← (if s.isOdd then add r tmp else .ok r)
      let tmp ← dbl tmp
      ladder add dbl f r tmp (shr s 1)
    else .ok r

/-! ## Affine points -/

/-- `ec_point_fp`, ec.hpp:369-599. -/
structure APt where
  curve : Option Curve
  x : Fe
  y : Fe
deriving DecidableEq, Repr

namespace APt

/-- Default constructor, ec.hpp:384-388. -/
def identity : APt := ⟨none, Fe.zero, Fe.zero⟩

/-- `is_identity`, ec.hpp:394-397. -/
def isIdentity (q : APt) : Bool := q.curve.isNone || (q.x.isZero && q.y.isZero)

/-- `is_on_curve`, ec.hpp:405-411. -/
def isOnCurve (cap : Cap) (q : APt) : Res Bool :=
  if q.isIdentity then .ok true
  else do
    let y2 ← q.y.sqr cap
    let x2 ← q.x.sqr cap
    let c ← curveOf q.curve
    let t ← x2.addB cap c.a
    let t ← t.mul cap q.x
    let t ← t.addB cap c.b
    let d ← y2.sub cap t
    .ok (d.eqS 0)

/-- `inverted` and unary minus, ec.hpp:448-454. -/
def inverted (cap : Cap) (q : APt) : Res APt :=
  if q.isIdentity then .ok q
  else do
    let c ← curveOf q.curve
    let y ← q.y.neg cap
    .ok ⟨some c, q.x, y⟩

/-- `doubled`, ec.hpp:497-510. -/
def doubled (cap : Cap) (q : APt) : Res APt :=
  if q.isIdentity || q.y.isZero then .ok identity
  else do
    let x2 ← q.x.sqr cap
    let t ← x2.mulS cap 3
    let c ← curveOf q.curve
    let t ← t.addB cap c.a
    let d ← q.y.mulS cap 2
    let s ← t.div cap d
    let s2 ← s.sqr cap
    let dx ← q.x.mulS cap 2
    let rx ← s2.sub cap dx
    let e ← q.x.sub cap rx
    let f ← s.mul cap e
    let ry ← f.sub cap q.y
    .ok ⟨some c, rx, ry⟩

/-- `add`, `operator+`, ec.hpp:463-489. -/
def add (cap : Cap) (q a : APt) : Res APt :=
  if q.isIdentity then .ok a
  else if a.isIdentity then .ok q
  else do
    let s ← a.x.sub cap q.x
    if s.isZero then
      if q.y.eq a.y then doubled cap q
      else .ok identity
    else do
      let d ← a.y.sub cap q.y
      let s ← d.div cap s
      let s2 ← s.sqr cap
      let t ← s2.sub cap q.x
      let x3 ← t.sub cap a.x
      let e ← q.x.sub cap x3
      let f ← s.mul cap e
      let y3 ← f.sub cap q.y
      let c ← curveOf q.curve
      .ok ⟨some c, x3, y3⟩

/-- `sub`, `operator-`, ec.hpp:519-522. -/
def sub (cap : Cap) (q a : APt) : Res APt := do
  let n ← a.inverted cap
  add cap q n

/-- `mul` for a scalar that is not negative: ec.hpp:533-539 and 545-555. -/
def mulNN (cap : Cap) (q : APt) (s : Big) : Res APt :=
  if s.isOne || q.isIdentity then .ok q
  else if s.isZero then .ok identity
  else ladder (add cap) (doubled cap) (s.bitLength + 1) identity q s

/-- `mul`, `operator*`, ec.hpp:531-556.  The recursive call of line 542 has a positive scalar and does not recur. -/
def mul (cap : Cap) (q : APt) (s : Big) : Res APt :=
  if s.isOne || q.isIdentity then .ok q
  else if s.isZero then .ok identity
  else if ltS s 0 then do
    let i ← inverted cap q
    mulNN cap i (negate s)
  else mulNN cap q s

/-- `is_valid`, ec.hpp:425-440. -/
def isValid (cap : Cap) (q : APt) : Res Bool :=
  if q.isIdentity then .ok false
  else do
    if !(← isOnCurve cap q) then .ok false
    else
      let c ← curveOf q.curve
      let m ← mul cap q c.n
      if !m.isIdentity then .ok false else .ok true

/-- `operator==`, ec.hpp:566-572. -/
def eq (a b : APt) : Bool :=
  if a.x.eq b.x && a.y.eq b.y then samePtr a.curve b.curve || a.x.eqS 0 else false

end APt

/-! ## Homogeneous projective points -/

/-- `ec_point_fp_proj`, ec.hpp:615-953. -/
structure PPt where
  curve : Option Curve
  x : Fe
  y : Fe
  z : Fe
deriving DecidableEq, Repr

namespace PPt

/-- Default constructor, ec.hpp:632-637. -/
def identity : PPt := ⟨none, Fe.zero, Fe.one, Fe.zero⟩

/-- Construction from an affine point, ec.hpp:646-655. -/
def ofAffine (q : APt) : Res PPt :=
  if !q.isIdentity then do
    let c ← curveOf q.curve
    .ok ⟨some c, q.x, q.y, ⟨ofInt32 1, some c.p⟩⟩
  else .ok identity

/-- `is_identity`, ec.hpp:713-716. -/
def isIdentity (q : PPt) : Bool := q.curve.isNone || q.z.isZero

/-- `normalize` and `normalized`, ec.hpp:664-685 (`z = 1` keeps the modulus, fp.hpp:557-586). -/
def normalized (cap : Cap) (q : PPt) : Res PPt :=
  if !q.isIdentity && !q.z.isOne then do
    let zi ← q.z.inv cap
    let x ← q.x.mul cap zi
    let y ← q.y.mul cap zi
    let z ← q.z.assign (ofInt32 1) false
    .ok ⟨q.curve, x, y, z⟩
  else .ok q

/-- `to_affine`, ec.hpp:694-707. -/
def toAffine (cap : Cap) (q : PPt) : Res APt :=
  if q.isIdentity then .ok APt.identity
  else if q.z.isOne then do
    let c ← curveOf q.curve
    .ok ⟨some c, q.x, q.y⟩
  else do
    let zi ← q.z.inv cap
    let c ← curveOf q.curve
    let x ← q.x.mul cap zi
    let y ← q.y.mul cap zi
    .ok ⟨some c, x, y⟩

/-- `is_on_curve`, ec.hpp:724-731. -/
def isOnCurve (cap : Cap) (q : PPt) : Res Bool :=
  if q.isIdentity then .ok true
  else do
    let z2 ← q.z.sqr cap
    let y2 ← q.y.sqr cap
    let l ← y2.mul cap q.z
    let x2 ← q.x.sqr cap
    let c ← curveOf q.curve
    let az ← Fe.bigMul cap c.a z2
    let t ← x2.add cap az
    let t ← t.mul cap q.x
    let bz ← Fe.bigMul cap c.b q.z
    let bz ← bz.mul cap z2
    let t ← t.add cap bz
    let d ← l.sub cap t
    .ok (d.eqS 0)

/-- `inverted` and unary minus, ec.hpp:768-774. -/
def inverted (cap : Cap) (q : PPt) : Res PPt :=
  if q.isIdentity then .ok q
  else do
    let c ← curveOf q.curve
    let y ← q.y.neg cap
    .ok ⟨some c, q.x, y, q.z⟩

/-- The lambda computing the tangent numerator in `doubled`, ec.hpp:835-844. -/
def tangent (cap : Cap) (q : PPt) : Res Fe := do
  let x2 ← q.x.sqr cap
  let c ← curveOf q.curve
  if c.aIsZero then x2.mulS cap 3
  else if c.aIsMinus3 then do
    let z2 ← q.z.sqr cap
    let d ← x2.sub cap z2
    d.mulS cap 3
  else do
    let t ← x2.mulS cap 3
    let z2 ← q.z.sqr cap
    let az ← Fe.bigMul cap c.a z2
    t.add cap az

/-- `doubled`, ec.hpp:828-858. -/
def doubled (cap : Cap) (q : PPt) : Res PPt :=
  if q.isIdentity || q.y.eqS 0 then .ok identity
  else do
    let t ← tangent cap q
    let dy ← q.y.mulS cap 2
    let u ← dy.mul cap q.z
    let ux ← u.mul cap q.x
    let v ← ux.mul cap dy
    let t2 ← t.sqr cap
    let v2 ← v.mulS cap 2
    let w ← t2.sub cap v2
    let rx ← u.mul cap w
    let u2 ← u.sqr cap
    let e ← v.sub cap w
    let te ← t.mul cap e
    let y2 ← q.y.sqr cap
    let k ← u2.mul cap y2
    let k2 ← k.mulS cap 2
    let ry ← te.sub cap k2
    let rz ← u2.mul cap u
    let c ← curveOf q.curve
    .ok ⟨some c, rx, ry, rz⟩

/-- `add`, `operator+`, ec.hpp:783-820. -/
def add (cap : Cap) (p q : PPt) : Res PPt :=
  if p.isIdentity then .ok q
  else if q.isIdentity then .ok p
  else do
    let t0 ← p.y.mul cap q.z
    let t1 ← q.y.mul cap p.z
    let u0 ← p.x.mul cap q.z
    let u1 ← q.x.mul cap p.z
    if u0.eq u1 then
      if t0.eq t1 then doubled cap p
      else .ok identity
    else do
      let t ← t0.sub cap t1
      let u ← u0.sub cap u1
      let u2 ← u.sqr cap
      let u3 ← u.mul cap u2
      let v ← p.z.mul cap q.z
      let t2 ← t.sqr cap
      let tv ← t2.mul cap v
      let us ← u0.add cap u1
      let uu ← u2.mul cap us
      let w ← tv.sub cap uu
      let rx ← u.mul cap w
      let m ← u0.mul cap u2
      let m ← m.sub cap w
      let m ← t.mul cap m
      let k ← t0.mul cap u3
      let ry ← m.sub cap k
      let rz ← u3.mul cap v
      let c ← curveOf p.curve
      .ok ⟨some c, rx, ry, rz⟩

/-- `sub`, `operator-`, ec.hpp:867-870. -/
def sub (cap : Cap) (q a : PPt) : Res PPt := do
  let n ← a.inverted cap
  add cap q n

/-- `mul` for a scalar that is not negative: ec.hpp:881-887 and 893-903. -/
def mulNN (cap : Cap) (q : PPt) (s : Big) : Res PPt :=
  if s.isOne || q.isIdentity then .ok q
  else if s.isZero then .ok identity
  else ladder (add cap) (doubled cap) (s.bitLength + 1) identity q s

/-- `mul`, `operator*`, ec.hpp:879-904. -/
def mul (cap : Cap) (q : PPt) (s : Big) : Res PPt :=
  if s.isOne || q.isIdentity then .ok q
  else if s.isZero then .ok identity
  else if ltS s 0 then do
    let i ← inverted cap q
    mulNN cap i (negate s)
  else mulNN cap q s

/-- `is_valid`, ec.hpp:745-760. -/
def isValid (cap : Cap) (q : PPt) : Res Bool :=
  if q.isIdentity then .ok false
  else do
    if !(← isOnCurve cap q) then .ok false
    else
      let c ← curveOf q.curve
      let m ← mul cap q c.n
      if !m.isIdentity then .ok false else .ok true

/-- `operator==`, ec.hpp:917-925 (with the short circuits of `&&`). -/
def eq (cap : Cap) (a b : PPt) : Res Bool :=
  if a.isIdentity || b.isIdentity then .ok (a.isIdentity && b.isIdentity)
  else if !samePtr a.curve b.curve then .ok false
  else do
    let l ← a.x.mul cap b.z
    let r ← b.x.mul cap a.z
    if !l.eq r then .ok false
    else do
      let l ← a.y.mul cap b.z
      let r ← b.y.mul cap a.z
      .ok (l.eq r)

end PPt

/-! ## Jacobian points -/

/-- `ec_point_fp_jacobi`, ec.hpp:970-1394. -/
structure JPt where
  curve : Option Curve
  x : Fe
  y : Fe
  z : Fe
deriving DecidableEq, Repr

namespace JPt

/-- Default constructor, ec.hpp:987-992. -/
def identity : JPt := ⟨none, Fe.zero, Fe.one, Fe.zero⟩

/-- Construction from an affine point, ec.hpp:1001-1010. -/
def ofAffine (q : APt) : Res JPt :=
  if !q.isIdentity then do
    let c ← curveOf q.curve
    .ok ⟨some c, q.x, q.y, ⟨ofInt32 1, some c.p⟩⟩
  else .ok identity

/-- `is_identity`, ec.hpp:1070-1073. -/
def isIdentity (q : JPt) : Bool := q.curve.isNone || q.z.isZero

/-- `normalize` and `normalized`, ec.hpp:1019-1041. -/
def normalized (cap : Cap) (q : JPt) : Res JPt :=
  if !q.isIdentity && !q.z.isOne then do
    let zi ← q.z.inv cap
    let zi2 ← zi.mul cap zi
    let x ← q.x.mul cap zi2
    let zi3 ← zi2.mul cap zi
    let y ← q.y.mul cap zi3
    let z ← q.z.assign (ofInt32 1) false
    .ok ⟨q.curve, x, y, z⟩
  else .ok q

/-- `to_affine`, ec.hpp:1050-1064. -/
def toAffine (cap : Cap) (q : JPt) : Res APt :=
  if q.isIdentity then .ok APt.identity
  else if q.z.isOne then do
    let c ← curveOf q.curve
    .ok ⟨some c, q.x, q.y⟩
  else do
    let zi ← q.z.inv cap
    let zi2 ← zi.sqr cap
    let c ← curveOf q.curve
    let x ← q.x.mul cap zi2
    let y ← q.y.mul cap zi2
    let y ← y.mul cap zi
    .ok ⟨some c, x, y⟩

/-- `is_on_curve`, ec.hpp:1082-1091. -/
def isOnCurve (cap : Cap) (q : JPt) : Res Bool :=
  if q.isIdentity then .ok true
  else do
    let z2 ← q.z.sqr cap
    let z4 ← z2.sqr cap
    let z6 ← z2.mul cap z4
    let y2 ← q.y.sqr cap
    let x2 ← q.x.sqr cap
    let c ← curveOf q.curve
    let az ← Fe.bigMul cap c.a z4
    let t ← x2.add cap az
    let t ← t.mul cap q.x
    let bz ← Fe.bigMul cap c.b z6
    let t ← t.add cap bz
    .ok (y2.eq t)

/-- `inverted` and unary minus, ec.hpp:1128-1134. -/
def inverted (cap : Cap) (q : JPt) : Res JPt :=
  if q.isIdentity then .ok q
  else do
    let c ← curveOf q.curve
    let y ← q.y.neg cap
    .ok ⟨some c, q.x, y, q.z⟩

/-- The lambda computing `M` in `doubled`, ec.hpp:1191-1204. -/
def tangent (cap : Cap) (q : JPt) : Res Fe := do
  let c ← curveOf q.curve
  if c.aIsZero then do
    let x2 ← q.x.sqr cap
    x2.mulS cap 3
  else if c.aIsMinus3 then do
    let z2 ← (if q.z.isOne then .ok q.z else q.z.sqr cap)
    let d ← q.x.sub cap z2
    let d ← d.mulS cap 3
    let e ← q.x.add cap z2
    d.mul cap e
  else do
    let z4 ← (if q.z.isOne then .ok q.z else do
      let z2 ← q.z.sqr cap
      z2.sqr cap)
    let x2 ← q.x.sqr cap
    let t ← x2.mulS cap 3
    let az ← Fe.bigMul cap c.a z4
    t.add cap az

/-- `doubled`, ec.hpp:1177-1212. -/
def doubled (cap : Cap) (q : JPt) : Res JPt :=
  if q.isIdentity then .ok q
  else if q.y.eqS 0 then .ok identity
  else do
    let m ← tangent cap q
    let y2 ← q.y.sqr cap
    let x4 ← q.x.mulS cap 4
    let s ← x4.mul cap y2
    let m2 ← m.sqr cap
    let s2 ← s.mulS cap 2
    let x3 ← m2.sub cap s2
    let d ← s.sub cap x3
    let md ← m.mul cap d
    let y4 ← y2.sqr cap
    let y8 ← y4.mulS cap 8
    let y3 ← md.sub cap y8
    let dy ← q.y.mulS cap 2
    let z3 ← dy.mul cap q.z
    let c ← curveOf q.curve
    .ok ⟨some c, x3, y3, z3⟩

/-- `addex`, ec.hpp:1338-1367. -/
def addex (cap : Cap) (p q : JPt) (U1 U2 S1 S2 : Fe) : Res JPt := do
  let H ← U2.sub cap U1
  let R ← S2.sub cap S1
  if H.isZero then
    if R.isZero then doubled cap p
    else .ok identity
  else do
    let H2 ← H.sqr cap
    let H3 ← H2.mul cap H
    let V ← U1.mul cap H2
    let R2 ← R.sqr cap
    let t ← R2.sub cap H3
    let V2 ← V.mulS cap 2
    let X3 ← t.sub cap V2
    let d ← V.sub cap X3
    let rd ← R.mul cap d
    let sh ← S1.mul cap H3
    let Y3 ← rd.sub cap sh
    let Z3 ← (if !p.z.isOne then H.mul cap p.z else .ok H)
    let Z3 ← (if !q.z.isOne then Z3.mul cap q.z else .ok Z3)
    let c ← curveOf p.curve
    .ok ⟨some c, X3, Y3, Z3⟩

/-- `add_z2_1`, ec.hpp:1378-1382. -/
def addZ2One (cap : Cap) (p q : JPt) : Res JPt := do
  let pz2 ← p.z.sqr cap
  let u2 ← q.x.mul cap pz2
  let s2 ← q.y.mul cap pz2
  let s2 ← s2.mul cap p.z
  addex cap p q p.x u2 p.y s2

/-- `add_ne`, ec.hpp:1386-1393. -/
def addNe (cap : Cap) (p q : JPt) : Res JPt := do
  let pz2 ← p.z.sqr cap
  let qz2 ← q.z.sqr cap
  let u1 ← p.x.mul cap qz2
  let u2 ← q.x.mul cap pz2
  let s1 ← p.y.mul cap qz2
  let s1 ← s1.mul cap q.z
  let s2 ← q.y.mul cap pz2
  let s2 ← s2.mul cap p.z
  addex cap p q u1 u2 s1 s2

/-- `add`, `operator+`, ec.hpp:1143-1169 (`add_z_1`, 1371-1374, is inlined). -/
def add (cap : Cap) (p q : JPt) : Res JPt :=
  if p.isIdentity then .ok q
  else if q.isIdentity then .ok p
  else if p.z.isOne && q.z.isOne then addex cap p q p.x q.x p.y q.y
  else if p.z.isOne then addZ2One cap q p
  else if q.z.isOne then addZ2One cap p q
  else addNe cap p q

/-- `sub`, `operator-`, ec.hpp:1221-1224. -/
def sub (cap : Cap) (q a : JPt) : Res JPt := do
  let n ← a.inverted cap
  add cap q n

/-- The loop over the digits in `mul`, ec.hpp:1258-1266.  A digit is read into a `char`, taken as signed (as on x86 and
wasm). -/
def nafLoop (cap : Cap) (p pneg : JPt) : List (BitVec 8) → JPt → Res JPt
  | [], r => .ok r
  | d :: t, r => do
    let r ← doubled cap r
    let r ← (if d.toInt > 0 then add cap r p else if d.toInt < 0 then add cap r pneg else .ok r)
    nafLoop cap p pneg t r

/-- `mul` for a scalar that is not negative: ec.hpp:1235-1241 and 1255-1267. -/
def mulNN (cap : Cap) (q : JPt) (s : Big) : Res JPt :=
  if s.isOne || q.isIdentity then .ok q
  else if s.isZero then .ok identity
  else do
    let qneg ← inverted cap q
    let c ← curveOf q.curve
    let r : JPt := ⟨some c, ⟨ofInt32 0, some c.p⟩, ⟨ofInt32 0, some c.p⟩, ⟨ofInt32 1, some c.p⟩⟩
    let ds ← toRnaf cap s
    nafLoop cap q qneg ds r

/-- `mul`, `operator*`, ec.hpp:1233-1268.  The recursive call of line 1244 has a positive scalar and does not recur. -/
def mul (cap : Cap) (q : JPt) (s : Big) : Res JPt :=
  if s.isOne || q.isIdentity then .ok q
  else if s.isZero then .ok identity
  else if ltS s 0 then do
    let i ← inverted cap q
    mulNN cap i (negate s)
  else mulNN cap q s

/-- `is_valid`, ec.hpp:1105-1120. -/
def isValid (cap : Cap) (q : JPt) : Res Bool :=
  if q.isIdentity then .ok false
  else do
    if !(← isOnCurve cap q) then .ok false
    else
      let c ← curveOf q.curve
      let m ← mul cap q c.n
      if !m.isIdentity then .ok false else .ok true

/-- `operator==`, ec.hpp:1281-1297, on two distinct objects (the shortcut for one object compared with itself,
1283-1285, is not modelled: it answers `true`, as the remaining code does for every point). -/
def eq (cap : Cap) (a b : JPt) : Res Bool :=
  if a.isIdentity || b.isIdentity then .ok (a.isIdentity && b.isIdentity)
  else do
    let az2 ← a.z.sqr cap
    let bz2 ← b.z.sqr cap
    if !samePtr a.curve b.curve then .ok false
    else do
      let l ← a.x.mul cap bz2
      let r ← b.x.mul cap az2
      if !l.eq r then .ok false
      else do
        let l ← a.y.mul cap bz2
        let l ← l.mul cap b.z
        let r ← b.y.mul cap az2
        let r ← r.mul cap a.z
        .ok (l.eq r)

end JPt

/-! ## `ec_mul_add_fast` -/

/-- The operations a point type offers to the templates. -/
structure PointOps (α : Type) where
  identity : α
  isIdentity : α → Bool
  inverted : α → Res α
  add : α → α → Res α
  doubled : α → Res α
  mul : α → Big → Res α

/-- Point operations of the three coordinate systems. -/
def APt.ops (cap : Cap) : PointOps APt :=
  ⟨APt.identity, APt.isIdentity, APt.inverted cap, APt.add cap, APt.doubled cap, APt.mul cap⟩
def PPt.ops (cap : Cap) : PointOps PPt :=
  ⟨PPt.identity, PPt.isIdentity, PPt.inverted cap, PPt.add cap, PPt.doubled cap, PPt.mul cap⟩
def JPt.ops (cap : Cap) : PointOps JPt :=
  ⟨JPt.identity, JPt.isIdentity, JPt.inverted cap, JPt.add cap, JPt.doubled cap, JPt.mul cap⟩

/-- The precomputed points of `ec_mul_add_fast`, ec.hpp:1971-1977. -/
structure MulAddTbl (α : Type) where
  p : α
  q : α
  pneg : α
  qneg : α
  pnegqneg : α
  pqneg : α
  pqnegInv : α
  pnegqnegInv : α

/-- One step of the loop, ec.hpp:1983-2016. -/
def mulAddStep {α : Type} (o : PointOps α) (t : MulAddTbl α) (da db : BitVec 8) (r : α) : Res α := do
  let r ← o.doubled r
  if da = 0 then
    if db = 0 then .ok r
    else if db.toInt < 0 then o.add r t.qneg
    else o.add r t.q
  else if da.toInt < 0 then
    if db = 0 then o.add r t.pneg
    else if db.toInt < 0 then o.add r t.pnegqneg
    else o.add r t.pqnegInv
  else
    if db = 0 then o.add r t.p
    else if db.toInt < 0 then o.add r t.pqneg
    else o.add r t.pnegqnegInv

/-- The loop of `ec_mul_add_fast`, ec.hpp:1982-2017; the two digit strings have one length. -/
def mulAddLoop {α : Type} (o : PointOps α) (t : MulAddTbl α) : List (BitVec 8) → List (BitVec 8) → α → Res α
  | da :: as, db :: bs, r => do
    let r ← mulAddStep o t da db r
    mulAddLoop o t as bs r
  | _, _, r => .ok r

/-- `ec_mul_add_fast`, ec.hpp:1959-2020. -/
def mulAddFast {α : Type} (cap : Cap) (o : PointOps α) (a : Big) (p : α) (b : Big) (q : α) : Res α := do
  let an ← toRnaf cap a
  let bn ← toRnaf cap b
  let an' := List.replicate (bn.length - an.length) 0 ++ an
  let bn' := List.replicate (an.length - bn.length) 0 ++ bn
  let pneg ← o.inverted p
  let qneg ← o.inverted q
  let pnegqneg ← o.add pneg qneg
  let pqneg ← o.add p qneg
  let pqnegInv ← o.inverted pqneg
  let pnegqnegInv ← o.inverted pnegqneg
  mulAddLoop o ⟨p, q, pneg, qneg, pnegqneg, pqneg, pqnegInv, pnegqnegInv⟩ an' bn' o.identity

/-! ## Curves -/

namespace Curve

/-- The generator `g`, ec.hpp:1525, 1546. -/
def g (c : Curve) : APt := ⟨some c, c.gx, c.gy⟩

/-- `is_valid_integer`, ec.hpp:1902-1905. -/
def isValidInteger (c : Curve) (x : Big) : Bool := !x.isNegative && opLt x c.p

/-- `make_field_element(x, verify)`, ec.hpp:1912-1926. -/
def makeFe (c : Curve) (x : Big) (verify : Bool) : Res Fe := do
  if verify then check (c.isValidInteger x)
  .ok ⟨x, some c.p⟩

/-- Constructor, ec.hpp:1542-1552.  `g` is built by `make_point(IntT&&, IntT&&)` (1650-1660), which checks both
coordinates. -/
def make (cap : Cap) (addr : Nat) (p a b gx gy n : Big) (h : Word) : Res Curve := do
  let c : Curve := ⟨addr, p, a, b, ⟨gx, some p⟩, ⟨gy, some p⟩, n, h, opEq a (subs1 cap p 3), a.isZero, sub cap p n⟩
  check (c.isValidInteger gx)
  check (c.isValidInteger gy)
  .ok c

/-- `make_point<ec_point_fp>(x, y, verify)` on integers, ec.hpp:1650-1689, 1929-1941. -/
def makePoint (cap : Cap) (c : Curve) (x y : Big) (verify : Bool) : Res APt := do
  check (c.isValidInteger x)
  check (c.isValidInteger y)
  let pt : APt := ⟨some c, ⟨x, some c.p⟩, ⟨y, some c.p⟩⟩
  if verify then do
    let v ← pt.isValid cap
    check v
  .ok pt

/-- The affine part of `generate_point`, ec.hpp:1563-1571. -/
def generateA (cap : Cap) (c : Curve) (x : Big) : Res APt := do
  check (gtS x 0 && opLt x c.n)
  c.g.mul cap x

/-- `generate_point<ec_point_fp_proj>`, ec.hpp:1563-1571. -/
def generateP (cap : Cap) (c : Curve) (x : Big) : Res PPt := do
  check (gtS x 0 && opLt x c.n)
  let q ← PPt.ofAffine c.g
  q.mul cap x

/-- `generate_point<ec_point_fp_jacobi>`, ec.hpp:1563-1571. -/
def generateJ (cap : Cap) (c : Curve) (x : Big) : Res JPt := do
  check (gtS x 0 && opLt x c.n)
  let q ← JPt.ofAffine c.g
  q.mul cap x

/-- `compute_y`, ec.hpp:1699-1705. -/
def computeY (cap : Cap) (c : Curve) (x : Fe) (odd : Bool) : Res Fe := do
  let x2 ← x.sqr cap
  let t ← x2.addB cap c.a
  let t ← t.mul cap x
  let t ← t.addB cap c.b
  let y ← t.sqrt cap
  if odd != y.v.testBit 0 then y.neg cap else .ok y

/-- `decompress_point<ec_point_fp>`, ec.hpp:1730-1736. -/
def decompress (cap : Cap) (c : Curve) (x : Fe) (odd : Bool) : Res APt := do
  let y ← computeY cap c x odd
  if y.isZero then .ok APt.identity
  else .ok ⟨some c, x, y⟩

/-- `decompress_point(IntT, yodd, verify)`, ec.hpp:1749-1751. -/
def decompressInt (cap : Cap) (c : Curve) (x : Big) (odd verify : Bool) : Res APt := do
  let x ← c.makeFe x verify
  decompress cap c x odd

/-- `encode_point`, ec.hpp:1775-1791. -/
def encode (cap : Cap) (q : APt) (compress : Bool) : List Byte :=
  if q.isIdentity then [0]
  else if compress then (if q.y.v.testBit 0 then 3 else 2) :: q.x.toBytes cap
  else 4 :: (q.x.toBytes cap ++ q.y.toBytes cap)

/-- `decode_point<ec_point_fp>`, ec.hpp:1813-1839.  The coordinates are converted by the byte constructor of the integer
type. -/
def decode (cap : Cap) (c : Curve) (e : List Byte) : Res APt := do
  check (!e.isEmpty)
  let type := e.headD 0
  check (decide (type.toNat ≤ 4) && type != 1)
  let plen := c.p.byteLength
  if type = 2 ∨ type = 3 then do
    check (e.length == plen + 1)
    let x ← ofBytes cap ((e.drop 1).take plen)
    decompressInt cap c x ((type &&& 1) == 1) false
  else if type = 4 then do
    check (e.length == 2 * plen + 1)
    let x ← ofBytes cap ((e.drop 1).take plen)
    let y ← ofBytes cap ((e.drop (1 + plen)).take plen)
    makePoint cap c x y false
  else .ok APt.identity

/-- `verify`, ec.hpp:1848-1899.  The comparisons `p <= 3`, `n <= 0` are with `int`, `h >= p` with an unsigned word. -/
def verify (cap : Cap) (c : Curve) : Res Bool :=
  if !gtS c.p 3 || !gtS c.n 0 then .ok false
  else if c.a.isNegative || opGe c.a c.p then .ok false
  else if c.b.isNegative || opGe c.b c.p then .ok false
  else do
    let afe : Fe := ⟨c.a, some c.p⟩
    let bfe : Fe := ⟨c.b, some c.p⟩
    let a2 ← afe.sqr cap
    let a2 ← a2.mulS cap 4
    let a3 ← a2.mul cap afe
    let b2 ← bfe.sqr cap
    let b2 ← b2.mulS cap 27
    let y2 ← a3.add cap b2
    let d ← y2.mulS cap (-16)
    if d.eqS 0 then .ok false
    else do
      let gv ← c.g.isValid cap
      if !gv then .ok false
      else if decide (c.h.toNat < 1) || !gtU c.p c.h then .ok false
      else if opEq (mulu1 cap c.n c.h) (subs1 cap c.p 1) then .ok false
      else .ok true

end Curve
end Ack
