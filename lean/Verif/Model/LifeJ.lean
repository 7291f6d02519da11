import Verif.Model.Life
/-!
# Lifetimes of curve objects: homogeneous and Jacobian points (include/ack/ec.hpp:615-1394)

Continues `Model/Life.lean`: homogeneous and Jacobian points with their pointers, in programs that also use affine points.  The
other simplifications are those of `Model/Life.lean`.
-/
namespace Ack.Life
open Big

/-- `inv`, fp.hpp:679-682. -/
def LFe.inv (cap : Cap) (w : World) (a : LFe) : Res LFe := a.lift w (·.inv cap)

/-- `operator+`, fp.hpp:689-692: of the right operand only the value is read. -/
def LFe.add (cap : Cap) (w : World) (a x : LFe) : Res LFe := a.lift w (·.addB cap x.v)

/-- `operator*` of a big integer and a field element, fe.hpp:461-464: `b.mul( a )`. -/
def LFe.bigMul (cap : Cap) (w : World) (x : Big) (a : LFe) : Res LFe := a.lift w (·.mulB cap x)

/-- `curve()`, ec.hpp:38-42: the address and the members read through it. -/
def getCurve (w : World) (q : Option Ptr) : Res (Ptr × Curve) :=
  match q with
  | none => .error .abort
  | some a => do
    let c ← w.curve a
    .ok (a, c.view)

/-- The data members of `ec_point_fp_proj`, ec.hpp:341, 625-627. -/
structure LHPt where
  curve : Option Ptr
  x : LFe
  y : LFe
  z : LFe
deriving DecidableEq

namespace LHPt

/-- Default constructor, ec.hpp:632-637. -/
def identity : LHPt := ⟨none, ⟨Big.zero, none⟩, ⟨ofInt32 1, none⟩, ⟨Big.zero, none⟩⟩

/-- Construction from an affine point, ec.hpp:646-655: `z` points to the modulus of the curve of the point. -/
def ofAffine (w : World) (q : LPt) : Res LHPt := do
  if !(← q.isIdentity w) then do
    let c ← getCurve w q.curve
    .ok ⟨some c.1, q.x, q.y, ⟨ofInt32 1, some c.1⟩⟩
  else .ok identity

/-- `is_identity`, ec.hpp:713-716. -/
def isIdentity (w : World) (q : LHPt) : Res Bool :=
  match q.curve with
  | none => .ok true
  | some _ => q.z.isZero w

/-- `to_affine`, ec.hpp:694-707. -/
def toAffine (cap : Cap) (w : World) (q : LHPt) : Res LPt := do
  if ← q.isIdentity w then .ok LPt.identity
  else if q.z.v.isOne then do
    let c ← getCurve w q.curve
    .ok ⟨some c.1, q.x, q.y⟩
  else do
    let zi ← q.z.inv cap w
    let c ← getCurve w q.curve
    let x ← q.x.mul cap w zi
    let y ← q.y.mul cap w zi
    .ok ⟨some c.1, x, y⟩

/-- `inverted` and unary minus, ec.hpp:768-774. -/
def inverted (cap : Cap) (w : World) (q : LHPt) : Res LHPt := do
  if ← q.isIdentity w then .ok q
  else do
    let c ← getCurve w q.curve
    let y ← q.y.neg cap w
    .ok ⟨some c.1, q.x, y, q.z⟩

/-- The lambda computing the tangent numerator in `doubled`, ec.hpp:835-844. -/
def tangent (cap : Cap) (w : World) (q : LHPt) : Res LFe := do
  let x2 ← q.x.sqr cap w
  let c ← getCurve w q.curve
  if c.2.aIsZero then x2.mulS cap w 3
  else if c.2.aIsMinus3 then do
    let z2 ← q.z.sqr cap w
    let d ← x2.sub cap w z2
    d.mulS cap w 3
  else do
    let t ← x2.mulS cap w 3
    let z2 ← q.z.sqr cap w
    let az ← LFe.bigMul cap w c.2.a z2
    t.add cap w az

/-- `doubled`, ec.hpp:828-858. -/
def doubled (cap : Cap) (w : World) (q : LHPt) : Res LHPt := do
  if ← q.isIdentity w then .ok identity
  else if Big.eqS q.y.v 0 then .ok identity
  else do
    let t ← tangent cap w q
    let dy ← q.y.mulS cap w 2
    let u ← dy.mul cap w q.z
    let ux ← u.mul cap w q.x
    let v ← ux.mul cap w dy
    let t2 ← t.sqr cap w
    let v2 ← v.mulS cap w 2
    let m ← t2.sub cap w v2
    let rx ← u.mul cap w m
    let u2 ← u.sqr cap w
    let e ← v.sub cap w m
    let te ← t.mul cap w e
    let y2 ← q.y.sqr cap w
    let k ← u2.mul cap w y2
    let k2 ← k.mulS cap w 2
    let ry ← te.sub cap w k2
    let rz ← u2.mul cap w u
    let c ← getCurve w q.curve
    .ok ⟨some c.1, rx, ry, rz⟩

/-- `add`, `operator+`, ec.hpp:783-820. -/
def add (cap : Cap) (w : World) (p q : LHPt) : Res LHPt := do
  if ← p.isIdentity w then .ok q
  else do
    if ← q.isIdentity w then .ok p
    else do
      let t0 ← p.y.mul cap w q.z
      let t1 ← q.y.mul cap w p.z
      let u0 ← p.x.mul cap w q.z
      let u1 ← q.x.mul cap w p.z
      if opEq u0.v u1.v then
        if opEq t0.v t1.v then doubled cap w p
        else .ok identity
      else do
        let t ← t0.sub cap w t1
        let u ← u0.sub cap w u1
        let u2 ← u.sqr cap w
        let u3 ← u.mul cap w u2
        let v ← p.z.mul cap w q.z
        let t2 ← t.sqr cap w
        let tv ← t2.mul cap w v
        let us ← u0.add cap w u1
        let uu ← u2.mul cap w us
        let m ← tv.sub cap w uu
        let rx ← u.mul cap w m
        let k ← u0.mul cap w u2
        let k ← k.sub cap w m
        let k ← t.mul cap w k
        let l ← t0.mul cap w u3
        let ry ← k.sub cap w l
        let rz ← u3.mul cap w v
        let c ← getCurve w p.curve
        .ok ⟨some c.1, rx, ry, rz⟩

/-- `sub`, `operator-`, ec.hpp:867-870. -/
def sub (cap : Cap) (w : World) (q a : LHPt) : Res LHPt := do
  let n ← a.inverted cap w
  add cap w q n

/-- `mul` for a scalar that is not negative: ec.hpp:881-887 and 893-903. -/
def mulNN (cap : Cap) (w : World) (q : LHPt) (s : Big) : Res LHPt :=
  if s.isOne then .ok q
  else do
    if ← q.isIdentity w then .ok q
    else if s.isZero then .ok identity
    else ladder (add cap w) (doubled cap w) (s.bitLength + 1) identity q s

/-- `mul`, `operator*`, ec.hpp:879-904. -/
def mul (cap : Cap) (w : World) (q : LHPt) (s : Big) : Res LHPt :=
  if s.isOne then .ok q
  else do
    if ← q.isIdentity w then .ok q
    else if s.isZero then .ok identity
    else if ltS s 0 then do
      let i ← inverted cap w q
      mulNN cap w i (negate s)
    else mulNN cap w q s

end LHPt

/-- The data members of `ec_point_fp_jacobi`, ec.hpp:341, 980-983. -/
structure LJPt where
  curve : Option Ptr
  x : LFe
  y : LFe
  z : LFe
deriving DecidableEq

namespace LJPt

/-- Default constructor, ec.hpp:987-992; `zero()` and `one()` have no modulus. -/
def identity : LJPt := ⟨none, ⟨Big.zero, none⟩, ⟨ofInt32 1, none⟩, ⟨Big.zero, none⟩⟩

/-- Construction from an affine point, ec.hpp:1001-1010: `z` points to the modulus of the curve of the point. -/
def ofAffine (w : World) (q : LPt) : Res LJPt := do
  if !(← q.isIdentity w) then do
    let c ← getCurve w q.curve
    .ok ⟨some c.1, q.x, q.y, ⟨ofInt32 1, some c.1⟩⟩
  else .ok identity

/-- `is_identity`, ec.hpp:1070-1073. -/
def isIdentity (w : World) (q : LJPt) : Res Bool :=
  match q.curve with
  | none => .ok true
  | some _ => q.z.isZero w

/-- `to_affine`, ec.hpp:1050-1064. -/
def toAffine (cap : Cap) (w : World) (q : LJPt) : Res LPt := do
  if ← q.isIdentity w then .ok LPt.identity
  else if q.z.v.isOne then do
    let c ← getCurve w q.curve
    .ok ⟨some c.1, q.x, q.y⟩
  else do
    let zi ← q.z.inv cap w
    let zi2 ← zi.sqr cap w
    let c ← getCurve w q.curve
    let x ← q.x.mul cap w zi2
    let y ← q.y.mul cap w zi2
    let y ← y.mul cap w zi
    .ok ⟨some c.1, x, y⟩

/-- `inverted` and unary minus, ec.hpp:1128-1134. -/
def inverted (cap : Cap) (w : World) (q : LJPt) : Res LJPt := do
  if ← q.isIdentity w then .ok q
  else do
    let c ← getCurve w q.curve
    let y ← q.y.neg cap w
    .ok ⟨some c.1, q.x, y, q.z⟩

/-- The lambda computing `M` in `doubled`, ec.hpp:1191-1204. -/
def tangent (cap : Cap) (w : World) (q : LJPt) : Res LFe := do
  let c ← getCurve w q.curve
  if c.2.aIsZero then do
    let x2 ← q.x.sqr cap w
    x2.mulS cap w 3
  else if c.2.aIsMinus3 then do
    let z2 ← (if q.z.v.isOne then .ok q.z else q.z.sqr cap w)
    let d ← q.x.sub cap w z2
    let d ← d.mulS cap w 3
    let e ← q.x.add cap w z2
    d.mul cap w e
  else do
    let z4 ← (if q.z.v.isOne then .ok q.z else do
      let z2 ← q.z.sqr cap w
      z2.sqr cap w)
    let x2 ← q.x.sqr cap w
    let t ← x2.mulS cap w 3
    let az ← LFe.bigMul cap w c.2.a z4
    t.add cap w az

/-- `doubled`, ec.hpp:1177-1212. -/
def doubled (cap : Cap) (w : World) (q : LJPt) : Res LJPt := do
  if ← q.isIdentity w then .ok q
  else if Big.eqS q.y.v 0 then .ok identity
  else do
    let m ← tangent cap w q
    let y2 ← q.y.sqr cap w
    let x4 ← q.x.mulS cap w 4
    let s ← x4.mul cap w y2
    let m2 ← m.sqr cap w
    let s2 ← s.mulS cap w 2
    let x3 ← m2.sub cap w s2
    let d ← s.sub cap w x3
    let md ← m.mul cap w d
    let y4 ← y2.sqr cap w
    let y8 ← y4.mulS cap w 8
    let y3 ← md.sub cap w y8
    let dy ← q.y.mulS cap w 2
    let z3 ← dy.mul cap w q.z
    let c ← getCurve w q.curve
    .ok ⟨some c.1, x3, y3, z3⟩

/-- `addex`, ec.hpp:1338-1367.  `curve_` of the sum is that of `p`; its coordinates point to the moduli of whichever operands stand
on the left in the formulas. -/
def addex (cap : Cap) (w : World) (p q : LJPt) (U1 U2 S1 S2 : LFe) : Res LJPt := do
  let H ← U2.sub cap w U1
  let R ← S2.sub cap w S1
  if ← H.isZero w then do
    if ← R.isZero w then doubled cap w p
    else .ok identity
  else do
    let H2 ← H.sqr cap w
    let H3 ← H2.mul cap w H
    let V ← U1.mul cap w H2
    let R2 ← R.sqr cap w
    let t ← R2.sub cap w H3
    let V2 ← V.mulS cap w 2
    let X3 ← t.sub cap w V2
    let d ← V.sub cap w X3
    let rd ← R.mul cap w d
    let sh ← S1.mul cap w H3
    let Y3 ← rd.sub cap w sh
    let Z3 ← (if !p.z.v.isOne then H.mul cap w p.z else .ok H)
    let Z3 ← (if !q.z.v.isOne then Z3.mul cap w q.z else .ok Z3)
    let c ← getCurve w p.curve
    .ok ⟨some c.1, X3, Y3, Z3⟩

/-- `add_z2_1`, ec.hpp:1378-1382. -/
def addZ2One (cap : Cap) (w : World) (p q : LJPt) : Res LJPt := do
  let pz2 ← p.z.sqr cap w
  let u2 ← q.x.mul cap w pz2
  let s2 ← q.y.mul cap w pz2
  let s2 ← s2.mul cap w p.z
  addex cap w p q p.x u2 p.y s2

/-- `add_ne`, ec.hpp:1386-1393. -/
def addNe (cap : Cap) (w : World) (p q : LJPt) : Res LJPt := do
  let pz2 ← p.z.sqr cap w
  let qz2 ← q.z.sqr cap w
  let u1 ← p.x.mul cap w qz2
  let u2 ← q.x.mul cap w pz2
  let s1 ← p.y.mul cap w qz2
  let s1 ← s1.mul cap w q.z
  let s2 ← q.y.mul cap w pz2
  let s2 ← s2.mul cap w p.z
  addex cap w p q u1 u2 s1 s2

/-- `add`, `operator+`, ec.hpp:1143-1169 (`add_z_1`, 1371-1374, is inlined). -/
def add (cap : Cap) (w : World) (p q : LJPt) : Res LJPt := do
  if ← p.isIdentity w then .ok q
  else do
    if ← q.isIdentity w then .ok p
    else if p.z.v.isOne && q.z.v.isOne then addex cap w p q p.x q.x p.y q.y
    else if p.z.v.isOne then addZ2One cap w q p
    else if q.z.v.isOne then addZ2One cap w p q
    else addNe cap w p q

/-- `sub`, `operator-`, ec.hpp:1221-1224. -/
def sub (cap : Cap) (w : World) (q a : LJPt) : Res LJPt := do
  let n ← a.inverted cap w
  add cap w q n

/-- The loop over the digits in `mul`, ec.hpp:1258-1266. -/
def nafLoop (cap : Cap) (w : World) (p pneg : LJPt) : List (BitVec 8) → LJPt → Res LJPt
  | [], r => .ok r
  | d :: t, r => do
    let r ← doubled cap w r
    let r ← (if d.toInt > 0 then add cap w r p else if d.toInt < 0 then add cap w r pneg else .ok r)
    nafLoop cap w p pneg t r

/-- `mul` for a scalar that is not negative: ec.hpp:1235-1241 and 1255-1267. -/
def mulNN (cap : Cap) (w : World) (q : LJPt) (s : Big) : Res LJPt :=
  if s.isOne then .ok q
  else do
    if ← q.isIdentity w then .ok q
    else if s.isZero then .ok identity
    else do
      let qneg ← inverted cap w q
      let c ← getCurve w q.curve
      let r : LJPt := ⟨some c.1, ⟨ofInt32 0, some c.1⟩, ⟨ofInt32 0, some c.1⟩, ⟨ofInt32 1, some c.1⟩⟩
      let ds ← toRnaf cap s
      nafLoop cap w q qneg ds r

/-- `mul`, `operator*`, ec.hpp:1233-1268. -/
def mul (cap : Cap) (w : World) (q : LJPt) (s : Big) : Res LJPt :=
  if s.isOne then .ok q
  else do
    if ← q.isIdentity w then .ok q
    else if s.isZero then .ok identity
    else if ltS s 0 then do
      let i ← inverted cap w q
      mulNN cap w i (negate s)
    else mulNN cap w q s

end LJPt

/-- `generate_point<ec_point_fp_jacobi>`, ec.hpp:1563-1571. -/
def World.generateJ (cap : Cap) (w : World) (a : Ptr) (k : Big) : Res LJPt := do
  let c ← w.curve a
  check (gtS k 0 && opLt k c.n)
  let q ← LJPt.ofAffine w c.g
  q.mul cap w k

/-- `generate_point<ec_point_fp_proj>`, ec.hpp:1563-1571. -/
def World.generateH (cap : Cap) (w : World) (a : Ptr) (k : Big) : Res LHPt := do
  let c ← w.curve a
  check (gtS k 0 && opLt k c.n)
  let q ← LHPt.ofAffine w c.g
  q.mul cap w k

/-- The curve objects and the affine points of a program, its Jacobian and its homogeneous points. -/
structure StJ where
  s : St
  js : List LJPt
  hs : List LHPt

/-- Statements on points of one kind other than the affine ones; results are new variables. -/
inductive PStmt
  /-- a point from an affine one -/
  | ofAffine (i : Nat)
  /-- `to_affine` -/
  | toAffine (i : Nat)
  | generate (c : Nat) (k : Big)
  | add (i j : Nat)
  | sub (i j : Nat)
  | neg (i : Nat)
  | dbl (i : Nat)
  | mul (i : Nat) (k : Big)

/-- Statements: those of `Model/Life.lean`, and those on Jacobian and on homogeneous points. -/
inductive StmtJ
  | aff (c : Stmt)
  | jac (c : PStmt)
  | hom (c : PStmt)

/-- A point variable; there is no such statement in a well-formed program without the variable. -/
def StJ.jpt (s : StJ) (i : Nat) : Res LJPt :=
  match s.js[i]? with
  | some q => .ok q
  | none => .error .ub

/-- The same for homogeneous points. -/
def StJ.hpt (s : StJ) (i : Nat) : Res LHPt :=
  match s.hs[i]? with
  | some q => .ok q
  | none => .error .ub

/-- A new point variable. -/
def StJ.pushJ (s : StJ) (q : LJPt) : StJ := ⟨s.s, s.js ++ [q], s.hs⟩

/-- The same for homogeneous points. -/
def StJ.pushH (s : StJ) (q : LHPt) : StJ := ⟨s.s, s.js, s.hs ++ [q]⟩

/-- One statement on Jacobian points. -/
def StJ.jstep (cap : Cap) (s : StJ) : PStmt → Res StJ
  | .ofAffine i => do
    let a ← s.s.pt i
    .ok (s.pushJ (← LJPt.ofAffine s.s.w a))
  | .toAffine i => do
    let a ← s.jpt i
    .ok ⟨s.s.push (← a.toAffine cap s.s.w), s.js, s.hs⟩
  | .generate c k => do .ok (s.pushJ (← s.s.w.generateJ cap c k))
  | .add i j => do
    let a ← s.jpt i
    let b ← s.jpt j
    .ok (s.pushJ (← a.add cap s.s.w b))
  | .sub i j => do
    let a ← s.jpt i
    let b ← s.jpt j
    .ok (s.pushJ (← a.sub cap s.s.w b))
  | .neg i => do
    let a ← s.jpt i
    .ok (s.pushJ (← a.inverted cap s.s.w))
  | .dbl i => do
    let a ← s.jpt i
    .ok (s.pushJ (← a.doubled cap s.s.w))
  | .mul i k => do
    let a ← s.jpt i
    .ok (s.pushJ (← a.mul cap s.s.w k))

/-- One statement on homogeneous points. -/
def StJ.hstep (cap : Cap) (s : StJ) : PStmt → Res StJ
  | .ofAffine i => do
    let a ← s.s.pt i
    .ok (s.pushH (← LHPt.ofAffine s.s.w a))
  | .toAffine i => do
    let a ← s.hpt i
    .ok ⟨s.s.push (← a.toAffine cap s.s.w), s.js, s.hs⟩
  | .generate c k => do .ok (s.pushH (← s.s.w.generateH cap c k))
  | .add i j => do
    let a ← s.hpt i
    let b ← s.hpt j
    .ok (s.pushH (← a.add cap s.s.w b))
  | .sub i j => do
    let a ← s.hpt i
    let b ← s.hpt j
    .ok (s.pushH (← a.sub cap s.s.w b))
  | .neg i => do
    let a ← s.hpt i
    .ok (s.pushH (← a.inverted cap s.s.w))
  | .dbl i => do
    let a ← s.hpt i
    .ok (s.pushH (← a.doubled cap s.s.w))
  | .mul i k => do
    let a ← s.hpt i
    .ok (s.pushH (← a.mul cap s.s.w k))

/-- One statement on curves of the domain `D`. -/
def StJ.step (cap : Cap) (D : Params) (s : StJ) : StmtJ → Res StJ
  | .aff c => do .ok ⟨← s.s.step cap D c, s.js, s.hs⟩
  | .jac c => s.jstep cap c
  | .hom c => s.hstep cap c

/-- A program. -/
def runJ (cap : Cap) (D : Params) (s : StJ) : List StmtJ → Res StJ
  | [] => .ok s
  | c :: t => do runJ cap D (← s.step cap D c) t

end Ack.Life
