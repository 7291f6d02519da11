import Verif.Model.Ec
/-!
# Lifetimes of curve objects (include/ack/ec.hpp, include/ack/fp.hpp)

Points and field elements store pointers: `curve_` to a curve object (ec.hpp:341) and `pm_` to a modulus (fp.hpp:1093).
`Model/Ec.lean` follows these pointers once and for all and treats the pointee as a value; here they stay pointers, and
following one whose object has ended is undefined behaviour.

Simplifications: affine points only; every modulus is the member `p` of a curve object, so a modulus pointer is the
address of that curve; an operation on a field element follows its modulus pointer even where the code returns before
(`x * 1`, `1.sqr()`).
-/
namespace Ack.Life
open Big

/-- The address of a curve object. -/
abbrev Ptr := Nat

/-- The data members of `fp_element`, fp.hpp:1092-1093. -/
structure LFe where
  v : Big
  pm : Option Ptr
deriving DecidableEq

/-- The data members of `ec_point_fp`, ec.hpp:341, 379-380. -/
structure LPt where
  curve : Option Ptr
  x : LFe
  y : LFe
deriving DecidableEq

/-- The data members of `ec_curve_fp`, ec.hpp:1522-1531.  The generator `g` is a point like any other. -/
structure LCurve where
  p : Big
  a : Big
  b : Big
  g : LPt
  n : Big
  h : Word
  aIsMinus3 : Bool
  aIsZero : Bool
  pMinusN : Big
deriving DecidableEq

/-- The curve objects made so far, by address; `none` when the lifetime has ended. -/
abbrev World := List (Option LCurve)

/-- Access through a pointer to a curve. -/
def World.curve (w : World) (a : Ptr) : Res LCurve :=
  match w[a]? with
  | some (some c) => .ok c
  | _ => .error .ub

/-- The members of a curve other than the pointers in `g`. -/
def LCurve.view (c : LCurve) : Curve :=
  ⟨0, c.p, c.a, c.b, ⟨c.g.x.v, some c.p⟩, ⟨c.g.y.v, some c.p⟩, c.n, c.h, c.aIsMinus3, c.aIsZero, c.pMinusN⟩

namespace LFe

/-- Following `pm_`. -/
def load (w : World) (f : LFe) : Res Fe :=
  match f.pm with
  | none => .ok ⟨f.v, none⟩
  | some a => do
    let c ← w.curve a
    .ok ⟨f.v, some c.p⟩

/-- An operation of `fp_element` on `*this`; every result is built with `*pm_` of `*this`, fp.hpp:679-858. -/
def lift (w : World) (f : Fe → Res Fe) (a : LFe) : Res LFe := do
  let A ← a.load w
  let r ← f A
  .ok ⟨r.v, a.pm⟩

/-- `+ bigint`, fp.hpp:700-704. -/
def addB (cap : Cap) (w : World) (a : LFe) (x : Big) : Res LFe := a.lift w (·.addB cap x)

/-- `operator-`, fp.hpp:723-738: of the right operand only the value is read. -/
def sub (cap : Cap) (w : World) (a x : LFe) : Res LFe := a.lift w (·.subB cap x.v)

/-- `operator*`, fp.hpp:757-778. -/
def mul (cap : Cap) (w : World) (a x : LFe) : Res LFe := a.lift w (·.mulB cap x.v)

/-- `operator*` with a native integer, fp.hpp:786-796. -/
def mulS (cap : Cap) (w : World) (a : LFe) (x : BitVec 32) : Res LFe := a.lift w (·.mulS cap x)

/-- `operator/`, fp.hpp:831-849. -/
def div (cap : Cap) (w : World) (a x : LFe) : Res LFe := a.lift w (·.divB cap x.v)

/-- `sqr`, fp.hpp:802-808. -/
def sqr (cap : Cap) (w : World) (a : LFe) : Res LFe := a.lift w (·.sqr cap)

/-- `neg`, fp.hpp:855-858. -/
def neg (cap : Cap) (w : World) (a : LFe) : Res LFe := a.lift w (·.neg cap)

/-- `is_zero`, fp.hpp:631-634: for the value one `pm_` is not followed. -/
def isZero (w : World) (a : LFe) : Res Bool :=
  if a.v.isOne then .ok false
  else do
    let A ← a.load w
    .ok A.isZero

end LFe

namespace LPt

/-- Default constructor, ec.hpp:384-388; `field_element_type::zero()` has no modulus. -/
def identity : LPt := ⟨none, ⟨Big.zero, none⟩, ⟨Big.zero, none⟩⟩

/-- `curve()`, ec.hpp:38-42, with the members read through it. -/
def getCurve (w : World) (q : LPt) : Res Curve :=
  match q.curve with
  | none => .error .abort
  | some a => do
    let c ← w.curve a
    .ok c.view

/-- `is_identity`, ec.hpp:394-397. -/
def isIdentity (w : World) (q : LPt) : Res Bool :=
  match q.curve with
  | none => .ok true
  | some _ => do
    if ← q.x.isZero w then q.y.isZero w else .ok false

/-- `is_on_curve`, ec.hpp:405-411. -/
def isOnCurve (cap : Cap) (w : World) (q : LPt) : Res Bool := do
  if ← q.isIdentity w then .ok true
  else do
    let y2 ← q.y.sqr cap w
    let x2 ← q.x.sqr cap w
    let c ← q.getCurve w
    let t ← x2.addB cap w c.a
    let t ← t.mul cap w q.x
    let t ← t.addB cap w c.b
    let d ← y2.sub cap w t
    .ok (Big.eqS d.v 0)

/-- `inverted` and unary minus, ec.hpp:448-454. -/
def inverted (cap : Cap) (w : World) (q : LPt) : Res LPt := do
  if ← q.isIdentity w then .ok q
  else do
    let _ ← q.getCurve w
    let y ← q.y.neg cap w
    .ok ⟨q.curve, q.x, y⟩

/-- `doubled` of a point that is neither the identity nor of order two, ec.hpp:502-509. -/
def dblGo (cap : Cap) (w : World) (q : LPt) : Res LPt := do
  let x2 ← q.x.sqr cap w
  let t ← x2.mulS cap w 3
  let c ← q.getCurve w
  let t ← t.addB cap w c.a
  let d ← q.y.mulS cap w 2
  let s ← t.div cap w d
  let s2 ← s.sqr cap w
  let dx ← q.x.mulS cap w 2
  let rx ← s2.sub cap w dx
  let e ← q.x.sub cap w rx
  let f ← s.mul cap w e
  let ry ← f.sub cap w q.y
  .ok ⟨q.curve, rx, ry⟩

/-- `doubled`, ec.hpp:497-510. -/
def doubled (cap : Cap) (w : World) (q : LPt) : Res LPt := do
  if ← q.isIdentity w then .ok identity
  else do
    if ← q.y.isZero w then .ok identity
    else dblGo cap w q

/-- `add`, `operator+`, ec.hpp:463-489.  The first coordinate of the sum comes from `(a.y - y) / (a.x - x)` and so points to
the modulus of `a`, while `curve_` is that of `*this`. -/
def add (cap : Cap) (w : World) (q a : LPt) : Res LPt := do
  if ← q.isIdentity w then .ok a
  else do
    if ← a.isIdentity w then .ok q
    else do
      let s ← a.x.sub cap w q.x
      if ← s.isZero w then
        if opEq q.y.v a.y.v then doubled cap w q
        else .ok identity
      else do
        let d ← a.y.sub cap w q.y
        let s ← d.div cap w s
        let s2 ← s.sqr cap w
        let t ← s2.sub cap w q.x
        let x3 ← t.sub cap w a.x
        let e ← q.x.sub cap w x3
        let f ← s.mul cap w e
        let y3 ← f.sub cap w q.y
        let _ ← q.getCurve w
        .ok ⟨q.curve, x3, y3⟩

/-- `sub`, `operator-`, ec.hpp:519-522. -/
def sub (cap : Cap) (w : World) (q a : LPt) : Res LPt := do
  let n ← a.inverted cap w
  add cap w q n

/-- `mul` for a scalar that is not negative: ec.hpp:533-539 and 545-555. -/
def mulNN (cap : Cap) (w : World) (q : LPt) (s : Big) : Res LPt :=
  if s.isOne then .ok q
  else do
    if ← q.isIdentity w then .ok q
    else if s.isZero then .ok identity
    else ladder (add cap w) (doubled cap w) (s.bitLength + 1) identity q s

/-- `mul`, `operator*`, ec.hpp:531-556. -/
def mul (cap : Cap) (w : World) (q : LPt) (s : Big) : Res LPt :=
  if s.isOne then .ok q
  else do
    if ← q.isIdentity w then .ok q
    else if s.isZero then .ok identity
    else if ltS s 0 then do
      let i ← inverted cap w q
      mulNN cap w i (negate s)
    else mulNN cap w q s

/-- `is_valid`, ec.hpp:425-440. -/
def isValid (cap : Cap) (w : World) (q : LPt) : Res Bool := do
  if ← q.isIdentity w then .ok false
  else do
    if !(← isOnCurve cap w q) then .ok false
    else do
      let c ← q.getCurve w
      let m ← mul cap w q c.n
      .ok (← m.isIdentity w)

/-- `operator==`, ec.hpp:566-572: values and pointers are compared, no pointer is followed. -/
def eq (a b : LPt) : Bool :=
  if opEq a.x.v b.x.v && opEq a.y.v b.y.v then a.curve == b.curve || Big.eqS a.x.v 0 else false

end LPt

/-- The arguments of the curve constructor. -/
structure Params where
  p : Big
  a : Big
  b : Big
  gx : Big
  gy : Big
  n : Big
  h : Word

/-- The constructor, ec.hpp:1542-1552; `g` points to the object under construction and to its member `p`. -/
def World.make (cap : Cap) (D : Params) (w : World) : Res World := do
  let c ← Curve.make cap w.length D.p D.a D.b D.gx D.gy D.n D.h
  .ok (w ++ [some ⟨c.p, c.a, c.b, ⟨some w.length, ⟨c.gx.v, some w.length⟩, ⟨c.gy.v, some w.length⟩⟩, c.n, c.h, c.aIsMinus3,
    c.aIsZero, c.pMinusN⟩])

/-- The implicit copy constructor of `ec_curve_fp` (none is declared in ec.hpp:1506-2019): memberwise, so the pointers in
`g` are copied as they are. -/
def World.copy (w : World) (a : Ptr) : Res World := do
  let c ← w.curve a
  .ok (w ++ [some c])

/-- End of the lifetime of a curve object. -/
def World.finish (w : World) (a : Ptr) : Res World := do
  let _ ← w.curve a
  .ok (w.set a none)

/-- `make_point(x, y, verify)`, ec.hpp:1650-1689, 1929-1941. -/
def World.makePoint (cap : Cap) (w : World) (a : Ptr) (x y : Big) (verify : Bool) : Res LPt := do
  let c ← w.curve a
  check (c.view.isValidInteger x)
  check (c.view.isValidInteger y)
  let pt : LPt := ⟨some a, ⟨x, some a⟩, ⟨y, some a⟩⟩
  if verify then do
    check (← pt.isValid cap w)
    .ok pt
  else .ok pt

/-- `generate_point`, ec.hpp:1563-1571. -/
def World.generate (cap : Cap) (w : World) (a : Ptr) (k : Big) : Res LPt := do
  let c ← w.curve a
  check (gtS k 0 && opLt k c.n)
  c.g.mul cap w k

/-- The curve objects and the points of a program. -/
structure St where
  w : World
  pts : List LPt

/-- Statements of a program; points and curves are named by number, results are new. -/
inductive Stmt
  | newCurve
  | copyCurve (c : Nat)
  | endCurve (c : Nat)
  | makePoint (c : Nat) (x y : Big) (verify : Bool)
  | base (c : Nat)
  | generate (c : Nat) (k : Big)
  | add (i j : Nat)
  | sub (i j : Nat)
  | neg (i : Nat)
  | dbl (i : Nat)
  | mul (i : Nat) (k : Big)

/-- A point variable; there is no such statement in a well-formed program without the variable. -/
def St.pt (s : St) (i : Nat) : Res LPt :=
  match s.pts[i]? with
  | some q => .ok q
  | none => .error .ub

/-- A new point variable. -/
def St.push (s : St) (q : LPt) : St := ⟨s.w, s.pts ++ [q]⟩

/-- One statement on curves of the domain `D`. -/
def St.step (cap : Cap) (D : Params) (s : St) : Stmt → Res St
  | .newCurve => do .ok ⟨← s.w.make cap D, s.pts⟩
  | .copyCurve c => do .ok ⟨← s.w.copy c, s.pts⟩
  | .endCurve c => do .ok ⟨← s.w.finish c, s.pts⟩
  | .makePoint c x y v => do .ok (s.push (← s.w.makePoint cap c x y v))
  | .base c => do .ok (s.push (← s.w.curve c).g)
  | .generate c k => do .ok (s.push (← s.w.generate cap c k))
  | .add i j => do
    let a ← s.pt i
    let b ← s.pt j
    .ok (s.push (← a.add cap s.w b))
  | .sub i j => do
    let a ← s.pt i
    let b ← s.pt j
    .ok (s.push (← a.sub cap s.w b))
  | .neg i => do
    let a ← s.pt i
    .ok (s.push (← a.inverted cap s.w))
  | .dbl i => do
    let a ← s.pt i
    .ok (s.push (← a.doubled cap s.w))
  | .mul i k => do
    let a ← s.pt i
    .ok (s.push (← a.mul cap s.w k))

/-- A program. -/
def run (cap : Cap) (D : Params) (s : St) : List Stmt → Res St
  | [] => .ok s
  | c :: t => do run cap D (← s.step cap D c) t

end Ack.Life
