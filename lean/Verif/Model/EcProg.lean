import Verif.Model.EcMem
/-!
# Programs that use curves, points and signatures, on real storage

Continues `Model/EcMem.lean`: the remaining members of the point classes, the curve class, and straight-line programs.
-/
namespace Ack.Mem
open Big (Byte)

/-- `check(b, ...)`, utils.hpp:20-32. -/
def checkM (b : Bool) : M Unit := if b then pure () else halt .abort

namespace BigSt

/-- `is_negative()`, bigint.hpp:1640-1643. -/
def isNegative (s : BigSt) (x : Nat) : Res Bool := do
  let z ← s.isZero x
  .ok (!z && s.neg x)

/-- `x - y`, bigint.hpp:2529: a new object. -/
def subNew (K : Kind) (s : BigSt) (x y : Nat) : Res BigSt := do
  let n := s.mem.objs.length
  let s ← s.create K 0
  s.sub K n x y

/-- `x - y` for an `int`, bigint.hpp:2525 and 1798-1802: a new object. -/
def subsNew (K : Kind) (s : BigSt) (x : Nat) (y : BitVec 32) : Res BigSt := do
  let n := s.mem.objs.length
  let s ← s.create K 0
  s.addu1Go K n x (cabs32 y) (!decide (y.toInt < 0))

end BigSt

/-! ## Points -/

/-- `sub`, ec.hpp:519-522. -/
def APtR.sub (K : Kind) (fuel : Nat) (q a : APtR) : M APtR := do
  let n ← a.inverted K
  q.add K fuel n

/-- `operator==`, ec.hpp:566-572. -/
def APtR.eq (a b : APtR) : M Bool := do
  let e ← a.x.eq b.x
  let e ← (if e then a.y.eq b.y else pure false)
  if e then (if sameR a.curve b.curve then pure true else a.x.eqS 0)
  else pure false

/-- `sub`, ec.hpp:867-870. -/
def PPtR.sub (K : Kind) (q a : PPtR) : M PPtR := do
  let n ← a.inverted K
  q.add K n

/-- `is_on_curve`, ec.hpp:724-731. -/
def PPtR.isOnCurve (K : Kind) (q : PPtR) : M Bool := do
  let i ← q.isIdentity
  if i then pure true
  else do
    let z2 ← q.z.sqr K
    let y2 ← q.y.sqr K
    let l ← y2.mul K q.z
    let x2 ← q.x.sqr K
    let c ← curveR q.curve
    let az ← FeR.bigMul K c.a z2
    let t ← x2.add K az
    let t ← t.mul K q.x
    let bz ← FeR.bigMul K c.b q.z
    let bz ← bz.mul K z2
    let t ← t.add K bz
    let d ← l.sub K t
    d.eqS 0

/-- `is_valid`, ec.hpp:745-760. -/
def PPtR.isValid (K : Kind) (q : PPtR) : M Bool := do
  let i ← q.isIdentity
  if i then pure false
  else do
    let o ← q.isOnCurve K
    if !o then pure false
    else do
      let c ← curveR q.curve
      let m ← q.mul K c.n
      let i ← m.isIdentity
      if !i then pure false else pure true

/-- `operator==`, ec.hpp:917-925. -/
def PPtR.eq (K : Kind) (a b : PPtR) : M Bool := do
  let i ← a.isIdentity
  let j ← b.isIdentity
  if i || j then pure (i && j)
  else if !sameR a.curve b.curve then pure false
  else do
    let l ← a.x.mul K b.z
    let r ← b.x.mul K a.z
    let e ← l.eq r
    if !e then pure false
    else do
      let l ← a.y.mul K b.z
      let r ← b.y.mul K a.z
      l.eq r

/-- `sub`, ec.hpp:1221-1224. -/
def JPtR.sub (K : Kind) (q a : JPtR) : M JPtR := do
  let n ← a.inverted K
  q.add K n

/-- `is_on_curve`, ec.hpp:1082-1091. -/
def JPtR.isOnCurve (K : Kind) (q : JPtR) : M Bool := do
  let i ← q.isIdentity
  if i then pure true
  else do
    let z2 ← q.z.sqr K
    let z4 ← z2.sqr K
    let z6 ← z2.mul K z4
    let y2 ← q.y.sqr K
    let x2 ← q.x.sqr K
    let c ← curveR q.curve
    let az ← FeR.bigMul K c.a z4
    let t ← x2.add K az
    let t ← t.mul K q.x
    let bz ← FeR.bigMul K c.b z6
    let t ← t.add K bz
    y2.eq t

/-- `is_valid`, ec.hpp:1105-1120. -/
def JPtR.isValid (K : Kind) (q : JPtR) : M Bool := do
  let i ← q.isIdentity
  if i then pure false
  else do
    let o ← q.isOnCurve K
    if !o then pure false
    else do
      let c ← curveR q.curve
      let m ← q.mul K c.n
      let i ← m.isIdentity
      if !i then pure false else pure true

/-- `operator==`, ec.hpp:1281-1297, on two distinct objects. -/
def JPtR.eq (K : Kind) (a b : JPtR) : M Bool := do
  let i ← a.isIdentity
  let j ← b.isIdentity
  if i || j then pure (i && j)
  else do
    let az2 ← a.z.sqr K
    let bz2 ← b.z.sqr K
    if !sameR a.curve b.curve then pure false
    else do
      let l ← a.x.mul K bz2
      let r ← b.x.mul K az2
      let e ← l.eq r
      if !e then pure false
      else do
        let l ← a.y.mul K bz2
        let l ← l.mul K b.z
        let r ← b.y.mul K az2
        let r ← r.mul K a.z
        l.eq r

/-! ## Curves -/

namespace CurveR

/-- `is_valid_integer`, ec.hpp:1902-1905, for the prime in object `p`. -/
def isValidInteger (p x : Nat) : M Bool := do
  let n ← ask fun s => s.isNegative x
  if !n then ask fun s => s.opLt x p else pure false

/-- `check_integer`, ec.hpp:1907-1910. -/
def checkInteger (p x : Nat) : M Unit := do
  let v ← isValidInteger p x
  checkM v

/-- `a == ( p - 3 )`, ec.hpp:1550; the difference is a temporary. -/
def minus3 (K : Kind) (a p : Nat) : M Bool := inScope do
  let d ← newObj fun s => s.subsNew K p 3
  ask fun s => s.opEq a d

/-- Constructor, ec.hpp:1542-1552, from six integer objects: the parameters are copies, which are moved into the members;
`make_point` (1650-1660) checks and moves the coordinates.  `addr` stands for the address of the object. -/
def make (K : Kind) (addr p a b gx gy n : Nat) (h : Word) : M CurveR := do
  let p ← newObj fun s => s.copyNew K p
  let a ← newObj fun s => s.copyNew K a
  let b ← newObj fun s => s.copyNew K b
  let gx ← newObj fun s => s.copyNew K gx
  let gy ← newObj fun s => s.copyNew K gy
  checkInteger p gx
  checkInteger p gy
  let n ← newObj fun s => s.copyNew K n
  let m3 ← minus3 K a p
  let z ← ask fun s => s.isZero a
  let pn ← newObj fun s => s.subNew K p n
  pure ⟨addr, p, a, b, ⟨gx, some p⟩, ⟨gy, some p⟩, n, h, m3, z, pn⟩

/-- `make_point(x, y, verify)` from `const IntT&`, ec.hpp:1678-1689 and 1929-1941. -/
def makePoint (K : Kind) (fuel : Nat) (c : CurveR) (x y : Nat) (verify : Bool) : M APtR := do
  checkInteger c.p x
  checkInteger c.p y
  let x ← newObj fun s => s.copyNew K x
  let y ← newObj fun s => s.copyNew K y
  if verify then do
    let v ← APtR.isValid K fuel ⟨some c, ⟨x, some c.p⟩, ⟨y, some c.p⟩⟩
    checkM v
    pure ⟨some c, ⟨x, some c.p⟩, ⟨y, some c.p⟩⟩
  else pure ⟨some c, ⟨x, some c.p⟩, ⟨y, some c.p⟩⟩

/-- The check of `generate_point`, ec.hpp:1565. -/
def checkScalar (c : CurveR) (x : Nat) : M Unit := do
  let g ← ask fun s => s.gtS x 0
  let v ← (if g then ask fun s => s.opLt x c.n else pure false)
  checkM v

/-- `generate_point`, ec.hpp:1563-1571, affine. -/
def generateA (K : Kind) (fuel : Nat) (c : CurveR) (x : Nat) : M APtR := do
  checkScalar c x
  c.g.mul K fuel x

/-- `generate_point`, ec.hpp:1563-1571, projective. -/
def generateP (K : Kind) (c : CurveR) (x : Nat) : M PPtR := do
  checkScalar c x
  let q ← PPtR.ofAffine K c.g
  q.mul K x

/-- `generate_point`, ec.hpp:1563-1571, Jacobian. -/
def generateJ (K : Kind) (c : CurveR) (x : Nat) : M JPtR := do
  checkScalar c x
  let q ← JPtR.ofAffine K c.g
  q.mul K x

end CurveR

/-! ## Programs -/

/-- The three point classes, ec.hpp:369-599, 615-953, 970-1394. -/
inductive Kd | aff | proj | jac
deriving DecidableEq, Repr

/-- A point variable. -/
inductive PtR
  | aff (q : APtR)
  | proj (q : PPtR)
  | jac (q : JPtR)

/-- The variables of a program: integers, points and answers, in order of declaration. -/
structure EcVars where
  ints : List Nat
  pts : List PtR
  bools : List Bool

/-- A statement declares one variable. -/
inductive EcStmt
  /-- `IntT x(bytes);` -/
  | int (d : List Byte)
  /-- `IntT x(-y);` -/
  | neg (i : Nat)
  /-- `auto P = c.make_point(x, y, verify);` -/
  | point (x y : Nat) (verify : Bool)
  /-- `auto P = c.generate_point<PointT>(x);` -/
  | generate (k : Kd) (x : Nat)
  /-- `PointT P(Q);` from an affine point, or `auto P = Q.to_affine();` -/
  | conv (k : Kd) (q : Nat)
  /-- `auto P = Q.doubled();` -/
  | dbl (q : Nat)
  /-- `auto P = -Q;` -/
  | opp (q : Nat)
  /-- `auto P = Q + R;` -/
  | add (q r : Nat)
  /-- `auto P = Q - R;` -/
  | sub (q r : Nat)
  /-- `auto P = Q * x;` -/
  | mul (q x : Nat)
  /-- `auto P = ec_mul_add_fast(x, Q, y, R);` on Jacobian points -/
  | mulAdd (x q y r : Nat)
  /-- `bool b = Q.is_identity();` -/
  | isIdentity (q : Nat)
  /-- `bool b = Q.is_on_curve();` -/
  | isOnCurve (q : Nat)
  /-- `bool b = Q.is_valid();` -/
  | isValid (q : Nat)
  /-- `bool b = Q == R;` -/
  | eq (q r : Nat)
  /-- `bool b = ecdsa_verify(Q, msg, r, s);` -/
  | verify (q : Nat) (msg : List Byte) (r s : Nat)

namespace EcVars

/-- The object of an integer variable; a program naming an undeclared variable is not a program. -/
def int (v : EcVars) (i : Nat) : M Nat := match v.ints[i]? with
  | some x => pure x
  | none => halt .ub

/-- A point variable. -/
def pt (v : EcVars) (i : Nat) : M PtR := match v.pts[i]? with
  | some q => pure q
  | none => halt .ub

end EcVars

/-- `generate_point`, of the class `k`, ec.hpp:1563-1571. -/
def CurveR.generate (K : Kind) (fuel : Nat) (c : CurveR) : Kd → Nat → M PtR
  | .aff, x => do return .aff (← c.generateA K fuel x)
  | .proj, x => do return .proj (← c.generateP K x)
  | .jac, x => do return .jac (← c.generateJ K x)

/-- `PointT P(Q);`, ec.hpp:646-655 and 1001-1010, or `to_affine`, 690-706 and 1050-1064. -/
def PtR.conv (K : Kind) (fuel : Nat) : Kd → PtR → M PtR
  | .aff, .aff q => do return .aff (← q.copy K)
  | .aff, .proj q => do return .aff (← q.toAffine K fuel)
  | .aff, .jac q => do return .aff (← q.toAffine K fuel)
  | .proj, .aff q => do return .proj (← PPtR.ofAffine K q)
  | .jac, .aff q => do return .jac (← JPtR.ofAffine K q)
  | _, _ => halt .ub

/-- `doubled()`, ec.hpp:497-510, 828-858, 1177-1212. -/
def PtR.doubled (K : Kind) (fuel : Nat) : PtR → M PtR
  | .aff q => do return .aff (← q.doubled K fuel)
  | .proj q => do return .proj (← q.doubled K)
  | .jac q => do return .jac (← q.doubled K)

/-- Unary minus, ec.hpp:448-454, 768-774, 1128-1134. -/
def PtR.inverted (K : Kind) : PtR → M PtR
  | .aff q => do return .aff (← q.inverted K)
  | .proj q => do return .proj (← q.inverted K)
  | .jac q => do return .jac (← q.inverted K)

/-- `+`, ec.hpp:463-489, 783-820, 1143-1169: both points are of the same class. -/
def PtR.add (K : Kind) (fuel : Nat) : PtR → PtR → M PtR
  | .aff q, .aff r => do return .aff (← q.add K fuel r)
  | .proj q, .proj r => do return .proj (← q.add K r)
  | .jac q, .jac r => do return .jac (← q.add K r)
  | _, _ => halt .ub

/-- `-`, ec.hpp:519-522, 867-870, 1221-1224. -/
def PtR.sub (K : Kind) (fuel : Nat) : PtR → PtR → M PtR
  | .aff q, .aff r => do return .aff (← q.sub K fuel r)
  | .proj q, .proj r => do return .proj (← q.sub K r)
  | .jac q, .jac r => do return .jac (← q.sub K r)
  | _, _ => halt .ub

/-- `*`, ec.hpp:531-556, 879-904, 1233-1268. -/
def PtR.mul (K : Kind) (fuel : Nat) : PtR → Nat → M PtR
  | .aff q, x => do return .aff (← q.mul K fuel x)
  | .proj q, x => do return .proj (← q.mul K x)
  | .jac q, x => do return .jac (← q.mul K x)

/-- `ec_mul_add_fast`, ec.hpp:1959-2020. -/
def PtR.mulAdd (K : Kind) (x : Nat) (q : PtR) (y : Nat) (r : PtR) : M PtR :=
  match q, r with
  | .jac q, .jac r => do return .jac (← mulAddFastR K x q y r)
  | _, _ => halt .ub

/-- `is_identity()`, ec.hpp:394-397, 713-716, 1070-1073. -/
def PtR.isIdentity : PtR → M Bool
  | .aff q => q.isIdentity
  | .proj q => q.isIdentity
  | .jac q => q.isIdentity

/-- `is_on_curve()`, ec.hpp:405-411, 724-731, 1082-1091. -/
def PtR.isOnCurve (K : Kind) : PtR → M Bool
  | .aff q => inScope (q.isOnCurve K)
  | .proj q => inScope (q.isOnCurve K)
  | .jac q => inScope (q.isOnCurve K)

/-- `is_valid()`, ec.hpp:425-440, 745-760, 1105-1120. -/
def PtR.isValid (K : Kind) (fuel : Nat) : PtR → M Bool
  | .aff q => inScope (q.isValid K fuel)
  | .proj q => inScope (q.isValid K)
  | .jac q => inScope (q.isValid K)

/-- `==`; `same` says that both operands are one object, which the Jacobian version looks at (ec.hpp:1283-1285). -/
def PtR.eq (K : Kind) (same : Bool) : PtR → PtR → M Bool
  | .aff q, .aff r => inScope (q.eq r)
  | .proj q, .proj r => inScope (q.eq K r)
  | .jac q, .jac r => if same then pure true else inScope (q.eq K r)
  | _, _ => halt .ub

/-- `ecdsa_verify`, ecdsa.hpp:25-57, for an affine point. -/
def PtR.verify (K : Kind) (fuel : Nat) (msg : List Byte) (r s : Nat) : PtR → M Bool
  | .aff q => ecdsaVerifyR K fuel q msg r s
  | _ => halt .ub

/-- One statement. -/
def ecStep (K : Kind) (fuel : Nat) (c : CurveR) (v : EcVars) : EcStmt → M EcVars
  | .int d => do
    let x ← newObj fun s => s.ofBytes K d
    return { v with ints := v.ints ++ [x] }
  | .neg i => do
    let i ← v.int i
    let x ← newObj fun s => s.negNew K i
    return { v with ints := v.ints ++ [x] }
  | .point x y ver => do
    let x ← v.int x
    let y ← v.int y
    let q ← c.makePoint K fuel x y ver
    return { v with pts := v.pts ++ [.aff q] }
  | .generate k x => do
    let x ← v.int x
    let q ← c.generate K fuel k x
    return { v with pts := v.pts ++ [q] }
  | .conv k q => do
    let q ← v.pt q
    let p ← q.conv K fuel k
    return { v with pts := v.pts ++ [p] }
  | .dbl q => do
    let q ← v.pt q
    let p ← q.doubled K fuel
    return { v with pts := v.pts ++ [p] }
  | .opp q => do
    let q ← v.pt q
    let p ← q.inverted K
    return { v with pts := v.pts ++ [p] }
  | .add q r => do
    let q ← v.pt q
    let r ← v.pt r
    let p ← q.add K fuel r
    return { v with pts := v.pts ++ [p] }
  | .sub q r => do
    let q ← v.pt q
    let r ← v.pt r
    let p ← q.sub K fuel r
    return { v with pts := v.pts ++ [p] }
  | .mul q x => do
    let q ← v.pt q
    let x ← v.int x
    let p ← q.mul K fuel x
    return { v with pts := v.pts ++ [p] }
  | .mulAdd x q y r => do
    let x ← v.int x
    let q ← v.pt q
    let y ← v.int y
    let r ← v.pt r
    let p ← PtR.mulAdd K x q y r
    return { v with pts := v.pts ++ [p] }
  | .isIdentity q => do
    let q ← v.pt q
    let b ← q.isIdentity
    return { v with bools := v.bools ++ [b] }
  | .isOnCurve q => do
    let q ← v.pt q
    let b ← q.isOnCurve K
    return { v with bools := v.bools ++ [b] }
  | .isValid q => do
    let q ← v.pt q
    let b ← q.isValid K fuel
    return { v with bools := v.bools ++ [b] }
  | .eq q r => do
    let a ← v.pt q
    let b ← v.pt r
    let b ← a.eq K (q == r) b
    return { v with bools := v.bools ++ [b] }
  | .verify q msg r s => do
    let q ← v.pt q
    let r ← v.int r
    let s ← v.int s
    let b ← q.verify K fuel msg r s
    return { v with bools := v.bools ++ [b] }

/-- The statements in order. -/
def ecExec (K : Kind) (fuel : Nat) (c : CurveR) : List EcStmt → EcVars → M EcVars
  | [], v => pure v
  | t :: ts, v => do
    let v ← ecStep K fuel c v t
    ecExec K fuel c ts v

/-- Domain parameters as a program gives them: bytes of `p`, `a`, `b`, `g`, `n`, and the cofactor. -/
structure DomBytes where
  p : List Byte
  a : List Byte
  b : List Byte
  gx : List Byte
  gy : List Byte
  n : List Byte
  h : Word

/-- A program: it makes the six integers, a curve of them, and goes on with statements. -/
def ecProgram (K : Kind) (fuel : Nat) (d : DomBytes) (ts : List EcStmt) : M EcVars := do
  let p ← newObj fun s => s.ofBytes K d.p
  let a ← newObj fun s => s.ofBytes K d.a
  let b ← newObj fun s => s.ofBytes K d.b
  let gx ← newObj fun s => s.ofBytes K d.gx
  let gy ← newObj fun s => s.ofBytes K d.gy
  let n ← newObj fun s => s.ofBytes K d.n
  let c ← CurveR.make K 1 p a b gx gy n d.h
  ecExec K fuel c ts ⟨[], [], []⟩

/-! ## The same programs on values -/

/-- A point. -/
inductive PtV
  | aff (q : APt)
  | proj (q : PPt)
  | jac (q : JPt)
deriving DecidableEq, Repr

/-- The values of the variables. -/
structure EcVals where
  ints : List Big
  pts : List PtV
  bools : List Bool
deriving DecidableEq, Repr

namespace EcVals

def int (v : EcVals) (i : Nat) : Res Big := match v.ints[i]? with
  | some x => .ok x
  | none => .error .ub

def pt (v : EcVals) (i : Nat) : Res PtV := match v.pts[i]? with
  | some q => .ok q
  | none => .error .ub

end EcVals

namespace PtV

def generate (cap : Cap) (C : Curve) : Kd → Big → Res PtV
  | .aff, x => do return .aff (← C.generateA cap x)
  | .proj, x => do return .proj (← C.generateP cap x)
  | .jac, x => do return .jac (← C.generateJ cap x)

def conv (cap : Cap) : Kd → PtV → Res PtV
  | .aff, .aff q => .ok (.aff q)
  | .aff, .proj q => do return .aff (← q.toAffine cap)
  | .aff, .jac q => do return .aff (← q.toAffine cap)
  | .proj, .aff q => do return .proj (← PPt.ofAffine q)
  | .jac, .aff q => do return .jac (← JPt.ofAffine q)
  | _, _ => .error .ub

def doubled (cap : Cap) : PtV → Res PtV
  | .aff q => do return .aff (← q.doubled cap)
  | .proj q => do return .proj (← q.doubled cap)
  | .jac q => do return .jac (← q.doubled cap)

def inverted (cap : Cap) : PtV → Res PtV
  | .aff q => do return .aff (← q.inverted cap)
  | .proj q => do return .proj (← q.inverted cap)
  | .jac q => do return .jac (← q.inverted cap)

def add (cap : Cap) : PtV → PtV → Res PtV
  | .aff q, .aff r => do return .aff (← q.add cap r)
  | .proj q, .proj r => do return .proj (← q.add cap r)
  | .jac q, .jac r => do return .jac (← q.add cap r)
  | _, _ => .error .ub

def sub (cap : Cap) : PtV → PtV → Res PtV
  | .aff q, .aff r => do return .aff (← q.sub cap r)
  | .proj q, .proj r => do return .proj (← q.sub cap r)
  | .jac q, .jac r => do return .jac (← q.sub cap r)
  | _, _ => .error .ub

def mul (cap : Cap) : PtV → Big → Res PtV
  | .aff q, x => do return .aff (← q.mul cap x)
  | .proj q, x => do return .proj (← q.mul cap x)
  | .jac q, x => do return .jac (← q.mul cap x)

def mulAdd (cap : Cap) (x : Big) (q : PtV) (y : Big) (r : PtV) : Res PtV :=
  match q, r with
  | .jac q, .jac r => do return .jac (← mulAddFast cap (JPt.ops cap) x q y r)
  | _, _ => .error .ub

def isIdentity : PtV → Bool
  | .aff q => q.isIdentity
  | .proj q => q.isIdentity
  | .jac q => q.isIdentity

def isOnCurve (cap : Cap) : PtV → Res Bool
  | .aff q => q.isOnCurve cap
  | .proj q => q.isOnCurve cap
  | .jac q => q.isOnCurve cap

def isValid (cap : Cap) : PtV → Res Bool
  | .aff q => q.isValid cap
  | .proj q => q.isValid cap
  | .jac q => q.isValid cap

def eq (cap : Cap) (same : Bool) : PtV → PtV → Res Bool
  | .aff q, .aff r => .ok (q.eq r)
  | .proj q, .proj r => q.eq cap r
  | .jac q, .jac r => if same then .ok true else q.eq cap r
  | _, _ => .error .ub

def verify (cap : Cap) (msg : List Byte) (r s : Big) : PtV → Res Bool
  | .aff q => ecdsaVerify cap q msg r s
  | _ => .error .ub

end PtV

/-- One statement, with the functions of `Model/Ec.lean` and `Model/Ecdsa.lean`. -/
def evStep (cap : Cap) (C : Curve) (v : EcVals) : EcStmt → Res EcVals
  | .int d => do
    let x ← Big.ofBytes cap d
    return { v with ints := v.ints ++ [x] }
  | .neg i => do
    let i ← v.int i
    return { v with ints := v.ints ++ [Big.negate i] }
  | .point x y ver => do
    let x ← v.int x
    let y ← v.int y
    let q ← C.makePoint cap x y ver
    return { v with pts := v.pts ++ [.aff q] }
  | .generate k x => do
    let x ← v.int x
    let q ← PtV.generate cap C k x
    return { v with pts := v.pts ++ [q] }
  | .conv k q => do
    let q ← v.pt q
    let p ← q.conv cap k
    return { v with pts := v.pts ++ [p] }
  | .dbl q => do
    let q ← v.pt q
    let p ← q.doubled cap
    return { v with pts := v.pts ++ [p] }
  | .opp q => do
    let q ← v.pt q
    let p ← q.inverted cap
    return { v with pts := v.pts ++ [p] }
  | .add q r => do
    let q ← v.pt q
    let r ← v.pt r
    let p ← q.add cap r
    return { v with pts := v.pts ++ [p] }
  | .sub q r => do
    let q ← v.pt q
    let r ← v.pt r
    let p ← q.sub cap r
    return { v with pts := v.pts ++ [p] }
  | .mul q x => do
    let q ← v.pt q
    let x ← v.int x
    let p ← q.mul cap x
    return { v with pts := v.pts ++ [p] }
  | .mulAdd x q y r => do
    let x ← v.int x
    let q ← v.pt q
    let y ← v.int y
    let r ← v.pt r
    let p ← PtV.mulAdd cap x q y r
    return { v with pts := v.pts ++ [p] }
  | .isIdentity q => do
    let q ← v.pt q
    return { v with bools := v.bools ++ [q.isIdentity] }
  | .isOnCurve q => do
    let q ← v.pt q
    let b ← q.isOnCurve cap
    return { v with bools := v.bools ++ [b] }
  | .isValid q => do
    let q ← v.pt q
    let b ← q.isValid cap
    return { v with bools := v.bools ++ [b] }
  | .eq q r => do
    let a ← v.pt q
    let b ← v.pt r
    let b ← a.eq cap (q == r) b
    return { v with bools := v.bools ++ [b] }
  | .verify q msg r s => do
    let q ← v.pt q
    let r ← v.int r
    let s ← v.int s
    let b ← q.verify cap msg r s
    return { v with bools := v.bools ++ [b] }

/-- The statements in order. -/
def evExec (cap : Cap) (C : Curve) : List EcStmt → EcVals → Res EcVals
  | [], v => .ok v
  | t :: ts, v => do
    let v ← evStep cap C v t
    evExec cap C ts v

/-- A whole program. -/
def evProgram (cap : Cap) (d : DomBytes) (ts : List EcStmt) : Res EcVals := do
  let p ← Big.ofBytes cap d.p
  let a ← Big.ofBytes cap d.a
  let b ← Big.ofBytes cap d.b
  let gx ← Big.ofBytes cap d.gx
  let gy ← Big.ofBytes cap d.gy
  let n ← Big.ofBytes cap d.n
  let c ← Curve.make cap 1 p a b gx gy n d.h
  evExec cap c ts ⟨[], [], []⟩

end Ack.Mem
