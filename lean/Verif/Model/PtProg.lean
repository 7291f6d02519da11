import Verif.Model.FeProg
/-!
# Programs that assign to points, on memory (include/ack/ec.hpp)

`ec_point_base` defines `+=`, `-=` and `*=` as `underlying() = add( a )`, `sub( a )`, `mul( s )` (ec.hpp:179-182, 229-232, 305-308):
the right side is a temporary point, computed while the point assigned to still has its old value, and the implicit move assignment
moves the coordinates (bigint buffers) and copies the pointers to the curve and to the modulus.  Then the temporaries end.  The point
assigned to may be an operand: `P += P`, `P = P - P`.  `P = Q` is the implicit copy assignment.
-/
namespace Ack.Mem
open Big (Byte)

/-- Move assignment of a temporary to a point: the implicit one of `ec_point_fp` (ec.hpp:369-604, members `curve_`, `x`, `y`),
`ec_point_fp_proj` (615-966) and `ec_point_fp_jacobi` (970-1394) (`curve_`, `x`, `y`, `z`), with that of `fp_element` (fp.hpp:529)
for each coordinate. -/
def PtR.moveFrom (K : Kind) : PtR → PtR → M PtR
  | .aff q, .aff r => do
    change fun s => s.moveAssign K q.x.v r.x.v
    change fun s => s.moveAssign K q.y.v r.y.v
    return .aff ⟨r.curve, ⟨q.x.v, r.x.pm⟩, ⟨q.y.v, r.y.pm⟩⟩
  | .proj q, .proj r => do
    change fun s => s.moveAssign K q.x.v r.x.v
    change fun s => s.moveAssign K q.y.v r.y.v
    change fun s => s.moveAssign K q.z.v r.z.v
    return .proj ⟨r.curve, ⟨q.x.v, r.x.pm⟩, ⟨q.y.v, r.y.pm⟩, ⟨q.z.v, r.z.pm⟩⟩
  | .jac q, .jac r => do
    change fun s => s.moveAssign K q.x.v r.x.v
    change fun s => s.moveAssign K q.y.v r.y.v
    change fun s => s.moveAssign K q.z.v r.z.v
    return .jac ⟨r.curve, ⟨q.x.v, r.x.pm⟩, ⟨q.y.v, r.y.pm⟩, ⟨q.z.v, r.z.pm⟩⟩
  | _, _ => halt .ub

/-- Copy assignment, implicit, with that of `fp_element` (fp.hpp:528) for each coordinate. -/
def PtR.copyFrom (K : Kind) : PtR → PtR → M PtR
  | .aff q, .aff r => do
    let x ← q.x.copySet K r.x
    let y ← q.y.copySet K r.y
    return .aff ⟨r.curve, x, y⟩
  | .proj q, .proj r => do
    let x ← q.x.copySet K r.x
    let y ← q.y.copySet K r.y
    let z ← q.z.copySet K r.z
    return .proj ⟨r.curve, x, y, z⟩
  | .jac q, .jac r => do
    let x ← q.x.copySet K r.x
    let y ← q.y.copySet K r.y
    let z ← q.z.copySet K r.z
    return .jac ⟨r.curve, x, y, z⟩
  | _, _ => halt .ub

/-- Statements. -/
inductive PtStmt
  /-- a declaration -/
  | decl (t : EcStmt)
  /-- `P = ...`, where the right side is that of a declaration of a point -/
  | set (q : Nat) (t : EcStmt)
  /-- `P = Q` -/
  | copy (q r : Nat)
  /-- `P += Q` -/
  | addTo (q r : Nat)
  /-- `P -= Q` -/
  | subFrom (q r : Nat)
  /-- `P *= x` -/
  | mulBy (q x : Nat)

/-- `P = ...;`: the temporary is what the statement would declare; it is moved from, and the temporaries end.  A right side that is
not a point of the class of `P` is no program. -/
def PtR.setTo (K : Kind) (a : PtR) (n : Nat) (m : M EcVars) : M PtR := fun s => do
  let (v, s1) ← m s
  match v.pts[n]? with
  | some r => do
    let (a, s2) ← a.moveFrom K r s1
    .ok (a, s2.drop s.mem.objs.length)
  | none => .error .ub

/-- `P = ...;` for the `q`-th point, where `m` is the right side. -/
def EcVars.setPt (K : Kind) (v : EcVars) (q : Nat) (m : M EcVars) : M EcVars := do
  let a ← v.pt q
  let a ← a.setTo K v.pts.length m
  return { v with pts := v.pts.set q a }

/-- `P = ...;` with the right side of a declaration. -/
def setStep (K : Kind) (fuel : Nat) (c : CurveR) (v : EcVars) (q : Nat) (t : EcStmt) : M EcVars := v.setPt K q (ecStep K fuel c v t)

/-- One statement; `+=`, `-=`, `*=`: ec.hpp:179-182, 229-232, 305-308. -/
def ptStep (K : Kind) (fuel : Nat) (c : CurveR) (v : EcVars) : PtStmt → M EcVars
  | .decl t => ecStep K fuel c v t
  | .set q t => setStep K fuel c v q t
  | .addTo q r => setStep K fuel c v q (.add q r)
  | .subFrom q r => setStep K fuel c v q (.sub q r)
  | .mulBy q x => setStep K fuel c v q (.mul q x)
  | .copy q r => do
    let a ← v.pt q
    let b ← v.pt r
    let a ← a.copyFrom K b
    return { v with pts := v.pts.set q a }

/-- The statements in order. -/
def ptExec (K : Kind) (fuel : Nat) (c : CurveR) : List PtStmt → EcVars → M EcVars
  | [], v => pure v
  | t :: ts, v => do
    let v ← ptStep K fuel c v t
    ptExec K fuel c ts v

/-- Six integers from bytes, and the curve made of them. -/
def startCurve (K : Kind) (d : DomBytes) : M CurveR := do
  let p ← newObj fun s => s.ofBytes K d.p
  let a ← newObj fun s => s.ofBytes K d.a
  let b ← newObj fun s => s.ofBytes K d.b
  let gx ← newObj fun s => s.ofBytes K d.gx
  let gy ← newObj fun s => s.ofBytes K d.gy
  let n ← newObj fun s => s.ofBytes K d.n
  CurveR.make K 1 p a b gx gy n d.h

/-- A program: it makes a curve of six integers, and goes on with statements. -/
def ptProgram (K : Kind) (fuel : Nat) (d : DomBytes) (ts : List PtStmt) : M EcVars := do
  let c ← startCurve K d
  ptExec K fuel c ts ⟨[], [], []⟩

/-! ## The same programs on values -/

/-- Assignment replaces the value; the classes are the same. -/
def PtV.become : PtV → PtV → Res PtV
  | .aff _, .aff r => .ok (.aff r)
  | .proj _, .proj r => .ok (.proj r)
  | .jac _, .jac r => .ok (.jac r)
  | _, _ => .error .ub

/-- `P = ...;` -/
def EcVals.setPt (v : EcVals) (q : Nat) (w : Res EcVals) : Res EcVals := do
  let a ← v.pt q
  let w ← w
  match w.pts[v.pts.length]? with
  | some r => do
    let a ← a.become r
    return { v with pts := v.pts.set q a }
  | none => .error .ub

/-- `P = ...;` with the right side of a declaration. -/
def setStepV (cap : Cap) (C : Curve) (v : EcVals) (q : Nat) (t : EcStmt) : Res EcVals := v.setPt q (evStep cap C v t)

/-- One statement, with the functions of `Model/EcProg.lean`. -/
def pvStep (cap : Cap) (C : Curve) (v : EcVals) : PtStmt → Res EcVals
  | .decl t => evStep cap C v t
  | .set q t => setStepV cap C v q t
  | .addTo q r => setStepV cap C v q (.add q r)
  | .subFrom q r => setStepV cap C v q (.sub q r)
  | .mulBy q x => setStepV cap C v q (.mul q x)
  | .copy q r => do
    let a ← v.pt q
    let b ← v.pt r
    let a ← a.become b
    return { v with pts := v.pts.set q a }

/-- The statements in order. -/
def pvExec (cap : Cap) (C : Curve) : List PtStmt → EcVals → Res EcVals
  | [], v => .ok v
  | t :: ts, v => do
    let v ← pvStep cap C v t
    pvExec cap C ts v

/-- Six integers from bytes, and the curve made of them. -/
def startCurveV (cap : Cap) (d : DomBytes) : Res Curve := do
  let p ← Big.ofBytes cap d.p
  let a ← Big.ofBytes cap d.a
  let b ← Big.ofBytes cap d.b
  let gx ← Big.ofBytes cap d.gx
  let gy ← Big.ofBytes cap d.gy
  let n ← Big.ofBytes cap d.n
  Curve.make cap 1 p a b gx gy n d.h

/-- A whole program. -/
def pvProgram (cap : Cap) (d : DomBytes) (ts : List PtStmt) : Res EcVals := do
  let c ← startCurveV cap d
  pvExec cap c ts ⟨[], [], []⟩

end Ack.Mem
