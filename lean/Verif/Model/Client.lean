import Verif.Model.PtProg
/-!
# Statements of programs that declare, assign, encode, decode and recover, on memory

The declarations of `Model/KeyMem.lean` together with the assignments of `Model/PtProg.lean`; moreover the right side of an assignment
may be any declaration of a point: `P = c.decode_point( b )`, `P = ecdsa_recover( ... )`.
-/
namespace Ack.Mem
open Big (Byte)

/-- Statements. -/
inductive CStmt
  /-- a declaration -/
  | decl (t : KStmt)
  /-- `P = ...`, where the right side is that of a declaration of a point -/
  | set (q : Nat) (t : KStmt)
  /-- `P = Q` -/
  | copy (q r : Nat)
  /-- `P += Q` -/
  | addTo (q r : Nat)
  /-- `P -= Q` -/
  | subFrom (q r : Nat)
  /-- `P *= x` -/
  | mulBy (q x : Nat)

/-- `P = ...;` for a point: the implicit move assignment of the temporary (see `PtR.moveFrom`); the temporaries of the statement end. -/
def KVars.setPt (K : Kind) (fuel : Nat) (c : CurveR) (v : KVars) (q : Nat) (t : KStmt) : M KVars := do
  let e ← v.ec.setPt K q (do
    let w ← kStep K fuel c v t
    return w.ec)
  return { v with ec := e }

/-- One statement; `+=`, `-=`, `*=`: ec.hpp:179-182, 229-232, 305-308; `=` of points: see `PtR.copyFrom`. -/
def cStep (K : Kind) (fuel : Nat) (c : CurveR) (v : KVars) : CStmt → M KVars
  | .decl t => kStep K fuel c v t
  | .set q t => v.setPt K fuel c q t
  | .addTo q r => v.setPt K fuel c q (.ec (.add q r))
  | .subFrom q r => v.setPt K fuel c q (.ec (.sub q r))
  | .mulBy q x => v.setPt K fuel c q (.ec (.mul q x))
  | .copy q r => do
    let e ← ptStep K fuel c v.ec (.copy q r)
    return { v with ec := e }

/-! ## The same statements on values -/

/-- `P = ...;` -/
def KVals.setPt (cap : Cap) (C : Curve) (v : KVals) (q : Nat) (t : KStmt) : Res KVals := do
  let e ← v.ec.setPt q (do
    let w ← kvStep cap C v t
    return w.ec)
  return { v with ec := e }

/-- One statement. -/
def cvStep (cap : Cap) (C : Curve) (v : KVals) : CStmt → Res KVals
  | .decl t => kvStep cap C v t
  | .set q t => v.setPt cap C q t
  | .addTo q r => v.setPt cap C q (.ec (.add q r))
  | .subFrom q r => v.setPt cap C q (.ec (.sub q r))
  | .mulBy q x => v.setPt cap C q (.ec (.mul q x))
  | .copy q r => do
    let e ← pvStep cap C v.ec (.copy q r)
    return { v with ec := e }

end Ack.Mem
