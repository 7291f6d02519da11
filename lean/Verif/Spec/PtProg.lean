import Verif.Model.PtProg
import Verif.Spec.EcProg
/-!
# What a program that assigns to points computes

The variables of `Spec/EcProg.lean`; an assignment replaces the element of the group that its variable stands for by the value that the
right side has before the assignment.
-/
namespace Ack.Spec.Ec
open Ack.Mem Ack.Spec.Prog

section
variable {P : ℕ} [Fact P.Prime] {W : WeierstrassCurve.Affine (ZMod P)}

/-- A statement within the domain of the functions it calls. -/
inductive PtDoes (cap : Cap) (N : ℕ) (G : W.Point) (e : EcEnv W) : PtStmt → EcEnv W → Prop
  | decl {t : EcStmt} {e1 : EcEnv W} : EcDoes cap N G e t e1 → PtDoes cap N G e (.decl t) e1
  | set {q : ℕ} {k : Kd} {Q R : W.Point} {t : EcStmt} : e.pts[q]? = some (k, Q) → EcDoes cap N G e t { e with pts := e.pts ++ [(k, R)] } →
      PtDoes cap N G e (.set q t) { e with pts := e.pts.set q (k, R) }
  | copy {q r : ℕ} {k : Kd} {Q R : W.Point} : e.pts[q]? = some (k, Q) → e.pts[r]? = some (k, R) →
      PtDoes cap N G e (.copy q r) { e with pts := e.pts.set q (k, R) }
  | addTo {q r : ℕ} {k : Kd} {Q R : W.Point} : e.pts[q]? = some (k, Q) → e.pts[r]? = some (k, R) →
      PtDoes cap N G e (.addTo q r) { e with pts := e.pts.set q (k, Q + R) }
  | subFrom {q r : ℕ} {k : Kd} {Q R : W.Point} : e.pts[q]? = some (k, Q) → e.pts[r]? = some (k, R) →
      PtDoes cap N G e (.subFrom q r) { e with pts := e.pts.set q (k, Q - R) }
  | mulBy {q i : ℕ} {k : Kd} {Q : W.Point} {x : ℤ} : e.pts[q]? = some (k, Q) → e.ints[i]? = some x →
      (k = .jac → Cap.fits cap (words x + 1) = true) → PtDoes cap N G e (.mulBy q i) { e with pts := e.pts.set q (k, x • Q) }

/-- A statement that ends the program: a declaration or a right side that does. -/
inductive PtStops (cap : Cap) (N : ℕ) (e : EcEnv W) : PtStmt → Prop
  | decl {t : EcStmt} : EcStops cap N e t → PtStops cap N e (.decl t)
  | set {q : ℕ} {k : Kd} {Q : W.Point} {t : EcStmt} : e.pts[q]? = some (k, Q) → EcStops cap N e t → PtStops cap N e (.set q t)

/-- A program within the domain of the functions it calls. -/
inductive PtRuns (cap : Cap) (N : ℕ) (G : W.Point) : EcEnv W → List PtStmt → EcEnv W → Prop
  | nil (e : EcEnv W) : PtRuns cap N G e [] e
  | cons {e e1 e2 : EcEnv W} {t : PtStmt} {ts : List PtStmt} : PtDoes cap N G e t e1 → PtRuns cap N G e1 ts e2 →
      PtRuns cap N G e (t :: ts) e2

end

/-- A program that in the end reads all its points, all its integers and all its answers. -/
def ptReport (K : Kind) (fuel : Nat) (d : DomBytes) (ts : List PtStmt) : M (List Int × List (Option (Int × Int)) × List Bool) := do
  let v ← ptProgram K fuel d ts
  let q ← readPts K fuel v.pts
  let x ← readInts v.ints
  pure (x, q, v.bools)

/-- What it sees. -/
def ptSees (K : Kind) (fuel : Nat) (d : DomBytes) (ts : List PtStmt) : Res (List Int × List (Option (Int × Int)) × List Bool) :=
  (ptReport K fuel d ts BigSt.init).map (·.1)

/-- The integers that hold the coordinates of a point. -/
def _root_.Ack.Mem.PtR.cells : PtR → List Nat
  | .aff q => [q.x.v, q.y.v]
  | .proj q => [q.x.v, q.y.v, q.z.v]
  | .jac q => [q.x.v, q.y.v, q.z.v]

/-- The coordinates of a point. -/
def _root_.Ack.Mem.PtV.cells : PtV → List Big
  | .aff q => [q.x.v, q.y.v]
  | .proj q => [q.x.v, q.y.v, q.z.v]
  | .jac q => [q.x.v, q.y.v, q.z.v]

/-! ## Well-formed programs -/

/-- A statement that names declared variables of the right classes: the values of the integers and the classes of the points. -/
inductive PtForm (xs : List ℤ) (ks : List Kd) : PtStmt → List ℤ → List Kd → Prop
  | decl {t : EcStmt} {ys : List ℤ} {ls : List Kd} : EcForm xs ks t ys ls → PtForm xs ks (.decl t) ys ls
  | set {q : ℕ} {k : Kd} {t : EcStmt} : ks[q]? = some k → EcForm xs ks t xs (ks ++ [k]) → PtForm xs ks (.set q t) xs ks
  | copy {q r : ℕ} {k : Kd} : ks[q]? = some k → ks[r]? = some k → PtForm xs ks (.copy q r) xs ks
  | addTo {q r : ℕ} {k : Kd} : ks[q]? = some k → ks[r]? = some k → PtForm xs ks (.addTo q r) xs ks
  | subFrom {q r : ℕ} {k : Kd} : ks[q]? = some k → ks[r]? = some k → PtForm xs ks (.subFrom q r) xs ks
  | mulBy {q i : ℕ} {k : Kd} {x : ℤ} : ks[q]? = some k → xs[i]? = some x → PtForm xs ks (.mulBy q i) xs ks

/-- A statement whose arguments the checks of the library let pass. -/
def PtPasses (cap : Cap) (P N : ℕ) (xs : List ℤ) : PtStmt → Prop
  | .decl t => EcPasses cap P N xs t
  | .set _ t => EcPasses cap P N xs t
  | _ => True

/-- A well-formed program, all of whose statements satisfy `A`. -/
inductive PtForms (A : List ℤ → PtStmt → Prop) : List ℤ → List Kd → List PtStmt → List ℤ → List Kd → Prop
  | nil (xs : List ℤ) (ks : List Kd) : PtForms A xs ks [] xs ks
  | cons {xs ys zs : List ℤ} {ks ls ms : List Kd} {t : PtStmt} {ts : List PtStmt} : PtForm xs ks t ys ls → A xs t →
      PtForms A ys ls ts zs ms → PtForms A xs ks (t :: ts) zs ms

end Ack.Spec.Ec
