import Verif.Model.Life
import Verif.Spec.Ec
/-!
# Which programs on curve objects and points are allowed

The abstract state knows of every curve object whether it lives and to which object its generator points (itself, or for a
copy the object its original points to), and of every point the group element and the objects it refers to.
-/
namespace Ack.Life
open Big

/-- The value of a field element, its pointer replaced by a modulus. -/
def erF (p : Big) (f : LFe) : Fe := ⟨f.v, f.pm.map fun _ => p⟩

/-- The value of a point, its pointers replaced by a curve. -/
def er (C : Curve) (q : LPt) : APt := ⟨q.curve.map fun _ => C, erF C.p q.x, erF C.p q.y⟩

/-- The curve objects a field element refers to. -/
def LFe.refs (f : LFe) : List Ptr := f.pm.toList

/-- The curve objects a point refers to. -/
def LPt.refs (q : LPt) : List Ptr := q.curve.toList ++ q.x.refs ++ q.y.refs

/-- A curve object: does it live, and to which object does its generator point. -/
structure Obj where
  alive : Bool
  root : Nat
deriving DecidableEq

/-- The abstract state; `G` is the group of points. -/
structure Env (G : Type) where
  objs : List Obj
  pts : List (G × List Nat)

/-- All these objects live. -/
def Env.usable {G : Type} (e : Env G) (R : List Nat) : Prop := ∀ a ∈ R, ∃ r, e.objs[a]? = some ⟨true, r⟩

section
variable {P : ℕ} [Fact P.Prime]

/-- The domain of a program: the parameters make an admissible curve with the generator `G`. -/
structure DomainOk (cap : Cap) (D : Params) (C : Curve) (G : C.Pt P) : Prop where
  make : Curve.make cap 0 D.p D.a D.b D.gx D.gy D.n D.h = .ok C
  K : CurveOk P cap C
  n : C.n.Canon
  g : C.g.Rep C G

/-- A statement, its use of the objects allowed: a curve object is used while it lives, its generator while also the object
it points to lives, a point while all objects live to which it refers. -/
inductive Step (C : Curve) (G : C.Pt P) : Env (C.Pt P) → Stmt → Env (C.Pt P) → Prop
  | newCurve {e} : Step C G e .newCurve ⟨e.objs ++ [⟨true, e.objs.length⟩], e.pts⟩
  | copyCurve {e c r} (h : e.objs[c]? = some ⟨true, r⟩) : Step C G e (.copyCurve c) ⟨e.objs ++ [⟨true, r⟩], e.pts⟩
  | endCurve {e c r} (h : e.objs[c]? = some ⟨true, r⟩) : Step C G e (.endCurve c) ⟨e.objs.set c ⟨false, r⟩, e.pts⟩
  | makePoint {e c} {x y : Big} (v : Bool) {X Y : ZMod P} (hn : (C.W P).Nonsingular X Y) (h : e.usable [c]) (cx : x.Canon) (cy : y.Canon)
      (hx : x.toInt = X.val) (hy : y.toInt = Y.val) (hv : v = true → C.n.toInt • (.some X Y hn : C.Pt P) = 0) :
      Step C G e (.makePoint c x y v) ⟨e.objs, e.pts ++ [(.some X Y hn, [c])]⟩
  | base {e c r} (h : e.objs[c]? = some ⟨true, r⟩) (hr : e.usable [r]) : Step C G e (.base c) ⟨e.objs, e.pts ++ [(G, [r])]⟩
  | generate {e c r} {k : Big} (h : e.objs[c]? = some ⟨true, r⟩) (hr : e.usable [r]) (ck : k.Canon) (h0 : 0 < k.toInt) (h1 : k.toInt < C.n.toInt) :
      Step C G e (.generate c k) ⟨e.objs, e.pts ++ [(k.toInt • G, [r])]⟩
  | add {e i j A B R S} (hi : e.pts[i]? = some (A, R)) (hj : e.pts[j]? = some (B, S)) (hR : e.usable R) (hS : e.usable S) :
      Step C G e (.add i j) ⟨e.objs, e.pts ++ [(A + B, R ++ S)]⟩
  | sub {e i j A B R S} (hi : e.pts[i]? = some (A, R)) (hj : e.pts[j]? = some (B, S)) (hR : e.usable R) (hS : e.usable S) :
      Step C G e (.sub i j) ⟨e.objs, e.pts ++ [(A - B, R ++ S)]⟩
  | neg {e i A R} (hi : e.pts[i]? = some (A, R)) (hR : e.usable R) : Step C G e (.neg i) ⟨e.objs, e.pts ++ [(-A, R)]⟩
  | dbl {e i A R} (hi : e.pts[i]? = some (A, R)) (hR : e.usable R) : Step C G e (.dbl i) ⟨e.objs, e.pts ++ [(A + A, R)]⟩
  | mul {e i A R} {k : Big} (hi : e.pts[i]? = some (A, R)) (hR : e.usable R) (ck : k.Canon) :
      Step C G e (.mul i k) ⟨e.objs, e.pts ++ [(k.toInt • A, R)]⟩

/-- A program of allowed statements. -/
inductive Steps (C : Curve) (G : C.Pt P) : Env (C.Pt P) → List Stmt → Env (C.Pt P) → Prop
  | nil {e} : Steps C G e [] e
  | cons {e c e' t e''} (h : Step C G e c e') (ht : Steps C G e' t e'') : Steps C G e (c :: t) e''

end
end Ack.Life
