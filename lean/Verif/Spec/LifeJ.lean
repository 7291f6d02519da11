import Verif.Spec.Life
import Verif.Model.LifeJ
/-!
# Which programs on curve objects, affine, Jacobian and homogeneous points are allowed

Continues `Spec/Life.lean`.
-/
namespace Ack.Life
open Big

/-- The value of a Jacobian point, its pointers replaced by a curve. -/
def erJ (C : Curve) (q : LJPt) : JPt := ⟨q.curve.map fun _ => C, erF C.p q.x, erF C.p q.y, erF C.p q.z⟩

/-- The curve objects a Jacobian point refers to. -/
def LJPt.refs (q : LJPt) : List Ptr := q.curve.toList ++ q.x.refs ++ q.y.refs ++ q.z.refs

/-- The value of a homogeneous point, its pointers replaced by a curve. -/
def erH (C : Curve) (q : LHPt) : PPt := ⟨q.curve.map fun _ => C, erF C.p q.x, erF C.p q.y, erF C.p q.z⟩

/-- The curve objects a homogeneous point refers to. -/
def LHPt.refs (q : LHPt) : List Ptr := q.curve.toList ++ q.x.refs ++ q.y.refs ++ q.z.refs

/-- The abstract state, with Jacobian and homogeneous points. -/
structure EnvJ (G : Type) where
  e : Env G
  js : List (G × List Nat)
  hs : List (G × List Nat)

section
variable {P : ℕ} [Fact P.Prime]

/-- A statement on points of one kind, `l` those made so far, its use of the objects allowed as in `Step`; `ok`: the scalars allowed.  The
result are the affine points and the points of this kind. -/
inductive PStep (ok : Big → Prop) (C : Curve) (G : C.Pt P) (e : Env (C.Pt P)) (l : List (C.Pt P × List Nat)) :
    PStmt → List (C.Pt P × List Nat) → List (C.Pt P × List Nat) → Prop
  | ofAffine {i A R} (hi : e.pts[i]? = some (A, R)) (hR : e.usable R) : PStep ok C G e l (.ofAffine i) e.pts (l ++ [(A, R)])
  | toAffine {i A R} (hi : l[i]? = some (A, R)) (hR : e.usable R) : PStep ok C G e l (.toAffine i) (e.pts ++ [(A, R)]) l
  | generate {c r} {k : Big} (h : e.objs[c]? = some ⟨true, r⟩) (hr : e.usable [r]) (ck : k.Canon) (h0 : 0 < k.toInt)
      (h1 : k.toInt < C.n.toInt) (fk : ok k) : PStep ok C G e l (.generate c k) e.pts (l ++ [(k.toInt • G, [r])])
  | add {i j A B R S} (hi : l[i]? = some (A, R)) (hj : l[j]? = some (B, S)) (hR : e.usable R) (hS : e.usable S) :
      PStep ok C G e l (.add i j) e.pts (l ++ [(A + B, R ++ S)])
  | sub {i j A B R S} (hi : l[i]? = some (A, R)) (hj : l[j]? = some (B, S)) (hR : e.usable R) (hS : e.usable S) :
      PStep ok C G e l (.sub i j) e.pts (l ++ [(A - B, R ++ S)])
  | neg {i A R} (hi : l[i]? = some (A, R)) (hR : e.usable R) : PStep ok C G e l (.neg i) e.pts (l ++ [(-A, R)])
  | dbl {i A R} (hi : l[i]? = some (A, R)) (hR : e.usable R) : PStep ok C G e l (.dbl i) e.pts (l ++ [(A + A, R)])
  | mul {i A R} {k : Big} (hi : l[i]? = some (A, R)) (hR : e.usable R) (ck : k.Canon) (fk : ok k) :
      PStep ok C G e l (.mul i k) e.pts (l ++ [(k.toInt • A, R)])

/-- A statement, its use of the objects allowed; the scalars of Jacobian multiplication leave a word of the storage free (C85). -/
inductive StepJ (cap : Cap) (C : Curve) (G : C.Pt P) : EnvJ (C.Pt P) → StmtJ → EnvJ (C.Pt P) → Prop
  | aff {e e' c js hs} (h : Step C G e c e') : StepJ cap C G ⟨e, js, hs⟩ (.aff c) ⟨e', js, hs⟩
  | jac {e c js hs pts' js'} (h : PStep (fun k => cap.fits (k.ws.length + 1) = true) C G e js c pts' js') :
      StepJ cap C G ⟨e, js, hs⟩ (.jac c) ⟨⟨e.objs, pts'⟩, js', hs⟩
  | hom {e c js hs pts' hs'} (h : PStep (fun _ => True) C G e hs c pts' hs') : StepJ cap C G ⟨e, js, hs⟩ (.hom c) ⟨⟨e.objs, pts'⟩, js, hs'⟩

/-- A program of allowed statements. -/
inductive StepsJ (cap : Cap) (C : Curve) (G : C.Pt P) : EnvJ (C.Pt P) → List StmtJ → EnvJ (C.Pt P) → Prop
  | nil {e} : StepsJ cap C G e [] e
  | cons {e c e' t e''} (h : StepJ cap C G e c e') (ht : StepsJ cap C G e' t e'') : StepsJ cap C G e (c :: t) e''

end
end Ack.Life
