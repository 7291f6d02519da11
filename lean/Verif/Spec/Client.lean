import Verif.Model.Client
import Verif.Spec.KeyForm
/-!
# Programs that decide by what they see

A client is any function from what it has seen so far to its next statement: with loops, branches, recursion and memory of its own.
Before every statement it sees all its variables: the integers, the points, the answers and the byte strings.
-/
namespace Ack.Spec.Client
open Ack.Mem Ack.Spec.Ec Ack.Spec.Key Ack.Spec.Prog
open Big (Byte)

/-- A client: everything it has seen, the latest first, gives its next statement, or its end. -/
abbrev Client := List KSight → Option CStmt

/-! ## On memory -/

/-- All variables are read. -/
def look (K : Kind) (fuel : Nat) (v : KVars) : M KSight := do
  let q ← readPts K fuel v.ec.pts
  let x ← readInts v.ec.ints
  pure ⟨x, q, v.ec.bools, v.bytes⟩

/-- At most `n` statements of a client; everything it has seen in the end. -/
def play (K : Kind) (fuel : Nat) (c : CurveR) (F : Client) : Nat → List KSight → KVars → M (List KSight)
  | 0, h, v => do
    let o ← look K fuel v
    pure (o :: h)
  | n + 1, h, v => do
    let o ← look K fuel v
    match F (o :: h) with
    | none => pure (o :: h)
    | some t => do
      let v ← cStep K fuel c v t
      play K fuel c F n (o :: h) v

/-- A client makes a curve of six integers and goes on. -/
def clientSees (K : Kind) (fuel : Nat) (d : DomBytes) (F : Client) (n : Nat) : Res (List KSight) :=
  ((do
    let c ← startCurve K d
    play K fuel c F n [] ⟨⟨[], [], []⟩, []⟩ : M _) BigSt.init).map (·.1)

/-! ## In the group -/

section
variable {P : ℕ} [Fact P.Prime] {W : WeierstrassCurve.Affine (ZMod P)}

/-- What there is to see. -/
def sight (e : KEnv W) : KSight := ⟨e.ec.ints, e.ec.pts.map fun Q => coords Q.2, e.ec.bools, e.bytes⟩

/-- The variables after an assignment to a point. -/
def become (e : KEnv W) (q : ℕ) (Q : Kd × W.Point) : KEnv W := { e with ec := { e.ec with pts := e.ec.pts.set q Q } }

/-- A statement within the domain of the functions it calls: what it does. -/
inductive CDoes (cap : Cap) (N : ℕ) (G : W.Point) (e : KEnv W) : CStmt → KEnv W → Prop
  | decl {t : KStmt} {e1 : KEnv W} : KDoes cap N G e t e1 → CDoes cap N G e (.decl t) e1
  | set {q : ℕ} {k : Kd} {Q R : W.Point} {t : KStmt} : e.ec.pts[q]? = some (k, Q) →
      KDoes cap N G e t { e with ec := { e.ec with pts := e.ec.pts ++ [(k, R)] } } → CDoes cap N G e (.set q t) (become e q (k, R))
  | copy {q r : ℕ} {k : Kd} {Q R : W.Point} : e.ec.pts[q]? = some (k, Q) → e.ec.pts[r]? = some (k, R) →
      CDoes cap N G e (.copy q r) (become e q (k, R))
  | addTo {q r : ℕ} {k : Kd} {Q R : W.Point} : e.ec.pts[q]? = some (k, Q) → e.ec.pts[r]? = some (k, R) →
      CDoes cap N G e (.addTo q r) (become e q (k, Q + R))
  | subFrom {q r : ℕ} {k : Kd} {Q R : W.Point} : e.ec.pts[q]? = some (k, Q) → e.ec.pts[r]? = some (k, R) →
      CDoes cap N G e (.subFrom q r) (become e q (k, Q - R))
  | mulBy {q i : ℕ} {k : Kd} {Q : W.Point} {x : ℤ} : e.ec.pts[q]? = some (k, Q) → e.ec.ints[i]? = some x →
      (k = .jac → Cap.fits cap (words x + 1) = true) → CDoes cap N G e (.mulBy q i) (become e q (k, x • Q))

/-- A statement that ends the program. -/
inductive CStops (cap : Cap) (N : ℕ) (e : KEnv W) : CStmt → Prop
  | decl {t : KStmt} : KStops cap N e t → CStops cap N e (.decl t)
  | set {q : ℕ} {k : Kd} {Q : W.Point} {t : KStmt} : e.ec.pts[q]? = some (k, Q) → KStops cap N e t → CStops cap N e (.set q t)

/-- At most `n` statements, each within its domain; everything that is seen in the end. -/
inductive Plays (cap : Cap) (N : ℕ) (G : W.Point) (F : Client) : ℕ → List KSight → KEnv W → List KSight → Prop
  | out (h : List KSight) (e : KEnv W) : Plays cap N G F 0 h e (sight e :: h)
  | done (n : ℕ) {h : List KSight} {e : KEnv W} : F (sight e :: h) = none → Plays cap N G F (n + 1) h e (sight e :: h)
  | step {n : ℕ} {h h' : List KSight} {e e1 : KEnv W} {t : CStmt} : F (sight e :: h) = some t → CDoes cap N G e t e1 →
      Plays cap N G F n (sight e :: h) e1 h' → Plays cap N G F (n + 1) h e h'

/-- After fewer than `n` statements, each within its domain, the client makes one that ends the program. -/
inductive Halts (cap : Cap) (N : ℕ) (G : W.Point) (F : Client) : ℕ → List KSight → KEnv W → Prop
  | stop (n : ℕ) {h : List KSight} {e : KEnv W} {t : CStmt} : F (sight e :: h) = some t → CStops cap N e t → Halts cap N G F (n + 1) h e
  | step {n : ℕ} {h : List KSight} {e e1 : KEnv W} {t : CStmt} : F (sight e :: h) = some t → CDoes cap N G e t e1 →
      Halts cap N G F n (sight e :: h) e1 → Halts cap N G F (n + 1) h e

end

/-! ## Clients with declared variables -/

/-- A statement that names declared variables of the right classes: the integers, the classes of the points and the number of byte
strings, before and after.  Nothing is said about the points, which need not be on the curve. -/
inductive CForm (P N : ℕ) (xs : List ℤ) (ks : List Kd) (n : ℕ) : CStmt → List ℤ → List Kd → ℕ → Prop
  | decl {t : KStmt} {ys : List ℤ} {ls : List Kd} {m : ℕ} : KForm P N xs ks n t ys ls m → CForm P N xs ks n (.decl t) ys ls m
  | set {q : ℕ} {k : Kd} {t : KStmt} : ks[q]? = some k → KForm P N xs ks n t xs (ks ++ [k]) n → CForm P N xs ks n (.set q t) xs ks n
  | copy {q r : ℕ} {k : Kd} : ks[q]? = some k → ks[r]? = some k → CForm P N xs ks n (.copy q r) xs ks n
  | addTo {q r : ℕ} {k : Kd} : ks[q]? = some k → ks[r]? = some k → CForm P N xs ks n (.addTo q r) xs ks n
  | subFrom {q r : ℕ} {k : Kd} : ks[q]? = some k → ks[r]? = some k → CForm P N xs ks n (.subFrom q r) xs ks n
  | mulBy {q i : ℕ} {k : Kd} {x : ℤ} : ks[q]? = some k → xs[i]? = some x → CForm P N xs ks n (.mulBy q i) xs ks n

/-- A sight of variables: the integers have these values, there is one point for every class, with residues as coordinates, and there
are `n` byte strings. -/
structure Shows (P : ℕ) (xs : List ℤ) (ks : List Kd) (n : ℕ) (o : KSight) : Prop where
  ints : o.ints = xs
  pts : o.pts.length = ks.length
  bytes : o.bytes.length = n
  res : ∀ c ∈ o.pts, Residues P c

/-- A client that only names declared variables of the right classes, whatever it sees: there is an account `I` of the variables that
are declared at every point of its history. -/
def Declares (P N : ℕ) (F : Client) : Prop :=
  ∃ I : List KSight → List ℤ → List Kd → ℕ → Prop, I [] [] [] 0 ∧
    ∀ h xs ks n o, I h xs ks n → Shows P xs ks n o → ∀ t, F (o :: h) = some t → ∃ ys ls m, CForm P N xs ks n t ys ls m ∧ I (o :: h) ys ls m

end Ack.Spec.Client
