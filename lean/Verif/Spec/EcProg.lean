import Verif.Model.EcProg
import Verif.Proof.Buffer
import Verif.Spec.Prog
import Verif.Spec.Ecdsa
/-!
# What a program on curves computes

Independent of objects, coordinates and representatives: the integers are integers, the points are elements of the group of the
curve y² = x³ + a x + b over `ZMod P`.
-/
namespace Ack.Spec.Ec
open Ack.Mem Ack.Spec.Prog
open Big (Byte)

/-- A byte string fits the storage of an integer. -/
def FitsBytes (cap : Cap) (d : List Byte) : Prop := ∀ M, cap = some M → d.length ≤ 4 * M

/-- The bytes in `d` are parameters within the range of the functions: a modulus `P > 8`, which need not be prime, coefficients below
it, and an order `N > 1`; and integers of storage kind `K` have room for products of residues (on growable storage: residues stay
within the inline words).  Nothing is said about the generator. -/
structure EcSetting (K : Kind) (d : DomBytes) (P N : ℕ) : Prop where
  p : beVal d.p = P
  big : 8 < P
  alt : beVal d.a < P
  blt : beVal d.b < P
  n : beVal d.n = N
  n1 : 1 < N
  fits : ∀ s ∈ [d.p, d.a, d.b, d.gx, d.gy, d.n], FitsBytes K.lim s
  roomP : Cap.fits K.lim (2 * words P) = true
  roomN : Cap.fits K.lim (2 * words N) = true
  inline : K.dyn = true → words P ≤ K.N ∧ words N ≤ K.N

section
variable {P : ℕ} [Fact P.Prime]

/-- The bytes in `d` are domain parameters: moreover the field has the prime order `P`, the curve is not singular and has `b ≠ 0`,
the generator has the prime order `N`. -/
structure EcDomain (K : Kind) (d : DomBytes) (N : ℕ) (A B : ZMod P) (G : (shortW A B).Point) : Prop extends EcSetting K d P N where
  a : ((beVal d.a : ℕ) : ZMod P) = A
  b : ((beVal d.b : ℕ) : ZMod P) = B
  b0 : B ≠ 0
  disc : 4 * A ^ 3 + 27 * B ^ 2 ≠ 0
  g : ∃ x y h, G = .some x y h ∧ beVal d.gx = x.val ∧ beVal d.gy = y.val
  np : N.Prime
  ord : (N : ℤ) • G = 0

/-- Integers, points (with their class) and answers. -/
structure EcEnv (W : WeierstrassCurve.Affine (ZMod P)) where
  ints : List ℤ
  pts : List (Kd × W.Point)
  bools : List Bool

variable {W : WeierstrassCurve.Affine (ZMod P)}

/-- A statement within the domain of the function it calls: what it computes. -/
inductive EcDoes (cap : Cap) (N : ℕ) (G : W.Point) (e : EcEnv W) : EcStmt → EcEnv W → Prop
  | int (d : List Byte) : FitsBytes cap d → EcDoes cap N G e (.int d) { e with ints := e.ints ++ [(beVal d : ℤ)] }
  | neg {i : ℕ} {x : ℤ} : e.ints[i]? = some x → EcDoes cap N G e (.neg i) { e with ints := e.ints ++ [-x] }
  | point {i j : ℕ} {x y : ZMod P} (h : W.Nonsingular x y) (ver : Bool) : e.ints[i]? = some (x.val : ℤ) → e.ints[j]? = some (y.val : ℤ) →
      (ver = true → (N : ℤ) • (.some x y h : W.Point) = 0) →
      EcDoes cap N G e (.point i j ver) { e with pts := e.pts ++ [(.aff, .some x y h)] }
  | generate (k : Kd) {i : ℕ} {x : ℤ} : e.ints[i]? = some x → 0 < x → x < N →
      (k = .jac → Cap.fits cap (words N + 1) = true) →
      EcDoes cap N G e (.generate k i) { e with pts := e.pts ++ [(k, x • G)] }
  | conv (k : Kd) {q : ℕ} {k' : Kd} {Q : W.Point} : e.pts[q]? = some (k', Q) → k = .aff ∨ k' = .aff →
      EcDoes cap N G e (.conv k q) { e with pts := e.pts ++ [(k, Q)] }
  | dbl {q : ℕ} {k : Kd} {Q : W.Point} : e.pts[q]? = some (k, Q) →
      EcDoes cap N G e (.dbl q) { e with pts := e.pts ++ [(k, Q + Q)] }
  | opp {q : ℕ} {k : Kd} {Q : W.Point} : e.pts[q]? = some (k, Q) →
      EcDoes cap N G e (.opp q) { e with pts := e.pts ++ [(k, -Q)] }
  | add {q r : ℕ} {k : Kd} {Q R : W.Point} : e.pts[q]? = some (k, Q) → e.pts[r]? = some (k, R) →
      EcDoes cap N G e (.add q r) { e with pts := e.pts ++ [(k, Q + R)] }
  | sub {q r : ℕ} {k : Kd} {Q R : W.Point} : e.pts[q]? = some (k, Q) → e.pts[r]? = some (k, R) →
      EcDoes cap N G e (.sub q r) { e with pts := e.pts ++ [(k, Q - R)] }
  | mul {q i : ℕ} {k : Kd} {Q : W.Point} {x : ℤ} : e.pts[q]? = some (k, Q) → e.ints[i]? = some x →
      (k = .jac → Cap.fits cap (words x + 1) = true) →
      EcDoes cap N G e (.mul q i) { e with pts := e.pts ++ [(k, x • Q)] }
  | mulAdd {q r i j : ℕ} {Q R : W.Point} {x y : ℤ} : e.pts[q]? = some (.jac, Q) → e.pts[r]? = some (.jac, R) →
      e.ints[i]? = some x → e.ints[j]? = some y → Cap.fits cap (words x + 1) = true → Cap.fits cap (words y + 1) = true →
      EcDoes cap N G e (.mulAdd i q j r) { e with pts := e.pts ++ [(.jac, max x 0 • Q + max y 0 • R)] }
  | isIdentity {q : ℕ} {k : Kd} {Q : W.Point} {b : Bool} : e.pts[q]? = some (k, Q) → (b = true ↔ Q = 0) →
      EcDoes cap N G e (.isIdentity q) { e with bools := e.bools ++ [b] }
  | isOnCurve {q : ℕ} {k : Kd} {Q : W.Point} : e.pts[q]? = some (k, Q) →
      EcDoes cap N G e (.isOnCurve q) { e with bools := e.bools ++ [true] }
  | isValid {q : ℕ} {k : Kd} {Q : W.Point} {b : Bool} : e.pts[q]? = some (k, Q) → (b = true ↔ Q ≠ 0 ∧ (N : ℤ) • Q = 0) →
      (k = .jac → Cap.fits cap (words N + 1) = true) →
      EcDoes cap N G e (.isValid q) { e with bools := e.bools ++ [b] }
  | eq {q r : ℕ} {k : Kd} {Q R : W.Point} {b : Bool} : e.pts[q]? = some (k, Q) → e.pts[r]? = some (k, R) → (b = true ↔ Q = R) →
      EcDoes cap N G e (.eq q r) { e with bools := e.bools ++ [b] }
  | verify {q i j : ℕ} {Q : W.Point} {r s : ℤ} {b : Bool} (msg : List Byte) : e.pts[q]? = some (.aff, Q) → e.ints[i]? = some r →
      e.ints[j]? = some s → (b = true ↔ EcdsaValidSmall N G Q (beVal (leadBytes N.size msg)) r s) →
      EcDoes cap N G e (.verify q msg i j) { e with bools := e.bools ++ [b] }

/-- A statement that ends the program: bytes that do not fit, coordinates that are not residues, a point that `verify` rejects,
a scalar out of range. -/
inductive EcStops (cap : Cap) (N : ℕ) (e : EcEnv W) : EcStmt → Prop
  | int (d : List Byte) : ¬ FitsBytes cap d → EcStops cap N e (.int d)
  | range {i j : ℕ} {x y : ℤ} (ver : Bool) : e.ints[i]? = some x → e.ints[j]? = some y → ¬ (0 ≤ x ∧ x < P ∧ 0 ≤ y ∧ y < P) →
      EcStops cap N e (.point i j ver)
  | invalid {i j : ℕ} {x y : ZMod P} : e.ints[i]? = some (x.val : ℤ) → e.ints[j]? = some (y.val : ℤ) →
      (∀ h : W.Nonsingular x y, (N : ℤ) • (.some x y h : W.Point) ≠ 0) → EcStops cap N e (.point i j true)
  | generate (k : Kd) {i : ℕ} {x : ℤ} : e.ints[i]? = some x → ¬ (0 < x ∧ x < N) → EcStops cap N e (.generate k i)

/-- A program within the domain of the functions it calls. -/
inductive EcRuns (cap : Cap) (N : ℕ) (G : W.Point) : EcEnv W → List EcStmt → EcEnv W → Prop
  | nil (e : EcEnv W) : EcRuns cap N G e [] e
  | cons {e e1 e2 : EcEnv W} {t : EcStmt} {ts : List EcStmt} : EcDoes cap N G e t e1 → EcRuns cap N G e1 ts e2 →
      EcRuns cap N G e (t :: ts) e2

/-- The coordinates of a point, or nothing for the point at infinity. -/
def coords : W.Point → Option (ℤ × ℤ)
  | .zero => none
  | .some x y _ => some (x.val, y.val)

end

/-- What a program can see of a point: `to_affine()`, `is_identity()` and the two coordinates. -/
def _root_.Ack.Mem.PtR.read (K : Kind) (fuel : Nat) (q : PtR) : M (Option (Int × Int)) := do
  let a ← q.conv K fuel .aff
  match a with
  | .aff a => do
    let i ← a.isIdentity
    if i then pure none
    else do
      let x ← ask fun s => s.value a.x.v
      let y ← ask fun s => s.value a.y.v
      pure (some (x, y))
  | _ => halt .ub

/-- The values of integers, one after the other. -/
def readInts : List Nat → M (List Int)
  | [] => pure []
  | i :: l => do
    let x ← ask fun s => s.value i
    let r ← readInts l
    pure (x :: r)

/-- Points, one after the other. -/
def readPts (K : Kind) (fuel : Nat) : List PtR → M (List (Option (Int × Int)))
  | [] => pure []
  | q :: l => do
    let x ← q.read K fuel
    let r ← readPts K fuel l
    pure (x :: r)

/-- A program that in the end reads all its points, all its integers and all its answers. -/
def ecReport (K : Kind) (fuel : Nat) (d : DomBytes) (ts : List EcStmt) : M (List Int × List (Option (Int × Int)) × List Bool) := do
  let v ← ecProgram K fuel d ts
  let q ← readPts K fuel v.pts
  let x ← readInts v.ints
  pure (x, q, v.bools)

/-- What it sees. -/
def ecSees (K : Kind) (fuel : Nat) (d : DomBytes) (ts : List EcStmt) : Res (List Int × List (Option (Int × Int)) × List Bool) :=
  (ecReport K fuel d ts BigSt.init).map (·.1)

/-! ## Well-formed programs -/

/-- A statement that names declared variables of the right classes: the values of the integers and the classes of the points, before
and after.  Nothing is said about the points, which need not be on the curve, nor about the room that scalars leave. -/
inductive EcForm (xs : List ℤ) (ks : List Kd) : EcStmt → List ℤ → List Kd → Prop
  | int (d : List Byte) : EcForm xs ks (.int d) (xs ++ [(beVal d : ℤ)]) ks
  | neg {i : ℕ} {x : ℤ} : xs[i]? = some x → EcForm xs ks (.neg i) (xs ++ [-x]) ks
  | point {i j : ℕ} {x y : ℤ} (ver : Bool) : xs[i]? = some x → xs[j]? = some y → EcForm xs ks (.point i j ver) xs (ks ++ [.aff])
  | generate (k : Kd) {i : ℕ} {x : ℤ} : xs[i]? = some x → EcForm xs ks (.generate k i) xs (ks ++ [k])
  | conv (k : Kd) {q : ℕ} {k' : Kd} : ks[q]? = some k' → k = .aff ∨ k' = .aff → EcForm xs ks (.conv k q) xs (ks ++ [k])
  | dbl {q : ℕ} {k : Kd} : ks[q]? = some k → EcForm xs ks (.dbl q) xs (ks ++ [k])
  | opp {q : ℕ} {k : Kd} : ks[q]? = some k → EcForm xs ks (.opp q) xs (ks ++ [k])
  | add {q r : ℕ} {k : Kd} : ks[q]? = some k → ks[r]? = some k → EcForm xs ks (.add q r) xs (ks ++ [k])
  | sub {q r : ℕ} {k : Kd} : ks[q]? = some k → ks[r]? = some k → EcForm xs ks (.sub q r) xs (ks ++ [k])
  | mul {q i : ℕ} {k : Kd} {x : ℤ} : ks[q]? = some k → xs[i]? = some x →
      EcForm xs ks (.mul q i) xs (ks ++ [k])
  | mulAdd {q r i j : ℕ} {x y : ℤ} : ks[q]? = some .jac → ks[r]? = some .jac → xs[i]? = some x → xs[j]? = some y →
      EcForm xs ks (.mulAdd i q j r) xs (ks ++ [.jac])
  | isIdentity {q : ℕ} {k : Kd} : ks[q]? = some k → EcForm xs ks (.isIdentity q) xs ks
  | isOnCurve {q : ℕ} {k : Kd} : ks[q]? = some k → EcForm xs ks (.isOnCurve q) xs ks
  | isValid {q : ℕ} {k : Kd} : ks[q]? = some k → EcForm xs ks (.isValid q) xs ks
  | eq {q r : ℕ} {k : Kd} : ks[q]? = some k → ks[r]? = some k → EcForm xs ks (.eq q r) xs ks
  | verify {q i j : ℕ} {r s : ℤ} (msg : List Byte) : ks[q]? = some .aff → xs[i]? = some r → xs[j]? = some s →
      EcForm xs ks (.verify q msg i j) xs ks

/-- A statement whose arguments the checks of the library let pass, whatever the points are: bytes fit, unverified coordinates are
residues, private scalars are in range. -/
def EcPasses (cap : Cap) (P N : ℕ) (xs : List ℤ) : EcStmt → Prop
  | .int d => FitsBytes cap d
  | .point i j ver => ver = false ∧ ∃ x y : ℕ, x < P ∧ y < P ∧ xs[i]? = some (x : ℤ) ∧ xs[j]? = some (y : ℤ)
  | .generate _ i => ∃ x : ℤ, xs[i]? = some x ∧ 0 < x ∧ x < N
  | _ => True

/-- A well-formed program, all of whose statements satisfy `A`. -/
inductive EcForms (A : List ℤ → EcStmt → Prop) : List ℤ → List Kd → List EcStmt → List ℤ → List Kd → Prop
  | nil (xs : List ℤ) (ks : List Kd) : EcForms A xs ks [] xs ks
  | cons {xs ys zs : List ℤ} {ks ls ms : List Kd} {t : EcStmt} {ts : List EcStmt} : EcForm xs ks t ys ls → A xs t →
      EcForms A ys ls ts zs ms → EcForms A xs ks (t :: ts) zs ms

/-- Coordinates, if any, are residues. -/
def Residues (P : ℕ) (c : Option (ℤ × ℤ)) : Prop := ∀ x y, c = some (x, y) → (0 ≤ x ∧ x < P) ∧ (0 ≤ y ∧ y < P)

end Ack.Spec.Ec
