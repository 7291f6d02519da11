import Verif.Model.FeProg
import Verif.Spec.EcProg
/-!
# What a program on field elements computes

Independent of objects, representatives and the functions of the library: the elements are elements of `ZMod P`.
-/
namespace Ack.Spec.Fe
open Ack.Mem Ack.Spec.Prog
open Ack.Spec.Ec (FitsBytes)
open Big (Byte)

/-- The bytes in `d` are a modulus within the range of the functions, and integers of storage kind `K` have room for products of
residues (on growable storage: residues stay within the inline words). -/
structure FeSetting (K : Kind) (d : List Byte) (P : ℕ) : Prop where
  p : beVal d = P
  big : 8 < P
  fits : FitsBytes K.lim d
  room : Cap.fits K.lim (2 * words P) = true
  inline : K.dyn = true → words P ≤ K.N

section
variable {P : ℕ}

/-- Elements, answers and byte strings. -/
structure FeEnv (P : ℕ) where
  els : List (ZMod P)
  bools : List Bool
  strs : List (List Byte)

/-- The four operations. -/
def bin [Fact P.Prime] : FeBin → ZMod P → ZMod P → ZMod P
  | .add, x, y => x + y
  | .sub, x, y => x - y
  | .mul, x, y => x * y
  | .div, x, y => x / y

/-- Three of them for integers. -/
def int : FeInt → ZMod P → ZMod P → ZMod P
  | .add, x, y => x + y
  | .sub, x, y => x - y
  | .mul, x, y => x * y

/-- The comparisons, of least non-negative representatives. -/
def cmp : FeCmp → ℕ → ℕ → Prop
  | .eq, x, y => x = y
  | .ne, x, y => x ≠ y
  | .lt, x, y => x < y
  | .le, x, y => x ≤ y
  | .gt, x, y => y < x
  | .ge, x, y => y ≤ x

/-- Bytes of a number; zero has one. -/
def byteLen (n : ℕ) : ℕ := max 1 ((n.size + 7) / 8)

variable [Fact P.Prime]

/-- What an expression computes. -/
inductive OpDoes (cap : Cap) (e : FeEnv P) : FeOp → ZMod P → Prop
  | copy {i : ℕ} {x : ZMod P} : e.els[i]? = some x → OpDoes cap e (.copy i) x
  | bin (o : FeBin) {i j : ℕ} {x y : ZMod P} : e.els[i]? = some x → e.els[j]? = some y → (o = .div → y ≠ 0) →
      OpDoes cap e (.bin o i j) (bin o x y)
  | big (o : FeBin) {i : ℕ} {d : List Byte} {x : ZMod P} : e.els[i]? = some x → FitsBytes cap d → (o = .div → beVal d ≠ 0) →
      OpDoes cap e (.big o i d) (Fe.bin o x (beVal d : ℕ))
  | int (o : FeInt) {i : ℕ} {k : BitVec 32} {x : ZMod P} : e.els[i]? = some x → OpDoes cap e (.int o i k) (int o x (k.toInt : ℤ))
  | neg {i : ℕ} {x : ZMod P} : e.els[i]? = some x → OpDoes cap e (.un .neg i) (-x)
  | sqr {i : ℕ} {x : ZMod P} : e.els[i]? = some x → OpDoes cap e (.un .sqr i) (x ^ 2)
  | inv {i : ℕ} {x : ZMod P} : e.els[i]? = some x → x ≠ 0 → OpDoes cap e (.un .inv i) x⁻¹
  | sqrt {i : ℕ} {x y : ZMod P} : e.els[i]? = some x → (IsSquare x → y ^ 2 = x) → (¬ IsSquare x → y = 0) →
      OpDoes cap e (.un .sqrt i) y

/-- Expressions that end the program: division by zero, the inverse of zero, bytes that do not fit. -/
inductive OpStops (cap : Cap) (e : FeEnv P) : FeOp → Prop
  | div {i j : ℕ} : e.els[j]? = some 0 → OpStops cap e (.bin .div i j)
  | big (o : FeBin) (i : ℕ) {d : List Byte} : ¬ FitsBytes cap d → OpStops cap e (.big o i d)
  | bigDiv (i : ℕ) {d : List Byte} : beVal d = 0 → OpStops cap e (.big .div i d)
  | inv {i : ℕ} : e.els[i]? = some 0 → OpStops cap e (.un .inv i)

/-- What a statement does. -/
inductive FeDoes (cap : Cap) (e : FeEnv P) : FeStmt → FeEnv P → Prop
  | elem {d : List Byte} (ck : Bool) : FitsBytes cap d → beVal d < P → FeDoes cap e (.elem d ck) { e with els := e.els ++ [((beVal d : ℕ) : ZMod P)] }
  | new {f : FeOp} {z : ZMod P} : OpDoes cap e f z → FeDoes cap e (.new f) { e with els := e.els ++ [z] }
  | set (x : ℕ) {f : FeOp} {z : ZMod P} : OpDoes cap e f z → FeDoes cap e (.set x f) { e with els := e.els.set x z }
  | copySet (x : ℕ) {y : ℕ} {z : ZMod P} : e.els[y]? = some z → FeDoes cap e (.copySet x y) { e with els := e.els.set x z }
  | put (x : ℕ) {d : List Byte} (ck : Bool) : FitsBytes cap d → beVal d < P → FeDoes cap e (.put x d ck) { e with els := e.els.set x ((beVal d : ℕ) : ZMod P) }
  | cmp {o : FeCmp} {i j : ℕ} {x y : ZMod P} {b : Bool} : e.els[i]? = some x → e.els[j]? = some y → (b = true ↔ cmp o x.val y.val) →
      FeDoes cap e (.cmp o i j) { e with bools := e.bools ++ [b] }
  | isZero {i : ℕ} {x : ZMod P} {b : Bool} : e.els[i]? = some x → (b = true ↔ x = 0) → FeDoes cap e (.isZero i) { e with bools := e.bools ++ [b] }
  | isOne {i : ℕ} {x : ZMod P} {b : Bool} : e.els[i]? = some x → (b = true ↔ x = 1) → FeDoes cap e (.isOne i) { e with bools := e.bools ++ [b] }
  | isValid {i : ℕ} {x : ZMod P} : e.els[i]? = some x → FeDoes cap e (.isValid i) { e with bools := e.bools ++ [true] }
  | toBytes {i : ℕ} {x : ZMod P} {l : List Byte} : e.els[i]? = some x → l.length = byteLen (P - 1) → beVal l = x.val →
      FeDoes cap e (.toBytes i) { e with strs := e.strs ++ [l] }
  | toBytesLen {i n : ℕ} {x : ZMod P} {l : List Byte} : e.els[i]? = some x → l.length = max n (byteLen x.val) → beVal l = x.val →
      FeDoes cap e (.toBytesLen i n) { e with strs := e.strs ++ [l] }

/-- Statements that end the program: moreover a checked value that is not below the modulus. -/
inductive FeStops (cap : Cap) (e : FeEnv P) : FeStmt → Prop
  | elem {d : List Byte} (ck : Bool) : ¬ FitsBytes cap d → FeStops cap e (.elem d ck)
  | elemRange {d : List Byte} : P ≤ beVal d → FeStops cap e (.elem d true)
  | new {f : FeOp} : OpStops cap e f → FeStops cap e (.new f)
  | set (x : ℕ) {f : FeOp} : OpStops cap e f → FeStops cap e (.set x f)
  | put (x : ℕ) {d : List Byte} (ck : Bool) : ¬ FitsBytes cap d → FeStops cap e (.put x d ck)
  | putRange (x : ℕ) {d : List Byte} : P ≤ beVal d → FeStops cap e (.put x d true)

/-- A program in which no statement stops. -/
inductive FeRuns (cap : Cap) : FeEnv P → List FeStmt → FeEnv P → Prop
  | nil (e : FeEnv P) : FeRuns cap e [] e
  | cons {e e1 e2 : FeEnv P} {t : FeStmt} {ts : List FeStmt} : FeDoes cap e t e1 → FeRuns cap e1 ts e2 → FeRuns cap e (t :: ts) e2

end

/-! ## Well-formed programs -/

/-- Operands are among the `n` declared elements; integers are residues. -/
def OpForm (P n : ℕ) : FeOp → Prop
  | .copy x => x < n
  | .bin _ x y => x < n ∧ y < n
  | .big _ x d => x < n ∧ beVal d < P
  | .int _ x k => x < n ∧ 0 ≤ k.toInt ∧ k.toInt < P
  | .un _ x => x < n

/-- The same for statements; a value that is not checked is a residue. -/
def StForm (P n : ℕ) : FeStmt → Prop
  | .elem d ck => ck = false → beVal d < P
  | .new f => OpForm P n f
  | .set x f => x < n ∧ OpForm P n f
  | .copySet x y => x < n ∧ y < n
  | .put x d ck => x < n ∧ (ck = false → beVal d < P)
  | .cmp _ x y => x < n ∧ y < n
  | .isZero x => x < n
  | .isOne x => x < n
  | .isValid x => x < n
  | .toBytes x => x < n
  | .toBytesLen x _ => x < n

/-- The number of elements after a statement. -/
def after (n : ℕ) : FeStmt → ℕ
  | .elem _ _ => n + 1
  | .new _ => n + 1
  | _ => n

/-- A program that names declared elements only. -/
def FeForm (P : ℕ) : ℕ → List FeStmt → Prop
  | _, [] => True
  | n, t :: ts => StForm P n t ∧ FeForm P (after n t) ts

instance (P n : ℕ) (f : FeOp) : Decidable (OpForm P n f) := by cases f <;> unfold OpForm <;> infer_instance
instance (P n : ℕ) (t : FeStmt) : Decidable (StForm P n t) := by cases t <;> unfold StForm <;> infer_instance
instance FeForm.dec (P : ℕ) : (n : ℕ) → (ts : List FeStmt) → Decidable (FeForm P n ts)
  | _, [] => isTrue trivial
  | n, t :: ts => @instDecidableAnd _ _ inferInstance (FeForm.dec P (after n t) ts)

/-- What a program sees: the values of its elements at the end, its answers and its byte strings. -/
def feSees (K : Kind) (fuel : Nat) (d : List Byte) (ts : List FeStmt) : Res (List Int × List Bool × List (List Byte)) :=
  ((do
    let v ← feProgram K fuel d ts
    let x ← Ec.readInts (v.els.map (·.v))
    pure (x, v.bools, v.strs) : M _) BigSt.init).map (·.1)

end Ack.Spec.Fe
