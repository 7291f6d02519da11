import Verif.Model.Query
import Verif.Spec.ProgNT
import Verif.Spec.Bytes
import Mathlib.NumberTheory.LegendreSymbol.JacobiSymbol
/-!
# What a program on integers that also asks questions computes

Independent of words, buffers and memory.
-/
namespace Ack.Spec.Prog
open Ack.Mem (NStmt Query Ans QStmt)

/-- The right answers. -/
inductive Answer (e : Env) : Query → Ans → Prop
  | isZero {x : ℕ} {a : ℤ} : look e x = some a → Answer e (.isZero x) (.bool (decide (a = 0)))
  | isOne {x : ℕ} {a : ℤ} : look e x = some a → Answer e (.isOne x) (.bool (decide (a = 1)))
  | isNegative {x : ℕ} {a : ℤ} : look e x = some a → Answer e (.isNegative x) (.bool (decide (a < 0)))
  | isOdd {x : ℕ} {a : ℤ} : look e x = some a → Answer e (.isOdd x) (.bool (decide (a % 2 = 1)))
  | isEven {x : ℕ} {a : ℤ} : look e x = some a → Answer e (.isEven x) (.bool (decide (a % 2 = 0)))
  | eq {x y : ℕ} {a b : ℤ} : look e x = some a → look e y = some b → Answer e (.eq x y) (.bool (decide (a = b)))
  | ne {x y : ℕ} {a b : ℤ} : look e x = some a → look e y = some b → Answer e (.ne x y) (.bool (decide (a ≠ b)))
  | lt {x y : ℕ} {a b : ℤ} : look e x = some a → look e y = some b → Answer e (.lt x y) (.bool (decide (a < b)))
  | le {x y : ℕ} {a b : ℤ} : look e x = some a → look e y = some b → Answer e (.le x y) (.bool (decide (a ≤ b)))
  | gt {x y : ℕ} {a b : ℤ} : look e x = some a → look e y = some b → Answer e (.gt x y) (.bool (decide (b < a)))
  | ge {x y : ℕ} {a b : ℤ} : look e x = some a → look e y = some b → Answer e (.ge x y) (.bool (decide (b ≤ a)))
  | eqInt {x : ℕ} {a : ℤ} {k : BitVec 32} : look e x = some a → Answer e (.eqInt x k) (.bool (decide (a = k.toInt)))
  | ltInt {x : ℕ} {a : ℤ} {k : BitVec 32} : look e x = some a → Answer e (.ltInt x k) (.bool (decide (a < k.toInt)))
  | gtInt {x : ℕ} {a : ℤ} {k : BitVec 32} : look e x = some a → Answer e (.gtInt x k) (.bool (decide (k.toInt < a)))
  /-- zero has one bit -/
  | bitLength {x : ℕ} {a : ℤ} : look e x = some a → Answer e (.bitLength x) (.nat (max 1 a.natAbs.size))
  | byteLength {x : ℕ} {a : ℤ} : look e x = some a → Answer e (.byteLength x) (.nat ((max 1 a.natAbs.size + 7) / 8))
  | testBit {x i : ℕ} {a : ℤ} : look e x = some a → Answer e (.testBit x i) (.bool (a.natAbs.testBit i))
  /-- the big-endian bytes of the magnitude, as few as possible but at least one -/
  | toBytes {x : ℕ} {a : ℤ} {l : List (BitVec 8)} : look e x = some a → beVal l = a.natAbs → l.length = (max 1 a.natAbs.size + 7) / 8 →
      Answer e (.toBytes x) (.bytes l)
  /-- the non-adjacent form, least significant digit first -/
  | toNaf {x : ℕ} {a : ℤ} {l : List (BitVec 8)} : look e x = some a → 0 ≤ a → digitsVal l = a → NonAdjacent l →
      (∀ d ∈ l, d.toInt = 0 ∨ d.toInt = 1 ∨ d.toInt = -1) → (l ≠ [] → (l.getLastD 0).toInt = 1) → Answer e (.toNaf x) (.bytes l)
  | jacobi {x y : ℕ} {a b : ℤ} : look e x = some a → look e y = some b → 0 < b → b % 2 = 1 →
      Answer e (.jacobi x y) (.int (jacobiSym a b.natAbs))

/-- The capacity suffices for a question: the non-adjacent form needs a free word. -/
def RoomA (cap : Option Nat) (e : Env) : Query → Prop
  | .toNaf x => ∀ a, look e x = some a → fits cap (words a + 1)
  | _ => True

/-- The capacity suffices for a quotient that is rounded down. -/
def RoomQ (cap : Option Nat) (a b : ℤ) : Prop := OppSigns a b → a.fmod b ≠ 0 → fits cap (words (a.tdiv b) + 1)

/-- The integers after a program and its answers.  `N` is the number of inline words of growable storage. -/
inductive QRuns (cap : Option Nat) (N : Option Nat) : Env → List QStmt → Env → List Ans → Prop
  | nil (e : Env) : QRuns cap N e [] e []
  | run {e e1 e' : Env} {c : NStmt} {p : List QStmt} {l : List Ans} : StepN e c e1 → RoomN cap e c → SafeN e c →
      (∀ n, N = some n → Inline n e c) → QRuns cap N e1 p e' l → QRuns cap N e (.run c :: p) e' l
  | ofBytes {e e' : Env} {d : List (BitVec 8)} {p : List QStmt} {l : List Ans} : fits cap (max 1 ((d.length + 3) / 4)) →
      QRuns cap N (e ++ [some (beVal d : ℤ)]) p e' l → QRuns cap N e (.ofBytes d :: p) e' l
  | quotRem {e e' : Env} {q r x y : ℕ} {a b : ℤ} {p : List QStmt} {l : List Ans} : look e x = some a → look e y = some b → live e q →
      live e r → q ≠ r → b ≠ 0 → RoomQ cap a b → QRuns cap N (put (put e q (a.fdiv b)) r (a.fmod b)) p e' l →
      QRuns cap N e (.quotRem q r x y :: p) e' l
  | rem {e e' : Env} {r x y : ℕ} {a b : ℤ} {p : List QStmt} {l : List Ans} : look e x = some a → look e y = some b → live e r → b ≠ 0 →
      QRuns cap N (put e r (a.fmod b)) p e' l → QRuns cap N e (.rem r x y :: p) e' l
  | ask {e e' : Env} {q : Query} {v : Ans} {p : List QStmt} {l : List Ans} : Answer e q v → RoomA cap e q → QRuns cap N e p e' l →
      QRuns cap N e (.ask q :: p) e' (v :: l)

/-- The statement ends the program: bytes that need more words than there are, or a division by zero. -/
inductive QStops (cap : Option Nat) (e : Env) : QStmt → Prop
  | ofBytes {d : List (BitVec 8)} : fits cap 1 → ¬ fits cap ((d.length + 3) / 4) → QStops cap e (.ofBytes d)
  | quotRem {q r x y : ℕ} {a : ℤ} : look e x = some a → look e y = some 0 → live e q → live e r → q ≠ r → QStops cap e (.quotRem q r x y)
  | rem {r x y : ℕ} {a : ℤ} : look e x = some a → look e y = some 0 → live e r → QStops cap e (.rem r x y)

end Ack.Spec.Prog
