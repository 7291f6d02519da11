import Verif.Spec.EcProg
import Verif.Model.KeyMem
/-!
# What a program on compressed points, encodings and key recovery computes

Continues `Spec/EcProg.lean`: the points are elements of the group of the curve y² = x³ + a x + b over `ZMod P`, byte strings are
lists of bytes.
-/
namespace Ack.Spec.Key
open Ack.Mem Ack.Spec.Ec Ack.Spec.Prog
open Big (Byte)

section
variable {P : ℕ} [Fact P.Prime]

/-- Integers, points, answers, and byte strings. -/
structure KEnv (W : WeierstrassCurve.Affine (ZMod P)) where
  ec : EcEnv W
  bytes : List (List Byte)

variable {W : WeierstrassCurve.Affine (ZMod P)}

/-- The byte length of residues modulo `P`. -/
def octets (P : ℕ) : ℕ := (P.size + 7) / 8

/-- `b` encodes the point (SEC 1, 2.3.3): a zero byte for the point at infinity; otherwise the tag 4 and both coordinates as
big-endian numbers, or a tag for the parity of y (2 even, 3 odd) and the coordinate x. -/
inductive SecCode : Bool → W.Point → List Byte → Prop
  | zero (compress : Bool) : SecCode compress 0 [0]
  | full {x y : ZMod P} (h : W.Nonsingular x y) {l m : List Byte} : l.length = octets P → beVal l = x.val → m.length = octets P →
      beVal m = y.val → SecCode false (.some x y h) (4 :: (l ++ m))
  | even {x y : ZMod P} (h : W.Nonsingular x y) {l : List Byte} : l.length = octets P → beVal l = x.val → y.val % 2 = 0 →
      SecCode true (.some x y h) (2 :: l)
  | odd {x y : ZMod P} (h : W.Nonsingular x y) {l : List Byte} : l.length = octets P → beVal l = x.val → y.val % 2 = 1 →
      SecCode true (.some x y h) (3 :: l)

/-- What decoding answers: the encoded point (in compressed form only if y ≠ 0); the point at infinity for everything that begins
with a zero byte, and for a compressed form whose x is below `P` but belongs to no point with y ≠ 0. -/
inductive Decodes : List Byte → W.Point → Prop
  | point {compress : Bool} {Q : W.Point} {b : List Byte} : SecCode compress Q b → (compress = true → ∀ x h, Q ≠ .some x 0 h) → Decodes b Q
  | zero (l : List Byte) : Decodes (0 :: l) 0
  | none {t : Byte} {l : List Byte} : t = 2 ∨ t = 3 → l.length = octets P → beVal l < P →
      (∀ y, W.Nonsingular ((beVal l : ℕ) : ZMod P) y → y = 0) → Decodes (t :: l) 0

/-- What decoding rejects: no bytes, an unknown tag, a wrong length, coordinates of the full form that are not residues. -/
inductive Malformed (P : ℕ) : List Byte → Prop
  | empty : Malformed P []
  | tag {t : Byte} (l : List Byte) : t ≠ 0 → t ≠ 2 → t ≠ 3 → t ≠ 4 → Malformed P (t :: l)
  | short {t : Byte} {l : List Byte} : t = 2 ∨ t = 3 → l.length ≠ octets P → Malformed P (t :: l)
  | long {l : List Byte} : l.length ≠ 2 * octets P → Malformed P (4 :: l)
  | range {l m : List Byte} : l.length = octets P → m.length = octets P → ¬ (beVal l < P ∧ beVal m < P) → Malformed P (4 :: (l ++ m))

/-- The point that a signature with the component `r` and the recovery number `k` speaks of: its x-coordinate is `r`, or `r + N` if bit
1 of `k` is set; bit 0 is the parity of its y-coordinate, which is not 0. -/
def Nonce (N : ℕ) (r : ℤ) (k : ℕ) (R : W.Point) : Prop :=
  ∃ x y h, R = .some x y h ∧ (x.val : ℤ) = r + (k / 2 : ℕ) * N ∧ y ≠ 0 ∧ y.val % 2 = k % 2

/-- Declaration of an affine point. -/
def KEnv.addPt (e : KEnv W) (Q : W.Point) : KEnv W := { e with ec := { e.ec with pts := e.ec.pts ++ [(.aff, Q)] } }

/-- The factor of the generator in key recovery: minus the leading bits of the message, divided by `r`; messages whose leading bits
exceed 2 N are not reduced properly and count as 0. -/
def msgFactor (N : ℕ) (msg : List Byte) (w : ℤ) : ℤ :=
  if beVal (leadBytes N.size msg) ≤ 2 * N then -(beVal (leadBytes N.size msg)) * w % N else 0

/-- A statement within the domain of the function it calls: what it computes. -/
inductive KDoes (cap : Cap) (N : ℕ) (G : W.Point) (e : KEnv W) : KStmt → KEnv W → Prop
  | ec {t : EcStmt} {e' : EcEnv W} : EcDoes cap N G e.ec t e' → KDoes cap N G e (.ec t) { e with ec := e' }
  | decompress {i : ℕ} {x y : ZMod P} (h : W.Nonsingular x y) {odd : Bool} (ver : Bool) : e.ec.ints[i]? = some (x.val : ℤ) → y ≠ 0 →
      (y.val % 2 = 1 ↔ odd = true) → KDoes cap N G e (.decompress i odd ver) (e.addPt (.some x y h))
  | noPoint {i : ℕ} {x : ZMod P} (odd ver : Bool) : e.ec.ints[i]? = some (x.val : ℤ) → (∀ y, W.Nonsingular x y → y = 0) →
      KDoes cap N G e (.decompress i odd ver) (e.addPt 0)
  | decode {b : List Byte} {Q : W.Point} : Decodes b Q → KDoes cap N G e (.decode b) (e.addPt Q)
  | decodeVar {i : ℕ} {b : List Byte} {Q : W.Point} : e.bytes[i]? = some b → Decodes b Q → KDoes cap N G e (.decodeVar i) (e.addPt Q)
  | encode {q : ℕ} {Q : W.Point} {compress : Bool} {b : List Byte} : e.ec.pts[q]? = some (.aff, Q) → SecCode compress Q b →
      KDoes cap N G e (.encode q compress) { e with bytes := e.bytes ++ [b] }
  | unsigned {i j : ℕ} {r s : ℤ} (msg : List Byte) {k : BitVec 64} (ver : Bool) : e.ec.ints[i]? = some r → e.ec.ints[j]? = some s →
      N ≤ P → ¬ ((1 ≤ r ∧ r < N) ∧ (1 ≤ s ∧ s < N) ∧ k.toNat < 4) → KDoes cap N G e (.recover msg i j k ver) (e.addPt 0)
  | noNonce {i j : ℕ} {r s : ℤ} (msg : List Byte) {k : BitVec 64} {ver : Bool} : e.ec.ints[i]? = some r → e.ec.ints[j]? = some s →
      N ≤ P → (∀ R : W.Point, Nonce N r k.toNat R → ver = true ∧ (N : ℤ) • R ≠ 0) → KDoes cap N G e (.recover msg i j k ver) (e.addPt 0)
  | recover {i j : ℕ} {r s w : ℤ} (msg : List Byte) {k : BitVec 64} {ver : Bool} {R : W.Point} : e.ec.ints[i]? = some r →
      e.ec.ints[j]? = some s → N ≤ P → (1 ≤ r ∧ r < N) → (1 ≤ s ∧ s < N) → k.toNat < 4 → Nonce N r k.toNat R →
      (ver = true → (N : ℤ) • R = 0) → r * w ≡ 1 [ZMOD N] →
      KDoes cap N G e (.recover msg i j k ver) (e.addPt (msgFactor N msg w • G + (s * w % N) • R))

/-- A statement that ends the program. -/
inductive KStops (cap : Cap) (N : ℕ) (e : KEnv W) : KStmt → Prop
  | ec {t : EcStmt} : EcStops cap N e.ec t → KStops cap N e (.ec t)
  | decompress {i : ℕ} {x : ℤ} (odd : Bool) : e.ec.ints[i]? = some x → ¬ (0 ≤ x ∧ x < P) → KStops cap N e (.decompress i odd true)
  | decode {b : List Byte} : Malformed P b → KStops cap N e (.decode b)
  | decodeVar {i : ℕ} {b : List Byte} : e.bytes[i]? = some b → Malformed P b → KStops cap N e (.decodeVar i)

/-- A program within the domain of the functions it calls. -/
inductive KRuns (cap : Cap) (N : ℕ) (G : W.Point) : KEnv W → List KStmt → KEnv W → Prop
  | nil (e : KEnv W) : KRuns cap N G e [] e
  | cons {e e1 e2 : KEnv W} {t : KStmt} {ts : List KStmt} : KDoes cap N G e t e1 → KRuns cap N G e1 ts e2 → KRuns cap N G e (t :: ts) e2

end

/-- Everything a program sees in the end: its integers, its points, its answers and its byte strings. -/
structure KSight where
  ints : List Int
  pts : List (Option (Int × Int))
  bools : List Bool
  bytes : List (List Byte)
deriving DecidableEq, Repr

/-- A program that in the end reads all its variables. -/
def kReport (K : Kind) (fuel : Nat) (d : DomBytes) (ts : List KStmt) : M KSight := do
  let v ← kProgram K fuel d ts
  let q ← readPts K fuel v.ec.pts
  let x ← readInts v.ec.ints
  pure ⟨x, q, v.ec.bools, v.bytes⟩

/-- What it sees. -/
def kSees (K : Kind) (fuel : Nat) (d : DomBytes) (ts : List KStmt) : Res KSight := (kReport K fuel d ts BigSt.init).map (·.1)

end Ack.Spec.Key
