import Verif.Spec.KeyProg
/-!
# Well-formed programs on encodings and key recovery

Continues `Spec/KeyProg.lean`: programs that name declared variables of the right classes, with nothing said about the points.
-/
namespace Ack.Spec.Key
open Ack.Mem Ack.Spec.Ec Ack.Spec.Prog
open Big (Byte)

/-- The x-coordinate of a compressed form of the right length is below `P`. -/
def Reduced (P : ℕ) (b : List Byte) : Prop := ∀ t l, b = t :: l → t = 2 ∨ t = 3 → l.length = octets P → beVal l < P

/-- A statement that names declared variables of the right classes: the integers, the classes of the points and the number of byte
strings, before and after.  Unverified x-coordinates are residues. -/
inductive KForm (P N : ℕ) (xs : List ℤ) (ks : List Kd) (n : ℕ) : KStmt → List ℤ → List Kd → ℕ → Prop
  | ec {t : EcStmt} {ys : List ℤ} {ls : List Kd} : EcForm xs ks t ys ls → KForm P N xs ks n (.ec t) ys ls n
  | decompress {i : ℕ} {x : ℤ} (odd ver : Bool) : xs[i]? = some x → (ver = false → 0 ≤ x ∧ x < P) →
      KForm P N xs ks n (.decompress i odd ver) xs (ks ++ [.aff]) n
  | decode {b : List Byte} : Reduced P b → KForm P N xs ks n (.decode b) xs (ks ++ [.aff]) n
  | decodeVar {i : ℕ} : i < n → KForm P N xs ks n (.decodeVar i) xs (ks ++ [.aff]) n
  | encode {q : ℕ} (compress : Bool) : ks[q]? = some .aff → KForm P N xs ks n (.encode q compress) xs ks (n + 1)
  | recover (msg : List Byte) {i j : ℕ} {r s : ℤ} (k : BitVec 64) (ver : Bool) : xs[i]? = some r → xs[j]? = some s → N ≤ P →
      KForm P N xs ks n (.recover msg i j k ver) xs (ks ++ [.aff]) n

/-- A statement whose arguments the checks of the library let pass, whatever the points are.  The program's own encodings always pass. -/
def KPasses (cap : Cap) (P N : ℕ) (xs : List ℤ) : KStmt → Prop
  | .ec t => EcPasses cap P N xs t
  | .decompress i _ _ => ∃ x : ℤ, xs[i]? = some x ∧ 0 ≤ x ∧ x < P
  | .decode b => ¬ Malformed P b
  | _ => True

/-- A well-formed program, all of whose statements satisfy `A`. -/
inductive KForms (P N : ℕ) (A : List ℤ → KStmt → Prop) : List ℤ → List Kd → ℕ → List KStmt → List ℤ → List Kd → ℕ → Prop
  | nil (xs : List ℤ) (ks : List Kd) (n : ℕ) : KForms P N A xs ks n [] xs ks n
  | cons {xs ys zs : List ℤ} {ks ls ms : List Kd} {n m o : ℕ} {t : KStmt} {ts : List KStmt} : KForm P N xs ks n t ys ls m → A xs t →
      KForms P N A ys ls m ts zs ms o → KForms P N A xs ks n (t :: ts) zs ms o

/-- What decoding of any bytes on the curve y² = x³ + A x + B answers, if the bytes are not malformed: nothing for a leading zero byte,
for a compressed x without a point with y ≠ 0 and for the full form of (0, 0); otherwise two numbers.  The full form need not be on the
curve; the x of the compressed form is answered as it stands, also above `P`. -/
inductive Answers {P : ℕ} (A B : ZMod P) : List Byte → Option (ℤ × ℤ) → Prop
  | zero (l : List Byte) : Answers A B (0 :: l) none
  | none {t : Byte} {l : List Byte} : t = 2 ∨ t = 3 → l.length = octets P →
      (∀ y : ZMod P, y ^ 2 = ((beVal l : ℕ) : ZMod P) ^ 3 + A * ((beVal l : ℕ) : ZMod P) + B → y = 0) → Answers A B (t :: l) none
  | some {t : Byte} {l : List Byte} {y : ZMod P} : t = 2 ∧ y.val % 2 = 0 ∨ t = 3 ∧ y.val % 2 = 1 → l.length = octets P →
      y ^ 2 = ((beVal l : ℕ) : ZMod P) ^ 3 + A * ((beVal l : ℕ) : ZMod P) + B → y ≠ 0 → Answers A B (t :: l) (some ((beVal l : ℤ), (y.val : ℤ)))
  | origin {l m : List Byte} : l.length = octets P → m.length = octets P → beVal l = 0 → beVal m = 0 → Answers A B (4 :: (l ++ m)) none
  | full {l m : List Byte} : l.length = octets P → m.length = octets P → beVal l < P → beVal m < P → ¬ (beVal l = 0 ∧ beVal m = 0) →
      Answers A B (4 :: (l ++ m)) (Option.some ((beVal l : ℤ), (beVal m : ℤ)))

end Ack.Spec.Key
