import Verif.Spec.Rsa
/-!
# Memory as the caller of the RSA functions sees it

An address holds a byte or nothing.
-/
namespace Ack.Spec.Bytes

abbrev Memory := Nat → Option (BitVec 8)

/-- The bytes `l` lie at `a`. -/
def Holds (m : Memory) (a : Nat) (l : Octets) : Prop := ∀ k b, l[k]? = some b → m (a + k) = some b

/-- Only finitely many addresses hold a byte. -/
def Finite (m : Memory) : Prop := ∃ bound, ∀ a, bound ≤ a → m a = none

/-- An allocator that gives places that hold nothing. -/
def Allocates (A : Memory → Nat → Nat) : Prop := ∀ m n, Finite m → ∀ k, k < n → m (A m n + k) = none

/-- `n` bytes from `a` and `k` bytes from `b` have no byte in common. -/
def Disjoint (a n b k : Nat) : Prop := ∀ x, ¬ (a ≤ x ∧ x < a + n ∧ b ≤ x ∧ x < b + k)

/-- `m'` is `m` with `l` written at `a`. -/
def Written (m : Memory) (a : Nat) (l : Octets) (m' : Memory) : Prop :=
  Holds m' a l ∧ ∀ x, ¬ (a ≤ x ∧ x < a + l.length) → m' x = m x

end Ack.Spec.Bytes
