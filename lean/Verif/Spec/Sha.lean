import Mathlib.Data.Nat.Nth
import Mathlib.Data.Nat.Prime.Basic
import Verif.Spec.Bytes
/-!
# SHA-384 as in NIST FIPS 180-4

Written from the standard.  Messages are byte strings (the standard also covers bit strings that do not fill a byte).
-/
namespace Ack.Spec.Sha

abbrev W64 := BitVec 64
abbrev Octets := List (BitVec 8)

/-- The largest `x` with `x^k ≤ n`. -/
noncomputable def floorRoot (k n : Nat) : Nat := Nat.findGreatest (fun x => x ^ k ≤ n) n

/-- The first 64 bits of the fractional part of the `k`-th root of `p`. -/
noncomputable def fracRoot (k p : Nat) : W64 := BitVec.ofNat 64 (floorRoot k (p * 2 ^ (64 * k)))

/-- 4.2.3: the fractional parts of the cube roots of the first eighty primes. -/
noncomputable def K (t : Nat) : W64 := fracRoot 3 (Nat.nth Nat.Prime t)

/-- 5.3.4: the fractional parts of the square roots of the ninth through sixteenth primes. -/
noncomputable def H0 (i : Nat) : W64 := fracRoot 2 (Nat.nth Nat.Prime (8 + i))

/-- 4.1.3 -/
def Ch (x y z : W64) : W64 := (x &&& y) ^^^ (~~~x &&& z)
def Maj (x y z : W64) : W64 := (x &&& y) ^^^ (x &&& z) ^^^ (y &&& z)
def bigSigma0 (x : W64) : W64 := x.rotateRight 28 ^^^ x.rotateRight 34 ^^^ x.rotateRight 39
def bigSigma1 (x : W64) : W64 := x.rotateRight 14 ^^^ x.rotateRight 18 ^^^ x.rotateRight 41
def sigma0 (x : W64) : W64 := x.rotateRight 1 ^^^ x.rotateRight 8 ^^^ (x >>> 7)
def sigma1 (x : W64) : W64 := x.rotateRight 19 ^^^ x.rotateRight 61 ^^^ (x >>> 6)

/-- `v` as a `k`-byte big-endian string. -/
def be (k v : Nat) : Octets := (List.range k).map fun i => BitVec.ofNat 8 (v / 256 ^ (k - 1 - i))

/-- 5.1.2: append the bit 1, the least number of zero bits that makes room, and the length in bits in 128 bits. -/
def pad (m : Octets) : Octets := m ++ [0x80] ++ List.replicate ((239 - m.length % 128) % 128) 0 ++ be 16 (8 * m.length)

/-- 5.2.2: word `j` of block `i` of a padded message. -/
def word (p : Octets) (i j : Nat) : W64 := BitVec.ofNat 64 (beVal ((p.drop (128 * i + 8 * j)).take 8))

/-- 6.4.2 step 1: the message schedule of a block. -/
def sched (M : Nat → W64) (t : Nat) : W64 :=
  if t < 16 then M t
  else sigma1 (sched M (t - 2)) + sched M (t - 7) + sigma0 (sched M (t - 15)) + sched M (t - 16)
termination_by t

/-- The eight working variables `a, …, h`. -/
abbrev Vars := W64 × W64 × W64 × W64 × W64 × W64 × W64 × W64

/-- 6.4.2 step 3: `n` rounds. -/
noncomputable def rounds (W : Nat → W64) : (n : Nat) → Vars → Vars
  | 0, v => v
  | n + 1, v =>
    let (a, b, c, d, e, f, g, h) := rounds W n v
    let T1 := h + bigSigma1 e + Ch e f g + K n + W n
    let T2 := bigSigma0 a + Maj a b c
    (T1 + T2, a, b, c, d + T1, e, f, g)

/-- 6.4.2: one block. -/
noncomputable def block (M : Nat → W64) (H : Vars) : Vars :=
  let (a, b, c, d, e, f, g, h) := rounds (sched M) 80 H
  let (h0, h1, h2, h3, h4, h5, h6, h7) := H
  (a + h0, b + h1, c + h2, d + h3, e + h4, f + h5, g + h6, h + h7)

/-- The hash value after `n` blocks. -/
noncomputable def chain (p : Octets) (init : Vars) : Nat → Vars
  | 0 => init
  | n + 1 => block (word p n) (chain p init n)

/-- 6.5: the first 48 bytes of the final hash value. -/
noncomputable def sha384 (m : Octets) : Octets :=
  let p := pad m
  let (h0, h1, h2, h3, h4, h5, _, _) := chain p (H0 0, H0 1, H0 2, H0 3, H0 4, H0 5, H0 6, H0 7) (p.length / 128)
  be 8 h0.toNat ++ be 8 h1.toNat ++ be 8 h2.toNat ++ be 8 h3.toNat ++ be 8 h4.toNat ++ be 8 h5.toNat

end Ack.Spec.Sha
