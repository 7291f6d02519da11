/-!
# SHA-3 and SHAKE as in NIST FIPS 202

Written from the standard, on strings of bits, for the width b = 1600 (w = 64, l = 6).
-/
namespace Ack.Spec.Keccak

/-- 3.1: the state array `A[x, y, z]`.  Coordinates are taken modulo 5, 5 and 64. -/
abbrev State := Fin 5 → Fin 5 → Fin 64 → Bool

/-- 3.1.2: `A[x, y, z] = S[w(5y + x) + z]`. -/
def ofString (S : List Bool) : State := fun x y z => S.getD (64 * (5 * y.val + x.val) + z.val) false

/-- 3.1.3: the string of a state, lane after lane, plane after plane. -/
def toString (A : State) : List Bool :=
  (List.finRange 5).flatMap fun y => (List.finRange 5).flatMap fun x => (List.finRange 64).map fun z => A x y z

/-- 3.2.1 -/
def theta (A : State) : State :=
  let C : Fin 5 → Fin 64 → Bool := fun x z => ((((A x 0 z) ^^ (A x 1 z)) ^^ (A x 2 z)) ^^ (A x 3 z)) ^^ (A x 4 z)
  let D : Fin 5 → Fin 64 → Bool := fun x z => (C (x - 1) z) ^^ (C (x + 1) (z - 1))
  fun x y z => (A x y z) ^^ (D x z)

/-- The coordinates 3.2.2 visits: `(1, 0)`, then `(x, y) ↦ (y, 2x + 3y)`. -/
def walk : Nat → Fin 5 × Fin 5
  | 0 => (1, 0)
  | t + 1 => ((walk t).2, 2 * (walk t).1 + 3 * (walk t).2)

/-- 3.2.2: for `t` from 0 to 23, `A'[x, y, z] = A[x, y, z - (t+1)(t+2)/2]` at the `t`-th coordinates. -/
def rho (A : State) : State :=
  (List.range 24).foldl (fun A' t => fun x y z =>
    if (x, y) = walk t then A x y (z - Fin.ofNat 64 ((t + 1) * (t + 2) / 2)) else A' x y z) A

/-- 3.2.3 -/
def pi (A : State) : State := fun x y z => A (x + 3 * y) x z

/-- 3.2.4 -/
def chi (A : State) : State := fun x y z => (A x y z) ^^ (((A (x + 1) y z) ^^ true) && (A (x + 2) y z))

/-- One step of the shift register in 3.2.5, Algorithm 5, on `R[0], …, R[7]`. -/
def lfsr (R : Fin 8 → Bool) : Fin 8 → Bool :=
  let r8 := R 7
  fun i => match i with
    | 0 => false ^^ r8
    | 1 => R 0
    | 2 => R 1
    | 3 => R 2
    | 4 => (R 3) ^^ r8
    | 5 => (R 4) ^^ r8
    | 6 => (R 5) ^^ r8
    | 7 => R 6

/-- 3.2.5, Algorithm 5. -/
def rc (t : Nat) : Bool :=
  if t % 255 = 0 then true
  else (Nat.repeat lfsr (t % 255) (fun i => i == 0)) 0

/-- 3.2.5, Algorithm 6: `RC[2^j - 1] = rc(j + 7 i_r)` for `j` from 0 to 6, all other bits are 0. -/
def RC (ir : Nat) (z : Fin 64) : Bool := (List.range 7).any fun j => z.val == 2 ^ j - 1 && rc (j + 7 * ir)

/-- 3.2.5 -/
def iota (ir : Nat) (A : State) : State := fun x y z => if x = 0 ∧ y = 0 then (A x y z) ^^ (RC ir z) else A x y z

/-- 3.3: the round. -/
def rnd (A : State) (ir : Nat) : State := iota ir (chi (pi (rho (theta A))))

/-- 3.3, 3.4: Keccak-f[1600], the 24 rounds 0, …, 23. -/
def keccakF (S : List Bool) : List Bool := toString ((List.range 24).foldl rnd (ofString S))

/-- 5.1: `pad10*1(x, m)`. -/
def pad101 (x m : Nat) : List Bool := [true] ++ List.replicate ((-(m : Int) - 2) % (x : Int)).toNat false ++ [true]

/-- 4, Algorithm 8, steps 1-6: absorb `n` blocks of `r` bits. -/
def absorb (r : Nat) (P : List Bool) : Nat → List Bool
  | 0 => List.replicate 1600 false
  | n + 1 => keccakF (List.zipWith (· ^^ ·) (absorb r P n) (((P.drop (r * n)).take r) ++ List.replicate (1600 - r) false))

/-- 4, Algorithm 8, steps 7-10: the leading `d` bits of `Trunc_r(S) ‖ Trunc_r(f(S)) ‖ Trunc_r(f(f(S))) ‖ …`. -/
def squeeze (r d : Nat) (S : List Bool) : List Bool :=
  ((List.range (d / r + 1)).flatMap fun j => (Nat.repeat keccakF j S).take r).take d

/-- 5.2: `KECCAK[c](N, d) = SPONGE[Keccak-f[1600], pad10*1, 1600 - c](N, d)`. -/
def keccak (c : Nat) (N : List Bool) (d : Nat) : List Bool :=
  let r := 1600 - c
  let P := N ++ pad101 r N.length
  squeeze r d (absorb r P (P.length / r))

/-- 6.1 -/
def sha3_256 (M : List Bool) : List Bool := keccak 512 (M ++ [false, true]) 256
def sha3_384 (M : List Bool) : List Bool := keccak 768 (M ++ [false, true]) 384
def sha3_512 (M : List Bool) : List Bool := keccak 1024 (M ++ [false, true]) 512
/-- 6.2 -/
def shake128 (M : List Bool) (d : Nat) : List Bool := keccak 256 (M ++ [true, true, true, true]) d
def shake256 (M : List Bool) (d : Nat) : List Bool := keccak 512 (M ++ [true, true, true, true]) d

/-- B.1, Algorithm 10: the bits of a byte string, the least significant bit of each byte first. -/
def bits (m : List (BitVec 8)) : List Bool := m.flatMap fun b => (List.range 8).map fun i => b.getLsbD i

end Ack.Spec.Keccak
