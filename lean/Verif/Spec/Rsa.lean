import Verif.Spec.Bytes
/-!
# Specification: RFC 8017 signature verification

Written from RFC 8017 alone: RSAVP1 (5.2.2), EMSA-PKCS1-v1_5 (9.2), EMSA-PSS-VERIFY (9.1.2), MGF1 (B.2.1), and the two
verification operations (8.1.2, 8.2.2).
-/
namespace Ack.Spec

/-- Octet strings. -/
abbrev Octets := List (BitVec 8)

/-- I2OSP(i, 4). -/
def i2osp4 (i : Nat) : Octets :=
  [BitVec.ofNat 8 (i / 2 ^ 24), BitVec.ofNat 8 (i / 2 ^ 16), BitVec.ofNat 8 (i / 2 ^ 8), BitVec.ofNat 8 i]

/-- MGF1, RFC 8017 B.2.1: the leading `maskLen` octets of `H(seed ‖ C₀) ‖ H(seed ‖ C₁) ‖ …`, up to ⌈maskLen/hLen⌉ blocks. -/
def mgf1 (H : Octets → Octets) (hLen : Nat) (seed : Octets) (maskLen : Nat) : Octets :=
  (((List.range ((maskLen + hLen - 1) / hLen)).map fun i => H (seed ++ i2osp4 i)).flatten).take maskLen

/-- The octet strings `EM = 00 ‖ 01 ‖ PS ‖ 00 ‖ T` of `emLen` octets with `PS` at least eight octets `ff`
(RFC 8017 9.2 steps 3-5). -/
def IsEmsaPkcs1 (T : Octets) (emLen : Nat) (EM : Octets) : Prop :=
  ∃ ps : Nat, 8 ≤ ps ∧ EM = [0x00, 0x01] ++ List.replicate ps 0xff ++ [0x00] ++ T ∧ EM.length = emLen

/-- RSASSA-PKCS1-V1_5-VERIFY, RFC 8017 8.2.2, for the DigestInfo `T`: length check, `s < n`, and the recovered integer
encodes exactly the expected message. -/
def Pkcs1Valid (n e T sig : Octets) : Prop :=
  sig.length = n.length ∧ beVal sig < beVal n ∧
    ∃ EM, IsEmsaPkcs1 T n.length EM ∧ beVal EM = beVal sig ^ beVal e % beVal n

/-- Bit length of a number: `modBits`. -/
def bitLen (v : Nat) : Nat := if v = 0 then 0 else Nat.log2 v + 1

/-- The leftmost `k` bits of the leftmost octet are zero. -/
def TopZero (k : Nat) (x : Octets) : Prop := ∀ b ∈ x.head?, b.toNat < 2 ^ (8 - k)

/-- Sets the leftmost `k` bits of the leftmost octet to zero. -/
def clearTop (k : Nat) : Octets → Octets
  | [] => []
  | b :: t => BitVec.ofNat 8 (b.toNat % 2 ^ (8 - k)) :: t

/-- "consistent" of EMSA-PSS-VERIFY, RFC 8017 9.1.2 steps 3-14, for the hashed message `mHash`. -/
def PssConsistent (H : Octets → Octets) (hLen sLen : Nat) (mHash EM : Octets) (emBits : Nat) : Prop :=
  let emLen := (emBits + 7) / 8
  hLen + sLen + 2 ≤ emLen ∧
  ∃ maskedDB Hh salt : Octets,
    EM = maskedDB ++ Hh ++ [0xbc] ∧ maskedDB.length = emLen - hLen - 1 ∧ Hh.length = hLen ∧
    TopZero (8 * emLen - emBits) maskedDB ∧
    clearTop (8 * emLen - emBits) (List.zipWith (· ^^^ ·) maskedDB (mgf1 H hLen Hh (emLen - hLen - 1))) =
      List.replicate (emLen - hLen - sLen - 2) 0x00 ++ [0x01] ++ salt ∧
    salt.length = sLen ∧
    H (List.replicate 8 0x00 ++ mHash ++ salt) = Hh

/-- RSASSA-PSS-VERIFY, RFC 8017 8.1.2. -/
def PssValid (H : Octets → Octets) (hLen sLen : Nat) (n e mHash sig : Octets) : Prop :=
  let modBits := bitLen (beVal n)
  sig.length = n.length ∧ beVal sig < beVal n ∧
    ∃ EM : Octets, EM.length = (modBits - 1 + 7) / 8 ∧ beVal EM = beVal sig ^ beVal e % beVal n ∧
      PssConsistent H hLen sLen mHash EM (modBits - 1)

/-- Number of leading zero octets. -/
def leadingZeros (x : Octets) : Nat := (x.takeWhile (· == 0x00)).length

/-- The range test as deployed: below the modulus, or zero, or with fewer leading zero octets than the modulus.  For a
modulus without leading zero octet this is `s < n`. -/
def LooseRange (n sig : Octets) : Prop :=
  beVal sig < beVal n ∨ beVal sig = 0 ∨ leadingZeros sig < leadingZeros n

/-- PKCS #1 v1.5 verification with the loose range test. -/
def Pkcs1Loose (n e T sig : Octets) : Prop :=
  sig.length = n.length ∧ LooseRange n sig ∧
    ∃ EM, IsEmsaPkcs1 T n.length EM ∧ beVal EM = beVal sig ^ beVal e % beVal n

/-- PSS verification with the loose range test and with `emBits` taken to be one less than the number of bits in the octets
of the modulus, whatever the modulus is. -/
def PssLoose (H : Octets → Octets) (hLen sLen : Nat) (n e mHash sig : Octets) : Prop :=
  sig.length = n.length ∧ LooseRange n sig ∧
    ∃ EM : Octets, EM.length = n.length ∧ beVal EM = beVal sig ^ beVal e % beVal n ∧
      PssConsistent H hLen sLen mHash EM (8 * n.length - 1)

end Ack.Spec
