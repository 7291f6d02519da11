import Verif.Model.Utils
import Verif.Spec.Bytes
/-!
# MGF1 and RSA signature verification

Models include/ack/mgf.hpp and include/ack/rsa.hpp.  Byte strings are lists, most significant byte first.  The hash function
is a parameter.  The modular exponentiation is a parameter too: `eosio::mod_exp` (an intrinsic of the host) or the software
routine of include/ack/c/powm.h, which `Model/Powm.lean` models.
-/
namespace Ack
open Big (Byte)

/-- A hash function from bytes to bytes (`hashfunc(...).extract_as_byte_array()`). -/
abbrev Hash := List Byte → List Byte

/-! ## MGF1 -/

/-- `(counter >> 24) & 0xff, …`, mgf.hpp:32-35. -/
def be32 (c : BitVec 32) : List Byte :=
  [(c >>> 24 &&& 0xff).setWidth 8, (c >>> 16 &&& 0xff).setWidth 8, (c >>> 8 &&& 0xff).setWidth 8, (c &&& 0xff).setWidth 8]

/-- The default `copy`, mgf.hpp:21: `memcpy(dst, src, len)`; outside either buffer it is undefined. -/
def copyBytes (dst src : List Byte) (len : Nat) : Res (List Byte) :=
  if len ≤ dst.length ∧ len ≤ src.length then .ok (src.take len ++ dst.drop len) else .error .ub

/-- The loop of `mgf1`, mgf.hpp:27-45: `mask` is the span still to be written; returns its final content. -/
def mgf1Loop (H : Hash) (copy : List Byte → List Byte → Nat → Res (List Byte)) (seed : List Byte) :
    (fuel : Nat) → (mask : List Byte) → (outLen : Nat) → (counter : BitVec 32) → Res (List Byte)
  | 0, _, _, _ => .error .fuel
  | f + 1, mask, outLen, counter =>
    if outLen = 0 then .ok mask
    else do
      let digest := H (seed ++ be32 counter)
      let copied := min digest.length outLen
      let mask ← copy mask digest copied
      if copied ≤ mask.length then
        let rest ← mgf1Loop H copy seed f (mask.drop copied) (outLen - copied) (counter + 1)
        .ok (mask.take copied ++ rest)
      else .error .ub

/-- `mgf1`, mgf.hpp:19-46: the content of `mask` afterwards.  The seed does not overlap the mask. -/
def mgf1 (H : Hash) (copy : List Byte → List Byte → Nat → Res (List Byte)) (seed mask : List Byte) : Res (List Byte) :=
  mgf1Loop H copy seed (mask.length + 1) mask mask.length 0

/-! ## RSA primitives -/

/-- Modular exponentiation `base^exponent mod modulus` into a buffer of the size of the modulus: `ok none` is a non-zero
return code, after which the buffer is unchanged. -/
abbrev ModExp := (base exponent modulus : List Byte) → Res (Option (List Byte))

/-- Big-endian encoding of a number in `len` bytes. -/
def encodeBE : (len v : Nat) → List Byte
  | 0, _ => []
  | k + 1, v => BitVec.ofNat 8 (v / 256 ^ k) :: encodeBE k v

/-- `eosio::mod_exp` (used at rsa.hpp:158): the host's function is outside the repository; it is modelled by its
documentation, an error for a zero modulus and otherwise the exact power, padded to the size of the modulus. -/
def hostModExp : ModExp := fun base exponent modulus =>
  if beVal modulus = 0 then .ok none
  else .ok (some (encodeBE modulus.length (beVal base ^ beVal exponent % beVal modulus)))

/-- Number of leading zero bytes, the loops of rsa.hpp:81-84 and 92-95. -/
def leadZeros : List Byte → Nat
  | [] => 0
  | b :: t => if b = 0 then leadZeros t + 1 else 0

/-- The comparison loop of `is_s_valid`, rsa.hpp:114-124, on the remaining bytes. -/
def sLess : (s n : List Byte) → Res Bool
  | [], _ => .ok false
  | _ :: _, [] => .error .ub
  | a :: s, b :: n => if a < b then .ok true else if a > b then .ok false else sLess s n

/-- `is_s_valid`, rsa.hpp:79-125. -/
def isSValid (s n : List Byte) : Res Bool :=
  let sofs := leadZeros s
  if sofs = s.length then .ok true
  else
    let nofs := leadZeros n
    if sofs < nofs then .ok true
    else if s.length - sofs > n.length - nofs then .ok false
    else if s.length - sofs < n.length - nofs then .ok true
    else sLess (s.drop sofs) (n.drop nofs)

/-- `powm` on pointers, rsa.hpp:141-170, with `out_len = out.length`: return value and final content of `out`.  The
conversion of the sizes to `uint32_t` is not modelled (all buffers are below 4 GiB). -/
def powmC (me : ModExp) (base exponent modulus out : List Byte) : Res (Nat × List Byte) := do
  check (base.length != 0 && modulus.length != 0 && exponent.length != 0 && modulus.length != 0)
  check (base.length == modulus.length)
  if out.length = 0 then .ok (base.length, out)
  else do
    check (out.length ≥ base.length)
    match ← me base exponent modulus with
    | some r => .ok (base.length, r ++ out.drop r.length)
    | none => .ok (0, out)

/-- `powm`, rsa.hpp:180-196. -/
def powm (me : ModExp) (base exponent modulus : List Byte) : Res (List Byte) := do
  if exponent.length > 8 then
    check ((exponent.take (exponent.length - 8)).all (· == 0))
  let (_, result) ← powmC me base exponent modulus (List.replicate modulus.length 0)
  .ok result

/-- `rsavp1`, rsa.hpp:198-203. -/
def rsavp1 (me : ModExp) (n e sig : List Byte) : Res (List Byte) := do
  if !(← isSValid sig n) then .ok []
  else powm me sig e n

/-! ## PKCS #1 v1.5 -/

/-- Checked read of a byte. -/
def rdByte (l : List Byte) (i : Nat) : Res Byte :=
  match l[i]? with
  | some b => .ok b
  | none => .error .ub

/-- `memcmp(&l[i], r, len) == 0`: reading outside either buffer is undefined. -/
def memEq (l : List Byte) (i : Nat) (r : List Byte) (j len : Nat) : Res Bool :=
  if i + len ≤ l.length ∧ j + len ≤ r.length then .ok ((l.drop i).take len == (r.drop j).take len) else .error .ub

/-- `rsassa_pkcs1_v1_5_verify<t_len>`, rsa.hpp:205-245; `gen` is what the callback leaves in `t`. -/
def pkcs1Verify (me : ModExp) (tLen : Nat) (n e sig : List Byte) (gen : Res (List Byte)) : Res Bool := do
  if sig.length ≠ n.length then return false
  let em ← rsavp1 me n e sig
  if em.length < tLen + 11 then return false
  if (← rdByte em 0) ≠ 0x00 ∨ (← rdByte em 1) ≠ 0x01 then return false
  let psLen := em.length - tLen - 3
  if (← rdByte em 2) ≠ 0xff ∨ (← rdByte em (2 + psLen)) ≠ 0x00 then return false
  if !(← memEq em 3 em 2 (psLen - 1)) then return false
  let t ← gen
  memEq em (3 + psLen) t 0 t.length

/-- `rsa_1_5_t_generator`, rsa.hpp:249-255, into an array of `tLen` bytes: writing past the array, or reading bytes it
never wrote, is undefined. -/
def genT (tLen : Nat) (pfx digest : List Byte) : Res (List Byte) :=
  if pfx.length + digest.length = tLen then .ok (pfx ++ digest) else .error .ub

/-- `sha1_digest_info_prefix`, rsa.hpp:30-32. -/
def sha1Prefix : List Byte := [0x30, 0x21, 0x30, 0x09, 0x06, 0x05, 0x2B, 0x0E, 0x03, 0x02, 0x1A, 0x05, 0x00, 0x04, 0x14]
/-- `sha256_digest_info_prefix`, rsa.hpp:36-38. -/
def sha256Prefix : List Byte :=
  [0x30, 0x31, 0x30, 0x0D, 0x06, 0x09, 0x60, 0x86, 0x48, 0x01, 0x65, 0x03, 0x04, 0x02, 0x01, 0x05, 0x00, 0x04, 0x20]
/-- `sha384_digest_info_prefix`, rsa.hpp:42-44. -/
def sha384Prefix : List Byte :=
  [0x30, 0x41, 0x30, 0x0D, 0x06, 0x09, 0x60, 0x86, 0x48, 0x01, 0x65, 0x03, 0x04, 0x02, 0x02, 0x05, 0x00, 0x04, 0x30]
/-- `sha512_digest_info_prefix`, rsa.hpp:48-50. -/
def sha512Prefix : List Byte :=
  [0x30, 0x51, 0x30, 0x0D, 0x06, 0x09, 0x60, 0x86, 0x48, 0x01, 0x65, 0x03, 0x04, 0x02, 0x03, 0x05, 0x00, 0x04, 0x40]

/-- `verify_rsa_sha1`, rsa.hpp:356-360; the digest is the 20 bytes of a `hash160`. -/
def verifyRsaSha1 (me : ModExp) (n e digest sig : List Byte) : Res Bool :=
  pkcs1Verify me (sha1Prefix.length + 20) n e sig (genT (sha1Prefix.length + 20) sha1Prefix digest)
/-- `verify_rsa_sha256`, rsa.hpp:386-390. -/
def verifyRsaSha256 (me : ModExp) (n e digest sig : List Byte) : Res Bool :=
  pkcs1Verify me (sha256Prefix.length + 32) n e sig (genT (sha256Prefix.length + 32) sha256Prefix digest)
/-- `verify_rsa_sha384`, rsa.hpp:416-420. -/
def verifyRsaSha384 (me : ModExp) (n e digest sig : List Byte) : Res Bool :=
  pkcs1Verify me (sha384Prefix.length + 48) n e sig (genT (sha384Prefix.length + 48) sha384Prefix digest)
/-- `verify_rsa_sha512`, rsa.hpp:446-450. -/
def verifyRsaSha512 (me : ModExp) (n e digest sig : List Byte) : Res Bool :=
  pkcs1Verify me (sha512Prefix.length + 64) n e sig (genT (sha512Prefix.length + 64) sha512Prefix digest)

/-- `assert_rsa_sha1`, rsa.hpp:371-373. -/
def assertRsaSha1 (me : ModExp) (n e digest sig : List Byte) : Res Unit := do check (← verifyRsaSha1 me n e digest sig)
/-- `assert_rsa_sha256`, rsa.hpp:401-403. -/
def assertRsaSha256 (me : ModExp) (n e digest sig : List Byte) : Res Unit := do check (← verifyRsaSha256 me n e digest sig)
/-- `assert_rsa_sha384`, rsa.hpp:431-433. -/
def assertRsaSha384 (me : ModExp) (n e digest sig : List Byte) : Res Unit := do check (← verifyRsaSha384 me n e digest sig)
/-- `assert_rsa_sha512`, rsa.hpp:461-463. -/
def assertRsaSha512 (me : ModExp) (n e digest sig : List Byte) : Res Unit := do check (← verifyRsaSha512 me n e digest sig)

/-! ## PSS -/

/-- The loop of rsa.hpp:321-326 (`cnt` bytes must be zero) and the test of the byte after them, rsa.hpp:328. -/
def zerosThenOne (em : List Byte) : (cnt : Nat) → (i : Nat) → Res Bool
  | 0, i => do .ok ((← rdByte em i) == 0x01)
  | c + 1, i => do if (← rdByte em i) ≠ 0 then .ok false else zerosThenOne em c (i + 1)

/-- `db[0] &= top_bitmask`, rsa.hpp:320. -/
def andHead (m : Byte) : List Byte → Res (List Byte)
  | [] => .error .ub
  | b :: t => .ok ((b &&& m) :: t)

/-- `rsassa_pss_mgf1_verify<HLen>`, rsa.hpp:272-343, where `size_t` has `W` bits (32 on the wasm target) and the public
key holds an optional salt length.  `em.size() * 8 - embits` is one because `em` has the size of the modulus here. -/
def pssVerify (W : Nat) (me : ModExp) (H : Hash) (hLen : Nat) (n e : List Byte) (saltLen : Option (BitVec 32))
    (digest sig : List Byte) : Res Bool := do
  if sig.length ≠ n.length then return false
  let em ← rsavp1 me n e sig
  let slen := (saltLen.map BitVec.toNat).getD hLen
  let need := (hLen + slen + 2) % 2 ^ W
  if em.length < need then return false
  if (← rdByte em (em.length - 1)) ≠ 0xbc then return false
  let mask := (0xff : Byte) >>> 1
  let e0 ← rdByte em 0
  if e0 &&& 0xff ≠ e0 &&& mask then return false
  if em.length < hLen + 1 then .error .ub
  let dblen := em.length - hLen - 1
  let h := (em.drop dblen).take hLen
  let db ← mgf1 H memxor h (em.take dblen)
  let db ← andHead mask db
  let em := db ++ em.drop dblen
  if !(← zerosThenOne em (em.length - need) 0) then return false
  let mlen := (8 + hLen + slen) % 2 ^ W
  if db.length < slen ∨ mlen < 8 + hLen + slen then .error .ub
  let salt := db.drop (db.length - slen)
  if digest.length ≠ hLen then .error .ub
  let m := List.replicate 8 0 ++ digest ++ salt
  memEq h 0 (H m) 0 hLen

end Ack
