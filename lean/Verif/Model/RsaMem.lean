import Verif.Model.Views
import Verif.Model.RsaApi
import Verif.Model.Powm
/-!
# MGF1 and RSA verification in memory (include/ack/mgf.hpp, rsa.hpp)

`Model/Rsa.lean` takes byte strings as lists.  Here keys, signatures and digests are what the caller passes: views, an address and a
length, which may overlap in any way; and the vectors and arrays of the functions are objects in the same flat memory
(`Model/Views.lean`), made where the allocator or the stack has room, and destroyed at the end of their scope.  Reading or writing outside
of an object or of a view, and `memcpy` between parts that overlap, is undefined behaviour.
-/
namespace Ack.View
open Big (Byte)

/-- Programs that read and change memory. -/
abbrev MM := StateT Mem Res

/-- Where a new object of so many bytes is placed, and what bytes are there at first if it is not initialised. -/
abbrev Place := Mem → Nat → Nat × (Nat → Byte)

/-- A step that may fail. -/
def fail {α : Type} (e : Err) : MM α := fun _ => .error e

/-- `rd` as a step. -/
def Spn.read (p : Spn) : MM (List Byte) := fun m => (rd m p.addr p.len).map (·, m)

/-- `p[i]`. -/
def Spn.get (p : Spn) (i : Nat) : MM Byte := fun m =>
  if i < p.len then match m (p.addr + i) with
    | some b => .ok (b, m)
    | none => .error .ub
  else .error .ub

/-- `p[i] = b`. -/
def Spn.put (p : Spn) (i : Nat) (b : Byte) : MM Unit := fun m =>
  if i < p.len then (store m (p.addr + i) [b]).map ((), ·) else .error .ub

/-- `subspan( off, len )`. -/
def Spn.sub (p : Spn) (off len : Nat) : MM Spn := fun m => (St.sub p off len).map (·, m)

/-- `memcpy( dst, src, len )`, where `dst` and `src` are the objects that are left from the pointers on. -/
def memcpy (dst src : Spn) (len : Nat) : MM Unit := fun m =>
  if len ≤ dst.len ∧ len ≤ src.len then
    if len = 0 ∨ dst.addr + len ≤ src.addr ∨ src.addr + len ≤ dst.addr then do
      let l ← rd m src.addr len
      (store m dst.addr l).map ((), ·)
    else .error .ub
  else .error .ub

/-- `memcmp( a, b, len ) == 0`. -/
def memcmpEq (a b : Spn) (len : Nat) : MM Bool := fun m =>
  if len ≤ a.len ∧ len ≤ b.len then do
    let x ← rd m a.addr len
    let y ← rd m b.addr len
    .ok (x == y, m)
  else .error .ub

/-- A new object with given bytes. -/
def fresh' (A : Place) (l : List Byte) : MM Spn := fun m =>
  .ok (⟨(A m l.length).1, l.length⟩, create m (A m l.length).1 l)

/-- A new object of `n` bytes that is not initialised. -/
def rawObj (A : Place) (n : Nat) : MM Spn := fun m =>
  .ok (⟨(A m n).1, n⟩, create m (A m n).1 ((List.range n).map (A m n).2))

/-- The object is destroyed. -/
def free (p : Spn) : MM Unit := fun m => .ok ((), wipe m p.addr p.len)

/-! ## MGF1 -/

/-- The loop of `mgf1`, mgf.hpp:27-45; `hashfunc( … ).extract_as_byte_array()` is an array of its own. -/
def mgf1LoopM (A : Place) (H : Hash) (copy : Spn → Spn → Nat → MM Unit) (seed buf : Spn) :
    (fuel : Nat) → (mask : Spn) → (outLen : Nat) → (counter : BitVec 32) → MM Unit
  | 0, _, _, _ => fail .fuel
  | f + 1, mask, outLen, counter =>
    if outLen = 0 then pure ()
    else do
      memcpy buf seed seed.len
      buf.put seed.len ((counter >>> 24 &&& 0xff).setWidth 8)
      buf.put (seed.len + 1) ((counter >>> 16 &&& 0xff).setWidth 8)
      buf.put (seed.len + 2) ((counter >>> 8 &&& 0xff).setWidth 8)
      buf.put (seed.len + 3) ((counter &&& 0xff).setWidth 8)
      let x ← buf.read
      let digest ← fresh' A (H x)
      let copied := min digest.len outLen
      copy mask digest copied
      free digest
      let mask ← mask.sub copied (mask.len - copied)
      mgf1LoopM A H copy seed buf f mask (outLen - copied) (counter + 1)

/-- `mgf1`, mgf.hpp:19-46. -/
def mgf1M (A : Place) (H : Hash) (copy : Spn → Spn → Nat → MM Unit) (seed mask : Spn) : MM Unit := do
  let buf ← rawObj A (seed.len + 4)
  mgf1LoopM A H copy seed buf (mask.len + 1) mask mask.len 0
  free buf

/-- `memxor` as a step. -/
def xorM (dst src : Spn) (num : Nat) : MM Unit := fun m => (memxor m dst src num).map ((), ·)

/-! ## RSA primitives -/

/-- The loops of rsa.hpp:81-84 and 92-95: how many zero bytes, of `k` bytes from `a`. -/
def leadZerosM (m : Mem) : (k a : Nat) → Res Nat
  | 0, _ => .ok 0
  | k + 1, a => match m a with
    | none => .error .ub
    | some b => if b = 0 then do
        let r ← leadZerosM m k (a + 1)
        .ok (r + 1)
      else .ok 0

/-- The comparison loop of `is_s_valid`, rsa.hpp:114-124, with `k` bytes of `s` from `a` left and `j` bytes of `n` from `b`. -/
def sLessM (m : Mem) : (k j a b : Nat) → Res Bool
  | 0, _, _, _ => .ok false
  | _ + 1, 0, _, _ => .error .ub
  | k + 1, j + 1, a, b => match m a, m b with
    | some x, some y => if x < y then .ok true else if x > y then .ok false else sLessM m k j (a + 1) (b + 1)
    | _, _ => .error .ub

/-- `is_s_valid`, rsa.hpp:79-125. -/
def isSValidM (s n : Spn) : MM Bool := fun m => do
  let sofs ← leadZerosM m s.len s.addr
  if sofs = s.len then .ok (true, m)
  else do
    let nofs ← leadZerosM m n.len n.addr
    if sofs < nofs then .ok (true, m)
    else if s.len - sofs > n.len - nofs then .ok (false, m)
    else if s.len - sofs < n.len - nofs then .ok (true, m)
    else do
      let b ← sLessM m (s.len - sofs) (n.len - nofs) (s.addr + sofs) (n.addr + nofs)
      .ok (b, m)

/-- `powm` on pointers, rsa.hpp:141-170.  The modular exponentiation is a parameter; it writes its result to the front of `out`. -/
def powmCM (me : ModExp) (base exponent modulus out : Spn) : MM Nat := do
  check (base.len != 0 && modulus.len != 0 && exponent.len != 0 && modulus.len != 0)
  check (base.len == modulus.len)
  if out.len = 0 then pure base.len
  else do
    check (out.len ≥ base.len)
    let b ← base.read
    let e ← exponent.read
    let n ← modulus.read
    match ← (me b e n : Res _) with
    | some r =>
      if r.length ≤ out.len then
        (fun m => (store m out.addr r).map ((), ·) : MM Unit)
        pure base.len
      else fail .ub
    | none => pure 0

/-- `powm`, rsa.hpp:180-196: the vector that is returned. -/
def powmM (A : Place) (me : ModExp) (base exponent modulus : Spn) : MM Spn := do
  if exponent.len > 8 then
    let l ← (⟨exponent.addr, exponent.len - 8⟩ : Spn).read
    check (l.all (· == 0))
  let result ← fresh' A (List.replicate modulus.len 0)
  let _ ← powmCM me base exponent modulus result
  pure result

/-- `rsavp1`, rsa.hpp:198-203: the vector that is returned. -/
def rsavp1M (A : Place) (me : ModExp) (n e sig : Spn) : MM Spn := do
  if !(← isSValidM sig n) then fresh' A []
  else powmM A me sig e n

/-! ## PKCS #1 v1.5 -/

/-- `rsassa_pkcs1_v1_5_verify`, rsa.hpp:212-244, on the vector `em`; the callback `gen` fills the array it is given. -/
def pkcs1Body (A : Place) (tLen : Nat) (em : Spn) (gen : Spn → MM Unit) : MM Bool := do
  if em.len < tLen + 11 then return false
  if (← em.get 0) ≠ 0x00 ∨ (← em.get 1) ≠ 0x01 then return false
  let psLen := em.len - tLen - 3
  if (← em.get 2) ≠ 0xff ∨ (← em.get (2 + psLen)) ≠ 0x00 then return false
  if !(← memcmpEq (← em.sub 3 (em.len - 3)) (← em.sub 2 (em.len - 2)) (psLen - 1)) then return false
  let t ← rawObj A tLen
  gen t
  let r ← memcmpEq (← em.sub (3 + psLen) (em.len - (3 + psLen))) t t.len
  free t
  return r

/-- `rsassa_pkcs1_v1_5_verify`, rsa.hpp:205-245. -/
def pkcs1VerifyM (A : Place) (me : ModExp) (tLen : Nat) (n e sig : Spn) (gen : Spn → MM Unit) : MM Bool := do
  if sig.len ≠ n.len then return false
  let em ← rsavp1M A me n e sig
  let r ← pkcs1Body A tLen em gen
  free em
  return r

/-- `rsa_1_5_t_generator`, rsa.hpp:249-255: `digest.extract_as_byte_array()` is an array of its own. -/
def genTM (A : Place) (pfx digest : Spn) (t : Spn) : MM Unit := do
  memcpy t pfx pfx.len
  let l ← digest.read
  let hash ← fresh' A l
  let dst ← t.sub pfx.len (t.len - pfx.len)
  memcpy dst hash hash.len
  free hash

/-- The four `verify_rsa_sha…` functions, rsa.hpp:356-360, 386-390, 416-420, 446-450: the prefix is a constant of the program and is copied
into a parameter of `rsa_1_5_t_generator`; the digest is an object of the caller. -/
def verifyRsaM (A : Place) (me : ModExp) (pfx : List Byte) (hLen : Nat) (n e digest sig : Spn) : MM Bool :=
  pkcs1VerifyM A me (pfx.length + hLen) n e sig fun t => do
    let p ← fresh' A pfx
    genTM A p digest t
    free p

/-- `verify_rsa_sha1`, rsa.hpp:356-360. -/
def verifyRsaSha1M (A : Place) (me : ModExp) (n e digest sig : Spn) : MM Bool := verifyRsaM A me sha1Prefix 20 n e digest sig
/-- `verify_rsa_sha256`, rsa.hpp:386-390. -/
def verifyRsaSha256M (A : Place) (me : ModExp) (n e digest sig : Spn) : MM Bool := verifyRsaM A me sha256Prefix 32 n e digest sig
/-- `verify_rsa_sha384`, rsa.hpp:416-420. -/
def verifyRsaSha384M (A : Place) (me : ModExp) (n e digest sig : Spn) : MM Bool := verifyRsaM A me sha384Prefix 48 n e digest sig
/-- `verify_rsa_sha512`, rsa.hpp:446-450. -/
def verifyRsaSha512M (A : Place) (me : ModExp) (n e digest sig : Spn) : MM Bool := verifyRsaM A me sha512Prefix 64 n e digest sig

/-! ## PSS -/

/-- The loop of rsa.hpp:321-326 and the test of the byte after it, rsa.hpp:328. -/
def zerosThenOneM (em : Spn) : (cnt : Nat) → (i : Nat) → MM Bool
  | 0, i => do return (← em.get i) == 0x01
  | c + 1, i => do if (← em.get i) ≠ 0 then return false else zerosThenOneM em c (i + 1)

/-- The end of `rsassa_pss_mgf1_verify`, rsa.hpp:333-342: M' is made of the digest and the salt, and its hash compared with `h`. -/
def pssEnd (A : Place) (W : Nat) (H : Hash) (hLen slen : Nat) (db h digest : Spn) : MM Bool := do
  let m ← fresh' A (List.replicate ((8 + hLen + slen) % 2 ^ W) 0)
  let salt ← db.sub (db.len - slen) slen
  let l ← digest.read
  let hash ← fresh' A l
  let dst ← m.sub 8 (m.len - 8)
  memcpy dst hash hLen
  free hash
  let dst ← m.sub (8 + hLen) (m.len - (8 + hLen))
  memcpy dst salt slen
  let x ← m.read
  let h2 ← fresh' A (H x)
  let r ← memcmpEq h h2 hLen
  free h2
  free m
  return r

/-- The middle of `rsassa_pss_mgf1_verify`, rsa.hpp:308-331: `em` is changed in place, under the view `h` of its end.  `db.size() - slen` and
the size of M' wrap around; then the subspan, or the copy, is outside. -/
def pssOpen (A : Place) (W : Nat) (H : Hash) (hLen slen need : Nat) (em digest : Spn) : MM Bool := do
  let dblen := em.len - hLen - 1
  let db ← em.sub 0 dblen
  let h ← em.sub dblen hLen
  mgf1M A H xorM h db
  let b ← db.get 0
  db.put 0 (b &&& (0xff : Byte) >>> 1)
  if !(← zerosThenOneM em (em.len - need) 0) then return false
  else if db.len < slen ∨ (8 + hLen + slen) % 2 ^ W < 8 + hLen + slen then fail .ub
  else pssEnd A W H hLen slen db h digest

/-- `rsassa_pss_mgf1_verify`, rsa.hpp:287-342, on the vector `em`; for `embits` see `pssVerify`. -/
def pssBody (A : Place) (W : Nat) (H : Hash) (hLen : Nat) (em : Spn) (saltLen : Option (BitVec 32)) (digest : Spn) : MM Bool := do
  let slen := (saltLen.map BitVec.toNat).getD hLen
  let need := (hLen + slen + 2) % 2 ^ W
  if em.len < need then return false
  if (← em.get (em.len - 1)) ≠ 0xbc then return false
  let mask := (0xff : Byte) >>> 1
  let e0 ← em.get 0
  if e0 &&& 0xff ≠ e0 &&& mask then return false
  if em.len < hLen + 1 then fail .ub else pssOpen A W H hLen slen need em digest

/-- `rsassa_pss_mgf1_verify`, rsa.hpp:272-343. -/
def pssVerifyM (A : Place) (W : Nat) (me : ModExp) (H : Hash) (hLen : Nat) (n e : Spn) (saltLen : Option (BitVec 32)) (digest sig : Spn) : MM Bool := do
  if sig.len ≠ n.len then return false
  let em ← rsavp1M A me n e sig
  let r ← pssBody A W H hLen em saltLen digest
  free em
  return r

/-- `verify_rsa_pss_sha1`, rsa.hpp:476-478. -/
def verifyRsaPssSha1M (A : Place) (W : Nat) (me : ModExp) (host : HostHash) (n e : Spn) (saltLen : Option (BitVec 32)) (digest sig : Spn) : MM Bool :=
  pssVerifyM A W me host.sha1 20 n e saltLen digest sig
/-- `verify_rsa_pss_sha256`, rsa.hpp:504-506. -/
def verifyRsaPssSha256M (A : Place) (W : Nat) (me : ModExp) (host : HostHash) (n e : Spn) (saltLen : Option (BitVec 32)) (digest sig : Spn) : MM Bool :=
  pssVerifyM A W me host.sha256 32 n e saltLen digest sig
/-- `verify_rsa_pss_sha384`, rsa.hpp:532-534.  Simplification: the variables of `sha384` are not in this memory. -/
def verifyRsaPssSha384M (A : Place) (W : Nat) (me : ModExp) (n e : Spn) (saltLen : Option (BitVec 32)) (digest sig : Spn) : MM Bool :=
  pssVerifyM A W me sha384Hash 48 n e saltLen digest sig
/-- `verify_rsa_pss_sha512`, rsa.hpp:560-562. -/
def verifyRsaPssSha512M (A : Place) (W : Nat) (me : ModExp) (host : HostHash) (n e : Spn) (saltLen : Option (BitVec 32)) (digest sig : Spn) : MM Bool :=
  pssVerifyM A W me host.sha512 64 n e saltLen digest sig

end Ack.View
