import Verif.Model.Rsa
import Verif.Model.Sha
/-!
# The PSS entry points

Models include/ack/rsa.hpp:464-575.  SHA-1, SHA-256 and SHA-512 are intrinsics of the host (`eosio::sha1`, …): parameters.
SHA-384 is the function of include/ack/sha.hpp.
-/
namespace Ack
open Big (Byte)

/-- The hash functions the host provides, rsa.hpp:55-69. -/
structure HostHash where
  sha1 : Hash
  sha256 : Hash
  sha512 : Hash

/-- `sha384` as the `hashfunc` argument of `rsassa_pss_mgf1_verify`.  Simplification: the function is total here; the model of
sha.hpp never reaches the other branch (`sha384_total` in Proof/Sha.lean). -/
def sha384Hash : Hash := fun m =>
  match Sha.sha384 m with
  | .ok d => d
  | .error _ => []

/-- `verify_rsa_pss_sha1`, rsa.hpp:476-478. -/
def verifyRsaPssSha1 (W : Nat) (me : ModExp) (host : HostHash) (n e : List Byte) (saltLen : Option (BitVec 32)) (digest sig : List Byte) :
    Res Bool :=
  pssVerify W me host.sha1 20 n e saltLen digest sig
/-- `verify_rsa_pss_sha256`, rsa.hpp:504-506. -/
def verifyRsaPssSha256 (W : Nat) (me : ModExp) (host : HostHash) (n e : List Byte) (saltLen : Option (BitVec 32)) (digest sig : List Byte) :
    Res Bool :=
  pssVerify W me host.sha256 32 n e saltLen digest sig
/-- `verify_rsa_pss_sha384`, rsa.hpp:532-534. -/
def verifyRsaPssSha384 (W : Nat) (me : ModExp) (n e : List Byte) (saltLen : Option (BitVec 32)) (digest sig : List Byte) :
    Res Bool :=
  pssVerify W me sha384Hash 48 n e saltLen digest sig
/-- `verify_rsa_pss_sha512`, rsa.hpp:560-562. -/
def verifyRsaPssSha512 (W : Nat) (me : ModExp) (host : HostHash) (n e : List Byte) (saltLen : Option (BitVec 32)) (digest sig : List Byte) :
    Res Bool :=
  pssVerify W me host.sha512 64 n e saltLen digest sig

/-- `assert_rsa_pss_sha1`, rsa.hpp:489-491. -/
def assertRsaPssSha1 (W : Nat) (me : ModExp) (host : HostHash) (n e : List Byte) (saltLen : Option (BitVec 32)) (digest sig : List Byte) :
    Res Unit := do
  check (← verifyRsaPssSha1 W me host n e saltLen digest sig)
/-- `assert_rsa_pss_sha256`, rsa.hpp:517-519. -/
def assertRsaPssSha256 (W : Nat) (me : ModExp) (host : HostHash) (n e : List Byte) (saltLen : Option (BitVec 32)) (digest sig : List Byte) :
    Res Unit := do
  check (← verifyRsaPssSha256 W me host n e saltLen digest sig)
/-- `assert_rsa_pss_sha384`, rsa.hpp:545-547. -/
def assertRsaPssSha384 (W : Nat) (me : ModExp) (n e : List Byte) (saltLen : Option (BitVec 32)) (digest sig : List Byte) :
    Res Unit := do
  check (← verifyRsaPssSha384 W me n e saltLen digest sig)
/-- `assert_rsa_pss_sha512`, rsa.hpp:573-575. -/
def assertRsaPssSha512 (W : Nat) (me : ModExp) (host : HostHash) (n e : List Byte) (saltLen : Option (BitVec 32)) (digest sig : List Byte) :
    Res Unit := do
  check (← verifyRsaPssSha512 W me host n e saltLen digest sig)

end Ack
