import Verif.Model.Ecdsa
import Verif.Model.Named
import Verif.Model.RsaApi
/-!
# The example contract

Models the signature-checking actions of examples/helloack/src/helloack.cpp:16-158.  The arguments of an action are the byte
strings in its serialised data (decoding: `Model/Utils.lean`).  The benchmark actions (`bt_*`, 160-395), which run the same
functions on constants, are not modelled.  SHA-1, SHA-256 and SHA-512 are intrinsics of the host.
-/
namespace Ack
open Big (Byte)

/-- The text common to the eight ECDSA actions, helloack.cpp:16-94: the coordinates are converted to integers and made a point
(without `verify`), the message is hashed, and `assert_ecdsa` runs on the digest and the two integers. -/
def checkEcdsa (cap : Cap) (c : Curve) (H : Hash) (qx qy msg r s : List Byte) : Res Unit := do
  let x ← Big.ofBytes cap qx
  let y ← Big.ofBytes cap qy
  let pub ← c.makePoint cap x y false
  let h := H msg
  let r ← Big.ofBytes cap r
  let s ← Big.ofBytes cap s
  assertEcdsa cap pub h r s

/-- The ECDSA actions by their names on chain, helloack.hpp:18-109. -/
inductive EcdsaAction
  | ecdsabr1 | ecdsabr132 | ecdsabr13 | ecdsabr15 | ecdsak1 | ecdsar1 | ecdsar13 | ecdsar15
deriving DecidableEq

/-- The curve an action names, helloack.cpp:16-94. -/
def EcdsaAction.curve : EcdsaAction → Named
  | .ecdsabr1 => .brainpoolP256r1
  | .ecdsabr132 => .brainpoolP320r1
  | .ecdsabr13 => .brainpoolP384r1
  | .ecdsabr15 => .brainpoolP512r1
  | .ecdsak1 => .secp256k1
  | .ecdsar1 => .secp256r1
  | .ecdsar13 => .secp384r1
  | .ecdsar15 => .secp521r1

/-- The hash function an action names, helloack.cpp:16-94. -/
def EcdsaAction.hash (host : HostHash) : EcdsaAction → Hash
  | .ecdsabr1 => host.sha256
  | .ecdsabr132 => sha384Hash
  | .ecdsabr13 => sha384Hash
  | .ecdsabr15 => host.sha512
  | .ecdsak1 => host.sha256
  | .ecdsar1 => host.sha256
  | .ecdsar13 => sha384Hash
  | .ecdsar15 => host.sha512

/-- An ECDSA action, helloack.cpp:16-94; the curve objects are global constants (ec_curve.hpp), here built first. -/
def EcdsaAction.run (wasm : Bool) (addr : Nat) (host : HostHash) (a : EcdsaAction) (qx qy msg r s : List Byte) : Res Unit := do
  let c ← a.curve.params.build wasm addr
  checkEcdsa (a.curve.params.cap wasm) c (a.hash host) qx qy msg r s

/-- The RSA actions, helloack.hpp:112-189; `sha34` in the names on chain is SHA-384, `sha2` is SHA-256. -/
inductive RsaAction
  | sha1 | sha2 | sha34 | sha512
deriving DecidableEq

/-- The actions `rsasha1`, `rsasha2`, `rsasha34`, `rsasha512`, helloack.cpp:96-102, 112-118, 128-134, 144-150. -/
def RsaAction.run (me : ModExp) (host : HostHash) (a : RsaAction) (n e msg sig : List Byte) : Res Unit :=
  match a with
  | .sha1 => assertRsaSha1 me n e (host.sha1 msg) sig
  | .sha2 => assertRsaSha256 me n e (host.sha256 msg) sig
  | .sha34 => assertRsaSha384 me n e (sha384Hash msg) sig
  | .sha512 => assertRsaSha512 me n e (host.sha512 msg) sig

/-- The actions `rsapsssha1`, `rsapsssha2`, `rsapsssha34`, `rsapsssha512`, helloack.cpp:104-110, 120-126, 136-142, 152-158. -/
def RsaAction.runPss (W : Nat) (me : ModExp) (host : HostHash) (a : RsaAction) (n e : List Byte) (saltLen : Option (BitVec 32))
    (msg sig : List Byte) : Res Unit :=
  match a with
  | .sha1 => assertRsaPssSha1 W me host n e saltLen (host.sha1 msg) sig
  | .sha2 => assertRsaPssSha256 W me host n e saltLen (host.sha256 msg) sig
  | .sha34 => assertRsaPssSha384 W me n e saltLen (sha384Hash msg) sig
  | .sha512 => assertRsaPssSha512 W me host n e saltLen (host.sha512 msg) sig

end Ack
