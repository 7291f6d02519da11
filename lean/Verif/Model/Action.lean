import Verif.Model.Utils
import Verif.Model.Contract
/-!
# Serialised keys and the data of an action

Keys as `EOSLIB_SERIALIZE` writes and reads them (include/ack/public_key.hpp: the members in the order of the macro), and the actions of
examples/helloack on the data they are sent: the dispatcher reads the parameters in the order of the declaration and ignores what
follows.  `eosio::datastream`, `unsigned_int`, `std::vector` and `std::optional` on streams and the dispatcher are not part of the
repository; they are modelled from the documented EOSIO wire format (an optional: a byte, not zero if a value follows).
-/
namespace Ack
open Big (Byte)

/-- `k` byte views in a row, types.hpp:44-53. -/
def readViews : (k : Nat) → List Byte → Res (List (List Byte) × List Byte)
  | 0, st => .ok ([], st)
  | k + 1, st => do
    let (d, st) ← deserView st
    let (ds, st) ← readViews k st
    .ok (d :: ds, st)

/-- Byte views in a row, types.hpp:38-42. -/
def writeViews : List (List Byte) → Res (List Byte)
  | [] => .ok []
  | d :: ds => do
    let l ← serView d
    let t ← writeViews ds
    .ok (l ++ t)

/-- `std::optional<eosio::unsigned_int>` to a stream. -/
def writeOpt : Option (BitVec 32) → Res (List Byte)
  | none => .ok [0]
  | some v => do
    let l ← putVar 6 v.toNat
    .ok (1 :: l)

/-- `std::optional<eosio::unsigned_int>` from a stream. -/
def readOpt : List Byte → Res (Option (BitVec 32) × List Byte)
  | [] => .error .abort
  | b :: st =>
    if b = 0 then .ok (none, st)
    else do
      let (v, st) ← getVar 6 0 0 st
      .ok (some v, st)

/-- `rsa_pss_public_key` and `rsa_pss_public_key_view` to a stream, public_key.hpp:51, 112: modulus, exponent, salt length. -/
def writePssKey (n e : List Byte) (salt : Option (BitVec 32)) : Res (List Byte) := do
  let l ← writeViews [n, e]
  let o ← writeOpt salt
  .ok (l ++ o)

/-- `rsa_public_key_view` from a stream, public_key.hpp:71. -/
def readKeyView (st : List Byte) : Res ((List Byte × List Byte) × List Byte) := do
  let (n, st) ← deserView st
  let (e, st) ← deserView st
  .ok ((n, e), st)

/-- `rsa_pss_public_key_view` from a stream, public_key.hpp:112. -/
def readPssKeyView (st : List Byte) : Res ((List Byte × List Byte × Option (BitVec 32)) × List Byte) := do
  let (n, st) ← deserView st
  let (e, st) ← deserView st
  let (o, st) ← readOpt st
  .ok ((n, e, o), st)

/-- `std::vector<uint8_t>` from a stream: unlike a view, the bytes are read, and reading past the end aborts. -/
def deserBytes (st : List Byte) : Res (List Byte × List Byte) := do
  let (n, t) ← getVar 6 0 0 st
  if n.toNat ≤ t.length then .ok (t.take n.toNat, t.drop n.toNat) else .error .abort

/-- `rsa_pss_public_key` from a stream, public_key.hpp:51. -/
def readPssKey (st : List Byte) : Res ((List Byte × List Byte × Option (BitVec 32)) × List Byte) := do
  let (n, st) ← deserBytes st
  let (e, st) ← deserBytes st
  let (o, st) ← readOpt st
  .ok ((n, e, o), st)

/-- An ECDSA action on its data, helloack.hpp:18-109: qx, qy, msg, r, s. -/
def EcdsaAction.onData (wasm : Bool) (addr : Nat) (host : HostHash) (a : EcdsaAction) (data : List Byte) : Res Unit := do
  let (qx, st) ← deserView data
  let (qy, st) ← deserView st
  let (msg, st) ← deserView st
  let (r, st) ← deserView st
  let (s, _) ← deserView st
  a.run wasm addr host qx qy msg r s

/-- An RSA action (PKCS #1 v1.5) on its data, helloack.hpp:112-189: pubkey, msg, sig. -/
def RsaAction.onData (me : ModExp) (host : HostHash) (a : RsaAction) (data : List Byte) : Res Unit := do
  let ((n, e), st) ← readKeyView data
  let (msg, st) ← deserView st
  let (sig, _) ← deserView st
  a.run me host n e msg sig

/-- An RSA action (PSS) on its data, helloack.hpp:112-189: pubkey, msg, sig. -/
def RsaAction.onDataPss (W : Nat) (me : ModExp) (host : HostHash) (a : RsaAction) (data : List Byte) : Res Unit := do
  let ((n, e, salt), st) ← readPssKeyView data
  let (msg, st) ← deserView st
  let (sig, _) ← deserView st
  a.runPss W me host n e salt msg sig

end Ack
