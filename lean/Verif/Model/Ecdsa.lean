import Verif.Model.Ec
/-!
# ECDSA (include/ack/ecdsa.hpp)

Messages are byte lists.  The overloads taking `hash_t` (72-79, 113-118, 210-219) pass the bytes of the digest on and are
the same functions.
-/
namespace Ack
open Big

/-- The integer made of the message, ecdsa.hpp:37-40 and 156-159 (the same text): the first `min(n.byte_length(), size)`
bytes, reduced by one conditional subtraction.  `e -= n` is written `sub`; here `e > n > 0`, and the words are read before
they are overwritten (bigint.hpp usub). -/
def msgInt (cap : Cap) (n : Big) (msg : List Byte) : Res Big := do
  let e ← ofBytes cap (msg.take (min n.byteLength msg.length))
  .ok (if opGt e n then sub cap e n else e)

/-- `ecdsa_verify`, ecdsa.hpp:25-57. -/
def ecdsaVerify (cap : Cap) (q : APt) (msg : List Byte) (r s : Big) : Res Bool :=
  if q.isIdentity then .ok false
  else do
    let c ← curveOf q.curve
    if ltS r 1 || opGe r c.n || ltS s 1 || opGe s c.n then .ok false
    else do
      let e ← msgInt cap c.n msg
      let w ← modinv cap s c.n
      let u1 ← mod cap (mul cap e w) c.n
      let u2 ← mod cap (mul cap r w) c.n
      let jg ← JPt.ofAffine c.g
      let jq ← JPt.ofAffine q
      let j ← mulAddFast cap (JPt.ops cap) u1 jg u2 jq
      let R ← j.toAffine cap
      if R.isIdentity then .ok false
      else do
        let x ← (if opGe R.x.v c.n then R.x.subB cap c.n else .ok R.x)
        .ok (opEq x.v r)

/-- `assert_ecdsa`, ecdsa.hpp:93-98. -/
def assertEcdsa (cap : Cap) (q : APt) (msg : List Byte) (r s : Big) : Res Unit := do
  let b ← ecdsaVerify cap q msg r s
  check b

/-- `ecdsa_recover`, ecdsa.hpp:139-188; `recid` ranges over `size_t`. -/
def ecdsaRecover (cap : Cap) (c : Curve) (msg : List Byte) (r s : Big) (recid : BitVec 64) (verify : Bool) : Res APt :=
  if ltS r 1 || opGe r c.n || ltS s 1 || opGe s c.n || (recid &&& 3) != recid then .ok APt.identity
  else
    let yodd := (recid &&& 1) != 0
    let secondKey := (recid >>> 1) != 0
    if secondKey && opGe r c.pMinusN then .ok APt.identity
    else do
      let e ← msgInt cap c.n msg
      let R ← (if secondKey then c.decompressInt cap (add cap r c.n) yodd false else c.decompressInt cap r yodd false)
      if R.isIdentity then .ok R
      else do
        let bad ← (if verify then do
          let t ← R.mul cap c.n
          .ok !t.isIdentity
          else .ok false)
        if bad then .ok APt.identity
        else do
          let w ← modinv cap r c.n
          let ew ← mod cap (mul cap (sub cap c.n e) w) c.n
          let sw ← mod cap (mul cap s w) c.n
          let jg ← JPt.ofAffine c.g
          let jr ← JPt.ofAffine R
          let j ← mulAddFast cap (JPt.ops cap) ew jg sw jr
          j.toAffine cap

end Ack
