import Verif.Model.Utils
/-!
# Model of sha.hpp

A message is a byte list; `data.size()` is its length, a 64-bit number.  Pointers into a buffer are the rest of the list.
Reading past the data, past an array, or bytes of the padding block that were never written is undefined behaviour.
`byte_t` values of 128 and more are shifted into the sign bit in `read_u32be`, sha.hpp:82, which C++14 and later define.
-/
namespace Ack.Sha
open Ack.Big (Byte)

abbrev W64 := BitVec 64

/-- Checked read of an array of words. -/
def rd (l : List W64) (i : Nat) : Res W64 :=
  match l[i]? with
  | some w => .ok w
  | none => .error .ub

/-- Checked write of an array of words. -/
def wr (l : List W64) (i : Nat) (w : W64) : Res (List W64) := if i < l.length then .ok (l.set i w) else .error .ub

/-- Checked read of a byte. -/
def rdB (l : List Byte) (i : Nat) : Res Byte :=
  match l[i]? with
  | some b => .ok b
  | none => .error .ub

/-- `sha384_initial_hash_values`, sha.hpp:33-42. -/
def initial384 : List W64 := [0xcbbb9d5dc1059ed8, 0x629a292a367cd507, 0x9159015a3070dd17, 0x152fecd8f70e5939,
  0x67332667ffc00b31, 0x8eb44a8768581511, 0xdb0c2e0d64f98fa7, 0x47b5481dbefa4fa4]

/-- `K_512`, sha.hpp:44-65. -/
def K512 : List W64 := [
  0x428a2f98d728ae22, 0x7137449123ef65cd, 0xb5c0fbcfec4d3b2f, 0xe9b5dba58189dbbc,
  0x3956c25bf348b538, 0x59f111f1b605d019, 0x923f82a4af194f9b, 0xab1c5ed5da6d8118,
  0xd807aa98a3030242, 0x12835b0145706fbe, 0x243185be4ee4b28c, 0x550c7dc3d5ffb4e2,
  0x72be5d74f27b896f, 0x80deb1fe3b1696b1, 0x9bdc06a725c71235, 0xc19bf174cf692694,
  0xe49b69c19ef14ad2, 0xefbe4786384f25e3, 0x0fc19dc68b8cd5b5, 0x240ca1cc77ac9c65,
  0x2de92c6f592b0275, 0x4a7484aa6ea6e483, 0x5cb0a9dcbd41fbd4, 0x76f988da831153b5,
  0x983e5152ee66dfab, 0xa831c66d2db43210, 0xb00327c898fb213f, 0xbf597fc7beef0ee4,
  0xc6e00bf33da88fc2, 0xd5a79147930aa725, 0x06ca6351e003826f, 0x142929670a0e6e70,
  0x27b70a8546d22ffc, 0x2e1b21385c26c926, 0x4d2c6dfc5ac42aed, 0x53380d139d95b3df,
  0x650a73548baf63de, 0x766a0abb3c77b2a8, 0x81c2c92e47edaee6, 0x92722c851482353b,
  0xa2bfe8a14cf10364, 0xa81a664bbc423001, 0xc24b8b70d0f89791, 0xc76c51a30654be30,
  0xd192e819d6ef5218, 0xd69906245565a910, 0xf40e35855771202a, 0x106aa07032bbd1b8,
  0x19a4c116b8d2d0c8, 0x1e376c085141ab53, 0x2748774cdf8eeb99, 0x34b0bcb5e19b48a8,
  0x391c0cb3c5c95a63, 0x4ed8aa4ae3418acb, 0x5b9cca4f7763e373, 0x682e6ff3d6b2b8a3,
  0x748f82ee5defb2fc, 0x78a5636f43172f60, 0x84c87814a1f0ab72, 0x8cc702081a6439ec,
  0x90befffa23631e28, 0xa4506cebde82bde9, 0xbef9a3f7b2c67915, 0xc67178f2e372532b,
  0xca273eceea26619c, 0xd186b8c721c0c207, 0xeada7dd6cde0eb1e, 0xf57d4f7fee6ed178,
  0x06f067aa72176fba, 0x0a637dc5a2c898a6, 0x113f9804bef90dae, 0x1b710b35131c471b,
  0x28db77f523047d84, 0x32caab7b40c72493, 0x3c9ebe0a15c9bebc, 0x431d67c49c100d4c,
  0x4cc5d4becb3e42b6, 0x597f299cfc657e2a, 0x5fcb6fab3ad6faec, 0x6c44198c4a475817]

/-- `write_u64le`, sha.hpp:67-77: the eight bytes written (big-endian, despite the name). -/
def writeU64 (x : W64) : List Byte :=
  [((x >>> 56) &&& 0xff).setWidth 8, ((x >>> 48) &&& 0xff).setWidth 8, ((x >>> 40) &&& 0xff).setWidth 8,
   ((x >>> 32) &&& 0xff).setWidth 8, ((x >>> 24) &&& 0xff).setWidth 8, ((x >>> 16) &&& 0xff).setWidth 8,
   ((x >>> 8) &&& 0xff).setWidth 8, (x &&& 0xff).setWidth 8]

/-- `read_u32be`, sha.hpp:79-87, at `src + i`. -/
def readU32 (src : List Byte) (i : Nat) : Res Word := do
  .ok (((← rdB src i).setWidth 32 <<< 24) ||| ((← rdB src (i + 1)).setWidth 32 <<< 16) |||
    ((← rdB src (i + 2)).setWidth 32 <<< 8) ||| (← rdB src (i + 3)).setWidth 32)

/-- `read_u64be`, sha.hpp:89-94, at `src + i`. -/
def readU64 (src : List Byte) (i : Nat) : Res W64 := do
  let upper : W64 := (← readU32 src i).setWidth 64
  let lower : W64 := (← readU32 src (i + 4)).setWidth 64
  .ok (((upper &&& 0xffffffff) <<< 32) ||| (lower &&& 0xffffffff))

/-- `ROTR`, sha.hpp:96-102. -/
def ROTR (x n : W64) : W64 := (x >>> n.toNat) ||| (x <<< (-n &&& 63).toNat)

/-- `Ch`, sha.hpp:105-107. -/
def Ch (x y z : W64) : W64 := (x &&& y) ^^^ (~~~x &&& z)
/-- `Maj`, sha.hpp:110-112. -/
def Maj (x y z : W64) : W64 := (x &&& y) ^^^ (x &&& z) ^^^ (y &&& z)
/-- `SIG0_512`, sha.hpp:116-118. -/
def SIG0 (x : W64) : W64 := ROTR x 28 ^^^ ROTR x 34 ^^^ ROTR x 39
/-- `SIG1_512`, sha.hpp:122-124. -/
def SIG1 (x : W64) : W64 := ROTR x 14 ^^^ ROTR x 18 ^^^ ROTR x 41
/-- `sig0_512`, sha.hpp:128-130. -/
def sig0 (x : W64) : W64 := ROTR x 1 ^^^ ROTR x 8 ^^^ (x >>> 7)
/-- `sig1_512`, sha.hpp:134-136. -/
def sig1 (x : W64) : W64 := ROTR x 19 ^^^ ROTR x 61 ^^^ (x >>> 6)

/-- `sha512_prepare`, sha.hpp:138-141. -/
def prepare (W : List W64) (t : Nat) : Res (List W64) := do
  wr W t ((← rd W (t - 7)) + (← rd W (t - 16)) + sig0 (← rd W (t - 15)) + sig1 (← rd W (t - 2)))

/-- The loop sha.hpp:155-157, from word `t`; `n` words remain. -/
def loadLoop (data : List Byte) : (n t : Nat) → (W : List W64) → Res (List W64)
  | 0, _, W => .ok W
  | n + 1, t, W => do loadLoop data n (t + 1) (← wr W t (← readU64 data (t * 8)))

/-- The loop sha.hpp:160-169, taken one `sha512_prepare` at a time. -/
def prepLoop : (n t : Nat) → (W : List W64) → Res (List W64)
  | 0, _, W => .ok W
  | n + 1, t, W => do prepLoop n (t + 1) (← prepare W t)

/-- The working variables, sha.hpp:171-178. -/
structure Vars where
  a : W64
  b : W64
  c : W64
  d : W64
  e : W64
  f : W64
  g : W64
  h : W64
deriving DecidableEq, Repr

/-- The lambda `round`, sha.hpp:180-192. -/
def round (W : List W64) (t : Nat) (v : Vars) : Res Vars := do
  let T1 := Ch v.e v.f v.g + (← rd W t) + (← rd K512 t) + v.h + SIG1 v.e
  let T2 := Maj v.a v.b v.c + SIG0 v.a
  .ok { h := v.g, g := v.f, f := v.e, e := v.d + T1, d := v.c, c := v.b, b := v.a, a := T1 + T2 }

/-- The loop sha.hpp:195-204, taken one round at a time. -/
def roundLoop (W : List W64) : (n t : Nat) → (v : Vars) → Res Vars
  | 0, _, v => .ok v
  | n + 1, t, v => do roundLoop W n (t + 1) (← round W t v)

/-- `sha512_compress`, sha.hpp:152-214: the array `H` afterwards. -/
def compress (data : List Byte) (H : List W64) : Res (List W64) := do
  let W ← loadLoop data 16 0 (List.replicate 80 0)
  let W ← prepLoop 64 16 W
  let v : Vars := { a := ← rd H 0, b := ← rd H 1, c := ← rd H 2, d := ← rd H 3, e := ← rd H 4, f := ← rd H 5, g := ← rd H 6, h := ← rd H 7 }
  let v ← roundLoop W 80 0 v
  .ok [(← rd H 0) + v.a, (← rd H 1) + v.b, (← rd H 2) + v.c, (← rd H 3) + v.d, (← rd H 4) + v.e, (← rd H 5) + v.f,
    (← rd H 6) + v.g, (← rd H 7) + v.h]

/-- The loop sha.hpp:224-228: the hash state and the data that is left. -/
def blockLoop : (fuel : Nat) → (data : List Byte) → (H : List W64) → Res (List W64 × List Byte)
  | 0, _, _ => .error .fuel
  | f + 1, data, H =>
    if data.length ≥ 128 then do blockLoop f (data.drop 128) (← compress data H)
    else .ok (H, data)

/-- `sha512_compute`, sha.hpp:218-262.  The padding block is the list of its bytes written so far. -/
def sha512Compute (s : List W64) (data : List Byte) : Res (List Byte) := do
  let size : W64 := BitVec.ofNat 64 data.length
  let bitLow := size <<< 3
  let bitHigh := size >>> (64 - 3)
  let (H, rest) ← blockLoop (data.length + 1) data s
  let block := rest ++ [0x80]
  if block.length > 128 then .error .ub
  let (H, block) ←
    if block.length > 128 - 16 then do
      let full := block ++ List.replicate (128 - block.length) 0
      let H ← compress full H
      pure (H, ([] : List Byte))
    else pure (H, block)
  let block := block ++ List.replicate (128 - 16 - block.length) 0
  let H ← compress (block ++ writeU64 bitHigh ++ writeU64 bitLow) H
  .ok (writeU64 (← rd H 0) ++ writeU64 (← rd H 1) ++ writeU64 (← rd H 2) ++ writeU64 (← rd H 3) ++
    writeU64 (← rd H 4) ++ writeU64 (← rd H 5) ++ writeU64 (← rd H 6) ++ writeU64 (← rd H 7))

/-- `sha384`, sha.hpp:273-279, with `truncate`, sha.hpp:143-150.  The conversion of the bytes to `hash384` is not modelled. -/
def sha384 (data : List Byte) : Res (List Byte) := do
  let h ← sha512Compute initial384 data
  if h.length < 48 then .error .ub
  .ok (h.take 48)

end Ack.Sha
