import Verif.Model.Sha
/-!
# Model of keccak.hpp

A message is a byte list, a pointer into it the rest of the list.  The sponge state `U s[25]` is a list of 64-bit words, `t[200]`
and the output buffer are lists of bytes; an access outside an array is undefined behaviour, and so is a shift by the word
width.  Loop counters (`U`, 64 bits) are natural numbers: they are bounded by array sizes, which fit.
-/
namespace Ack.Keccak
open Ack.Big (Byte)
open Ack.Sha (rd wr rdB)

abbrev U := BitVec 64

/-- Checked write of a byte array. -/
def wrB (l : List Byte) (i : Nat) (b : Byte) : Res (List Byte) := if i < l.length then .ok (l.set i b) else .error .ub

/-- `rot`, keccak.hpp:18-20.  Shifting by 64 (for `n = 0`) or more is undefined. -/
def rot (a : U) (n : Nat) : Res U := if n = 0 ∨ 64 ≤ n then .error .ub else .ok ((a <<< n) ^^^ (a >>> (64 - n)))

/-- Inner loop keccak.hpp:31-33: `B[i] ^= s[i + 5j]`, for `n` values of `j` from `j` on. -/
def colLoop (s : List U) (i : Nat) : (n j : Nat) → (B : List U) → Res (List U)
  | 0, _, B => .ok B
  | n + 1, j, B => do
    let B ← wr B i ((← rd B i) ^^^ (← rd s (i + 5 * j)))
    colLoop s i n (j + 1) B

/-- Loop keccak.hpp:29-34. -/
def parityLoop (s : List U) : (n i : Nat) → (B : List U) → Res (List U)
  | 0, _, B => .ok B
  | n + 1, i, B => do
    let B ← wr B i 0
    let B ← colLoop s i 5 0 B
    parityLoop s n (i + 1) B

/-- Inner loop keccak.hpp:39-41. -/
def xorCol (t : U) (i : Nat) : (n j : Nat) → (s : List U) → Res (List U)
  | 0, _, s => .ok s
  | n + 1, j, s => do
    let s ← wr s (i + 5 * j) ((← rd s (i + 5 * j)) ^^^ t)
    xorCol t i n (j + 1) s

/-- Loop keccak.hpp:36-42. -/
def thetaLoop (B : List U) : (n i : Nat) → (s : List U) → Res (List U)
  | 0, _, s => .ok s
  | n + 1, i, s => do
    let t := (← rd B ((i + 4) % 5)) ^^^ (← rot (← rd B ((i + 1) % 5)) 1)
    let s ← xorCol t i 5 0 s
    thetaLoop B n (i + 1) s

/-- Loop keccak.hpp:50-58.  `x`, `y` and `r` are bytes. -/
def walkLoop : (n j : Nat) → (t : U) → (x y r : Byte) → (s : List U) → Res (List U)
  | 0, _, _, _, _, _, s => .ok s
  | n + 1, j, t, x, y, r, s => do
    let r := BitVec.ofNat 8 (r.toNat + (j + 1))
    let Y := 2 * x.toNat + 3 * y.toNat
    let x := y
    let y := BitVec.ofNat 8 (Y % 5)
    let Y ← rd s (x.toNat + 5 * y.toNat)
    let s ← wr s (x.toNat + 5 * y.toNat) (← rot t (r.toNat % 64))
    walkLoop n (j + 1) Y x y r s

/-- Loop keccak.hpp:61-63. -/
def rowLoad (s : List U) (j : Nat) : (n i : Nat) → (B : List U) → Res (List U)
  | 0, _, B => .ok B
  | n + 1, i, B => do
    let B ← wr B i (← rd s (i + 5 * j))
    rowLoad s j n (i + 1) B

/-- Loop keccak.hpp:65-67. -/
def rowStore (B : List U) (j : Nat) : (n i : Nat) → (s : List U) → Res (List U)
  | 0, _, s => .ok s
  | n + 1, i, s => do
    let s ← wr s (i + 5 * j) ((← rd B i) ^^^ (~~~(← rd B ((i + 1) % 5)) &&& (← rd B ((i + 2) % 5))))
    rowStore B j n (i + 1) s

/-- Loop keccak.hpp:60-68: state and `B` afterwards. -/
def chiLoop : (n j : Nat) → (s B : List U) → Res (List U × List U)
  | 0, _, s, B => .ok (s, B)
  | n + 1, j, s, B => do
    let B ← rowLoad s j 5 0 B
    let s ← rowStore B j 5 0 s
    chiLoop n (j + 1) s B

/-- `R = (R << 1) ^ (113 * (R >> 7))`, keccak.hpp:71: computed in `int`, stored in a byte. -/
def lfsr (R : Byte) : Byte := (((R.setWidth 32) <<< 1) ^^^ ((113 : Word) * ((R.setWidth 32) >>> 7))).setWidth 8

/-- Loop keccak.hpp:70-74.  The shift count is `2^j - 1`, below 64 for `j < 7`. -/
def iotaLoop : (n j : Nat) → (R : Byte) → (s : List U) → Res (Byte × List U)
  | 0, _, R, s => .ok (R, s)
  | n + 1, j, R, s => do
    let R := lfsr R
    if 64 ≤ 2 ^ j - 1 then .error .ub
    let s ← if R &&& 2 ≠ 0 then wr s 0 ((← rd s 0) ^^^ ((1 : U) <<< (2 ^ j - 1))) else pure s
    iotaLoop n (j + 1) R s

/-- One pass of the loop keccak.hpp:28-75: the LFSR, `B` and the state afterwards. -/
def round (R : Byte) (B s : List U) : Res (Byte × List U × List U) := do
  let B ← parityLoop s 5 0 B
  let s ← thetaLoop B 5 0 s
  let s ← walkLoop 24 0 (← rd s 1) 1 0 0 s
  let (s, B) ← chiLoop 5 0 s B
  let (R, s) ← iotaLoop 7 0 R s
  .ok (R, B, s)

/-- The loop keccak.hpp:28-75. -/
def roundLoop : (n : Nat) → (R : Byte) → (B s : List U) → Res (List U)
  | 0, _, _, s => .ok s
  | n + 1, R, B, s => do
    let (R, B, s) ← round R B s
    roundLoop n R B s

/-- `F`, keccak.hpp:22-76. -/
def F (s : List U) : Res (List U) := roundLoop 24 1 (List.replicate 5 0) s

/-- Loops keccak.hpp:85-87 and 101-103: `s[i/8] ^= U(m[i]) << i % 8 * 8`. -/
def xorLoop (m : List Byte) : (n i : Nat) → (s : List U) → Res (List U)
  | 0, _, s => .ok s
  | n + 1, i, s => do
    let s ← wr s (i / 8) ((← rd s (i / 8)) ^^^ (((← rdB m i).setWidth 64) <<< (i % 8 * 8)))
    xorLoop m n (i + 1) s

/-- Loop keccak.hpp:84-92: the state and the rest of the message. -/
def absorbLoop (r : Nat) : (fuel : Nat) → (m : List Byte) → (s : List U) → Res (List U × List Byte)
  | 0, _, _ => .error .fuel
  | f + 1, m, s =>
    if m.length ≥ r then do
      let s ← xorLoop m r 0 s
      let s ← F s
      absorbLoop r f (m.drop r) s
    else .ok (s, m)

/-- Loop keccak.hpp:94-96. -/
def copyLoop (m : List Byte) : (n i : Nat) → (t : List Byte) → Res (List Byte)
  | 0, _, t => .ok t
  | n + 1, i, t => do copyLoop m n (i + 1) (← wrB t i (← rdB m i))

/-- Loop keccak.hpp:105-111: fills the output `h` from index `i` on. -/
def squeezeLoop (r : Nat) : (n i : Nat) → (s : List U) → (h : List Byte) → Res (List Byte)
  | 0, _, _, h => .ok h
  | n + 1, i, s, h => do
    let s ← if i % r = 0 then F s else pure s
    let h ← wrB h i (((← rd s (i % r / 8)) >>> (8 * (i % 8))).setWidth 8)
    squeezeLoop r n (i + 1) s h

/-- `keccak<r, p>`, keccak.hpp:78-112, on an output buffer of `d` bytes (initially arbitrary: `h`). -/
def keccak (r : Nat) (p : Byte) (m h : List Byte) : Res (List Byte) := do
  let s := List.replicate 25 (0 : U)
  let t := List.replicate 200 (0 : Byte)
  let (s, m) ← absorbLoop r (m.length + 1) m s
  let t ← copyLoop m m.length 0 t
  let t ← wrB t m.length p
  let t ← wrB t (r - 1) ((← rdB t (r - 1)) ||| 128)
  let s ← xorLoop t r 0 s
  squeezeLoop r h.length 0 s h

/-- `sha3_256`, keccak.hpp:123-133.  The uninitialised array `h` is zero here; it is written before it is read. -/
def sha3_256 (data : List Byte) : Res (List Byte) := keccak (17 * 8) 6 data (List.replicate 32 0)
/-- `sha3_384`, keccak.hpp:143-153. -/
def sha3_384 (data : List Byte) : Res (List Byte) := keccak (13 * 8) 6 data (List.replicate 48 0)
/-- `sha3_512`, keccak.hpp:163-173. -/
def sha3_512 (data : List Byte) : Res (List Byte) := keccak (9 * 8) 6 data (List.replicate 64 0)
/-- `shake128`, keccak.hpp:206-216; `shake128_fixed<Size>`, keccak.hpp:182-198, makes the same call with `Size`. -/
def shake128 (data : List Byte) (len : Nat) : Res (List Byte) := keccak (21 * 8) 31 data (List.replicate len 0)
/-- `shake256`, keccak.hpp:250-260; `shake256_fixed<Size>`, keccak.hpp:225-242, makes the same call with `Size`. -/
def shake256 (data : List Byte) (len : Nat) : Res (List Byte) := keccak (17 * 8) 31 data (List.replicate len 0)

end Ack.Keccak
