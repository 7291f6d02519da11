import Verif.Model.Rsa
/-!
# Software modular exponentiation

Models include/ack/c/powm.h (used by rsa.hpp:160-167 when the host intrinsics are disabled).  Arrays are lists; reading or
writing outside an array is undefined behaviour.  The target is little-endian.  Allocations are assumed to succeed and
unaligned loads to work.  Byte lengths at or above 2^27, where the `int` bit counts overflow, are undefined behaviour.
-/
namespace Ack.Powm
open Ack.Big (Byte)

/-! ## Word primitives -/

/-- `___constant_swab16`, powm.h:56-58. -/
def swab16 (x : BitVec 16) : BitVec 16 := ((x &&& 0x00ff) <<< 8) ||| ((x &&& 0xff00) >>> 8)

/-- `___constant_swab32`, powm.h:60-64. -/
def swab32 (x : Word) : Word :=
  ((x &&& 0x000000ff) <<< 24) ||| ((x &&& 0x0000ff00) <<< 8) ||| ((x &&& 0x00ff0000) >>> 8) ||| ((x &&& 0xff000000) >>> 24)

/-- `___constant_swab64`, powm.h:66-74. -/
def swab64 (x : BitVec 64) : BitVec 64 :=
  ((x &&& 0x00000000000000ff) <<< 56) ||| ((x &&& 0x000000000000ff00) <<< 40) ||| ((x &&& 0x0000000000ff0000) <<< 24) |||
  ((x &&& 0x00000000ff000000) <<< 8) ||| ((x &&& 0x000000ff00000000) >>> 8) ||| ((x &&& 0x0000ff0000000000) >>> 24) |||
  ((x &&& 0x00ff000000000000) >>> 40) ||| ((x &&& 0xff00000000000000) >>> 56)

/-- `MUL`, powm.h:116. -/
def MUL (x y : Word) : DWord := x.setWidth 64 * y.setWidth 64

/-- `NOT`, powm.h:161-164. -/
def NOT (ctl : Word) : Word := ctl ^^^ 1

/-- `MUX`, powm.h:169-172. -/
def MUX (ctl x y : Word) : Word := y ^^^ (-ctl &&& (x ^^^ y))

/-- `EQ`, powm.h:177-183. -/
def EQ (x y : Word) : Word := let q := x ^^^ y; NOT ((q ||| -q) >>> 31)

/-- `NEQ`, powm.h:188-194. -/
def NEQ (x y : Word) : Word := let q := x ^^^ y; (q ||| -q) >>> 31

/-- `GT`, powm.h:199-217. -/
def GT (x y : Word) : Word := let z := y - x; (z ^^^ ((x ^^^ y) &&& (x ^^^ z))) >>> 31

/-- `GE`, powm.h:114. -/
def GE (x y : Word) : Word := NOT (GT y x)

/-- `LT`, powm.h:115. -/
def LT (x y : Word) : Word := GT y x

/-- `br_i32_ninv32`, powm.h:237-247. -/
def ninv32 (x : Word) : Word :=
  let y := 2 - x
  let y := y * (2 - y * x)
  let y := y * (2 - y * x)
  let y := y * (2 - y * x)
  let y := y * (2 - y * x)
  MUX (x &&& 1) (-y) 0

/-- `BIT_LENGTH`, powm.h:298-309. -/
def BIT_LENGTH (x : Word) : Word :=
  let k := NEQ x 0
  let c := GT x 0xFFFF
  let x := MUX c (x >>> 16) x
  let k := k + (c <<< 4)
  let c := GT x 0x00FF
  let x := MUX c (x >>> 8) x
  let k := k + (c <<< 3)
  let c := GT x 0x000F
  let x := MUX c (x >>> 4) x
  let k := k + (c <<< 2)
  let c := GT x 0x0003
  let x := MUX c (x >>> 2) x
  let k := k + (c <<< 1)
  k + GT x 0x0001

/-! ## Arrays -/

/-- Checked read. -/
def rdW (a : List Word) (i : Nat) : Res Word :=
  match a[i]? with
  | some w => .ok w
  | none => .error .ub

/-- Checked write. -/
def wrW (a : List Word) (i : Nat) (w : Word) : Res (List Word) := if i < a.length then .ok (a.set i w) else .error .ub

/-- Checked read of `len` words from index `i`. -/
def slice (a : List Word) (i len : Nat) : Res (List Word) :=
  if i + len ≤ a.length then .ok ((a.drop i).take len) else .error .ub

/-- Checked write of a run of words from index `i`. -/
def patch (a : List Word) (i : Nat) (ws : List Word) : Res (List Word) :=
  if i + ws.length ≤ a.length then .ok (a.take i ++ ws ++ a.drop (i + ws.length)) else .error .ub

/-- `br_i32_word`, powm.h:280-292. -/
def i32Word (a : List Word) (off : Word) : Res Word := do
  let u := (off >>> 5).toNat + 1
  let j := (off &&& 31).toNat
  if j = 0 then rdW a u
  else do .ok (((← rdW a u) >>> j) ||| ((← rdW a (u + 1)) <<< (32 - j)))

/-- The loop of `br_i32_bit_length`, powm.h:325-332, and its result. -/
def bitLengthLoop (x : List Word) : (xlen : Nat) → (tw twk : Word) → Res Word
  | 0, tw, twk => .ok ((twk <<< 5) + BIT_LENGTH tw)
  | n + 1, tw, twk => do
    let c := EQ tw 0
    let w ← rdW x n
    bitLengthLoop x n (MUX c w tw) (MUX c (BitVec.ofNat 32 n) twk)

/-- `br_i32_bit_length`, powm.h:319-334. -/
def bitLength (x : List Word) (xlen : Nat) : Res Word := bitLengthLoop x xlen 0 0

/-- `br_dec16be`, powm.h:142-145. -/
def dec16be (a b : Byte) : Word := (swab16 (b ++ a)).setWidth 32

/-- `br_dec32be`, powm.h:152-155. -/
def dec32be (a b c d : Byte) : Word := swab32 (ld32 a b c d)

/-- The words `br_i32_decode` (powm.h:344-389) stores, from the last byte on; the argument is the source reversed. -/
def decWords : List Byte → List Word
  | d :: c :: b :: a :: t => dec32be a b c d :: decWords t
  | [c, b, a] => [(a.setWidth 32 <<< 16) ||| dec16be b c]
  | [b, a] => [dec16be a b]
  | [a] => [a.setWidth 32]
  | [] => []

/-- `br_i32_decode`, powm.h:344-389: the array `x` afterwards. -/
def decode (x : List Word) (src : List Byte) : Res (List Word) := do
  let ws := decWords src.reverse
  let x ← patch x 1 ws
  let bl ← bitLength (x.drop 1) ws.length
  wrW x 0 bl

/-- Complete words written by `br_i32_encode`, powm.h:433-437. -/
def encWords (x : List Word) : (k : Nat) → Res (List Byte)
  | 0 => .ok []
  | k + 1 => do
    let w ← rdW x (k + 1)
    let r ← encWords x k
    .ok (st32 (swab32 w) ++ r)

/-- `br_i32_encode`, powm.h:399-438: the `len` bytes written to `dst`. -/
def encode (len : Nat) (x : List Word) : Res (List Byte) := do
  let x0 ← rdW x 0
  let k := ((x0 + 7) >>> 3).toNat
  let zeros := List.replicate (len - k) (0 : Byte)
  let len := min len k
  let k := (len + 3) / 4
  let m := len % 4
  if m = 0 then do
    .ok (zeros ++ (← encWords x k))
  else do
    let w ← rdW x k
    let b3 := if m = 3 then [(w >>> 16).setWidth 8] else []
    let b2 := if m ≥ 2 then [(w >>> 8).setWidth 8] else []
    let b1 : List Byte := [w.setWidth 8]
    .ok (zeros ++ b3 ++ b2 ++ b1 ++ (← encWords x (k - 1)))

/-- The loop of `br_i32_add`, powm.h:459-472, on the words above the header. -/
def addLoop (ctl : Word) : (a b : List Word) → (cc : Word) → Res (List Word × Word)
  | aw :: a, bw :: b, cc => do
    let naw := aw + bw + cc
    let cc := (cc &&& EQ naw aw) ||| LT naw aw
    let (r, cc) ← addLoop ctl a b cc
    .ok (MUX ctl naw aw :: r, cc)
  | [], _, cc => .ok ([], cc)
  | _ :: _, [], _ => .error .ub

/-- The loop of `br_i32_sub`, powm.h:491-504. -/
def subLoop (ctl : Word) : (a b : List Word) → (cc : Word) → Res (List Word × Word)
  | aw :: a, bw :: b, cc => do
    let naw := aw - bw - cc
    let cc := (cc &&& EQ naw aw) ||| GT naw aw
    let (r, cc) ← subLoop ctl a b cc
    .ok (MUX ctl naw aw :: r, cc)
  | [], _, cc => .ok ([], cc)
  | _ :: _, [], _ => .error .ub

/-- Number of value words for an announced bit length: indices `1 … (bits+63)/32 - 1`, powm.h:458 and 490. -/
def valueWords (bits : Word) : Nat := ((bits + 63) >>> 5).toNat - 1

/-- `br_i32_add`, powm.h:452-474: the array `a` afterwards (the carry is not used by any caller). -/
def i32Add (a b : List Word) (ctl : Word) : Res (List Word) := do
  let m := valueWords (← rdW a 0)
  let (r, _) ← addLoop ctl (← slice a 1 m) (← slice b 1 m) 0
  patch a 1 r

/-- `br_i32_sub`, powm.h:484-506. -/
def i32Sub (a b : List Word) (ctl : Word) : Res (List Word) := do
  let m := valueWords (← rdW a 0)
  let (r, _) ← subLoop ctl (← slice a 1 m) (← slice b 1 m) 0
  patch a 1 r

/-- The loop of `br_divrem`, powm.h:526-539, from `k` down to 1. -/
def divremLoop (d : Word) : (k : Nat) → (hi lo q : Word) → Word × Word × Word
  | 0, hi, lo, q => (hi, lo, q)
  | k + 1, hi, lo, q =>
    let j := 32 - (k + 1)
    let w := (hi <<< j) ||| (lo >>> (k + 1))
    let ctl := GE w d ||| (hi >>> (k + 1))
    let hi2 := (w - d) >>> j
    let lo2 := lo - (d <<< (k + 1))
    divremLoop d k (MUX ctl hi2 hi) (MUX ctl lo2 lo) (q ||| (ctl <<< (k + 1)))

/-- `br_divrem`, powm.h:516-544: quotient and remainder. -/
def divrem (hi lo d : Word) : Word × Word :=
  let ch := EQ hi d
  let hi := MUX ch 0 hi
  let (hi, lo, q) := divremLoop d 31 hi lo 0
  let cf := GE lo d ||| hi
  (q ||| cf, MUX cf (lo - d) lo)

/-- The loop of `br_i32_muladd_small`, powm.h:654-671: new words, `cc`, `tb`. -/
def mulSubLoop (q : Word) : (x m : List Word) → (cc : DWord) → (tb : Word) → Res (List Word × DWord × Word)
  | xw :: x, mw :: m, cc, tb => do
    let zl := MUL mw q + cc
    let cc := ((zl >>> 32).setWidth 32).setWidth 64
    let zw := zl.setWidth 32
    let nxw := xw - zw
    let cc := cc + (GT nxw xw).setWidth 64
    let tb := MUX (EQ nxw mw) tb (GT nxw mw)
    let (r, cc, tb) ← mulSubLoop q x m cc tb
    .ok (nxw :: r, cc, tb)
  | [], [], cc, tb => .ok ([], cc, tb)
  | _, _, _, _ => .error .ub

/-- `br_i32_muladd_small`, powm.h:580-690: the array `x` afterwards. -/
def muladdSmall (x : List Word) (z : Word) (m : List Word) : Res (List Word) := do
  let mBitlen ← rdW m 0
  if mBitlen = 0 then .ok x
  else if mBitlen ≤ 32 then do
    let r := (divrem (← rdW x 1) z (← rdW m 1)).2
    wrW x 1 r
  else do
    let mlen := ((mBitlen + 31) >>> 5).toNat
    let a0 ← i32Word x (mBitlen - 32)
    let hi ← rdW x mlen
    let x ← patch x 2 (← slice x 1 (mlen - 1))
    let x ← wrW x 1 z
    let a1 ← i32Word x (mBitlen - 32)
    let b0 ← i32Word m (mBitlen - 32)
    let g := (divrem a0 a1 b0).1
    let q := MUX (EQ a0 b0) 0xFFFFFFFF (MUX (EQ g 0) 0 (g - 1))
    let (r, cc, tb) ← mulSubLoop q (← slice x 1 mlen) (← slice m 1 mlen) 0 1
    let x ← patch x 1 r
    let chf : Word := (cc >>> 32).setWidth 32
    let clow : Word := cc.setWidth 32
    let over := chf ||| GT clow hi
    let under := ~~~over &&& (tb ||| (~~~chf &&& LT clow hi))
    let x ← i32Add x m over
    i32Sub x m under

/-- The loop of `br_i32_reduce`, powm.h:733-735. -/
def reduceLoop (a m : List Word) : (u : Nat) → (x : List Word) → Res (List Word)
  | 0, x => .ok x
  | u + 1, x => do
    let x ← muladdSmall x (← rdW a (u + 1)) m
    reduceLoop a m u x

/-- `br_i32_reduce`, powm.h:700-736: the array `x` afterwards. -/
def reduce (x a m : List Word) : Res (List Word) := do
  let mBitlen ← rdW m 0
  let mlen := ((mBitlen + 31) >>> 5).toNat
  let x ← wrW x 0 mBitlen
  if mBitlen = 0 then .ok x
  else do
    let aBitlen ← rdW a 0
    let alen := ((aBitlen + 31) >>> 5).toNat
    if aBitlen < mBitlen then do
      let x ← patch x 1 (← slice a 1 alen)
      patch x (alen + 1) (List.replicate (mlen - alen) 0)
    else do
      let x ← patch x 1 (← slice a (2 + (alen - mlen)) (mlen - 1))
      let x ← wrW x mlen 0
      reduceLoop a m (1 + alen - mlen) x

/-! ## Key properties -/

/-- `struct key_prop`, powm.h:84-92. -/
structure KeyProp where
  rr : List Byte
  modulus : List Byte
  exponent : List Byte
  n0inv : Word
  numBits : Nat
deriving DecidableEq, Repr

/-- The bytes of an array of words in memory. -/
def wordBytes : List Word → List Byte
  | [] => []
  | w :: t => st32 w ++ wordBytes t

/-- Checked run of zero writes from index `i`. -/
def zeroRun (x : List Word) (i cnt : Nat) : Res (List Word) := patch x i (List.replicate cnt 0)

/-- `rsa_gen_key_prop`, powm.h:770-855; `malloc` and `calloc` never fail.  The `goto out` paths are only for failed
allocations. -/
def genKeyProp (mod exp : List Byte) : Res KeyProp := do
  if mod.length ≥ 2 ^ 27 then .error .ub
  let i := leadZeros mod
  let m := mod.drop i
  let numBits := m.length * 8
  let n := List.replicate (1 + numBits / 32) (0 : Word)
  let rr := List.replicate (1 + numBits * 2 / 32) (0 : Word)
  let rrtmp := List.replicate (2 + numBits * 2 / 32) (0 : Word)
  if exp.length > 8 then .error .ub
  let e := List.replicate (8 - exp.length) (0 : Byte) ++ exp
  let n ← decode n m
  let n0inv := ninv32 (← rdW n 1)
  let rlen := numBits * 2
  let rr ← wrW rr 0 (BitVec.ofNat 32 (2 ^ (rlen % 8)))
  let rr ← zeroRun rr 1 ((rlen + 31) / 32)
  if (wordBytes rr).length < (rlen + 7) / 8 + 1 then .error .ub
  let rrtmp ← decode rrtmp ((wordBytes rr).take ((rlen + 7) / 8 + 1))
  let rr ← reduce rr rrtmp n
  let rrb ← encode ((numBits + 7) / 8) rr
  .ok { rr := rrb, modulus := m, exponent := e, n0inv := n0inv, numBits := numBits }

/-! ## Montgomery arithmetic -/

/-- `struct rsa_public_key`, powm.h:94-102; `len` is the number of words. -/
structure Key where
  len : Nat
  n0inv : Word
  modulus : List Word
  rr : List Word
  exponent : BitVec 64
deriving DecidableEq, Repr

/-- `subtract_modulus`, powm.h:863-874; the accumulator is the 64-bit pattern of the `int64_t`. -/
def subModLoop : (num m : List Word) → (acc : DWord) → Res (List Word)
  | x :: num, y :: m, acc => do
    let acc := acc + (x.setWidth 64 - y.setWidth 64)
    let r ← subModLoop num m (acc.sshiftRight 32)
    .ok (acc.setWidth 32 :: r)
  | [], [], _ => .ok []
  | _, _, _ => .error .ub

/-- `greater_equal_modulus`, powm.h:883-897, from word `i - 1` down. -/
def geMod (m num : List Word) : (i : Nat) → Res Bool
  | 0 => .ok true
  | i + 1 => do
    let x ← rdW num i
    let y ← rdW m i
    if x < y then .ok false
    else if x > y then .ok true
    else geMod m num i

/-- The loop of `montgomery_mul_add_step`, powm.h:919-925, on the words from index 1. -/
def stepLoop (a d0 : Word) : (b m r : List Word) → (accA accB : DWord) → Res (List Word × DWord × DWord)
  | bw :: b, mw :: m, rw :: r, accA, accB => do
    let accA := (accA >>> 32) + MUL a bw + rw.setWidth 64
    let accB := (accB >>> 32) + MUL d0 mw + (accA.setWidth 32).setWidth 64
    let (ws, A, B) ← stepLoop a d0 b m r accA accB
    .ok (accB.setWidth 32 :: ws, A, B)
  | [], [], [], accA, accB => .ok ([], accA, accB)
  | _, _, _, _, _ => .error .ub

/-- `montgomery_mul_add_step`, powm.h:909-933: the array `result` afterwards. -/
def mulAddStep (n0inv : Word) (m : List Word) (a : Word) (b r : List Word) : Res (List Word) :=
  match b, m, r with
  | b0 :: b, m0 :: ms, r0 :: r => do
    let accA := MUL a b0 + r0.setWidth 64
    let d0 := accA.setWidth 32 * n0inv
    let accB := MUL d0 m0 + (accA.setWidth 32).setWidth 64
    let (ws, accA, accB) ← stepLoop a d0 b ms r accA accB
    let accA := (accA >>> 32) + (accB >>> 32)
    let res := ws ++ [accA.setWidth 32]
    if accA >>> 32 ≠ 0 then subModLoop res m 0 else .ok res
  | _, _, _ => .error .ub

/-- The second loop of `montgomery_mul`, powm.h:951-952. -/
def montLoop (n0inv : Word) (m b : List Word) : (a : List Word) → (r : List Word) → Res (List Word)
  | [], r => .ok r
  | a :: as, r => do montLoop n0inv m b as (← mulAddStep n0inv m a b r)

/-- `montgomery_mul`, powm.h:945-953; `a` is not the result array. -/
def montMul (k : Key) (a b : List Word) : Res (List Word) :=
  montLoop k.n0inv k.modulus b a (List.replicate k.len 0)

/-- The loop of `num_public_exponent_bits`, powm.h:977-982. -/
def expBitsLoop : (fuel : Nat) → (e : BitVec 64) → (cnt : Nat) → Option Nat
  | 0, _, _ => none
  | f + 1, e, cnt =>
    let e := e >>> 1
    if e = 0 then some cnt else expBitsLoop f e (cnt + 1)

/-- `num_public_exponent_bits`, powm.h:961-985: `none` is `-EINVAL`. -/
def numExpBits (e : BitVec 64) : Option Nat := if e = 0 then some 0 else expBitsLoop 64 e 1

/-- `is_public_exponent_bit_set`, powm.h:993-997, as a condition: the 64-bit result is returned as an `int`. -/
def expBit (e : BitVec 64) (pos : Nat) : Bool := ((e &&& ((1 : BitVec 64) <<< pos)).setWidth 32 : BitVec 32) ≠ 0

/-- The loop of `pow_mod`, powm.h:1048-1062, for the bits `j … 1`. -/
def powLoop (k : Key) (aScaled : List Word) : (j : Nat) → (acc : List Word) → Res (List Word)
  | 0, acc => .ok acc
  | j + 1, acc => do
    let tmp ← montMul k acc acc
    if expBit k.exponent (j + 1) then do
      powLoop k aScaled j (← montMul k tmp aScaled)
    else powLoop k aScaled j tmp

/-- `pow_mod`, powm.h:1005-1077: `none` is `-EINVAL`; otherwise the array `inout` afterwards. -/
def powMod (k : Key) (inout : List Word) : Res (Option (List Word)) := do
  if k.len = 0 then .error .ub
  let v := (← slice inout 0 k.len).reverse.map swab32
  match numExpBits k.exponent with
  | none => .ok none
  | some bits =>
    if bits < 2 then .ok none
    else if !expBit k.exponent 0 then .ok none
    else do
      let acc ← montMul k v k.rr
      let aScaled := acc
      let acc ← powLoop k aScaled (bits - 2) acc
      let tmp ← montMul k acc acc
      let acc ← montMul k tmp v
      let result := acc
      let result ← if ← geMod k.modulus result k.len then subModLoop result k.modulus 0 else pure result
      .ok (some (← patch inout 0 (result.reverse.map swab32)))

/-- Words of a byte array in memory (little-endian); trailing bytes that do not fill a word are dropped. -/
def bytesWords : List Byte → List Word
  | a :: b :: c :: d :: t => ld32 a b c d :: bytesWords t
  | _ => []

/-- `rsa_convert_big_endian`, powm.h:1079-1085. -/
def convertBE (src : List Word) (len : Nat) : Res (List Word) := do
  .ok ((← slice src 0 len).reverse.map swab32)

/-- `fdt64_to_cpup`, powm.h:126-131, of the eight exponent bytes. -/
def loadExp (e : List Byte) : Res (BitVec 64) :=
  match bytesWords e with
  | lo :: hi :: _ => .ok (swab64 (hi ++ lo))
  | _ => .error .ub

/-- `rsa_mod_exp_sw`, powm.h:1087-1146: `none` is a non-zero return code. -/
def modExpSw (sig : List Byte) (prop : KeyProp) : Res (Option (List Byte)) := do
  let exponent ← loadExp prop.exponent
  if prop.numBits = 0 then .ok none
  else do
    let len := prop.numBits / 32
    if len = 0 then .error .ub
    let modulus ← convertBE (bytesWords prop.modulus) len
    let rr ← convertBE (bytesWords prop.rr) len
    if sig.length % 4 ≠ 0 then .error .ub
    match ← powMod ⟨len, prop.n0inv, modulus, rr, exponent⟩ (bytesWords sig) with
    | none => .ok none
    | some buf => .ok (some (wordBytes buf))

/-- The software branch of `powm`, rsa.hpp:160-167. -/
def swModExp : ModExp := fun base exponent modulus => do
  let prop ← genKeyProp modulus exponent
  modExpSw base prop

end Ack.Powm
