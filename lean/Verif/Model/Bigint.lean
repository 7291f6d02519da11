import Verif.Model.Words
/-!
# `ack::bigint` (include/ack/bigint.hpp:775-2597)

A bigint is its sign flag and its `size_` words, least significant first.  Words of the buffer above `size_` are not
part of this model (the only function that can see them is `set_bit`, modelled with a raw buffer in
`Model/Buffer.lean`).

The template parameter `Buffer` is a capacity: `none` is `flexbuffer` (`resize` always succeeds at run time,
buffer.hpp:217-245), `some N` is `fixed_buffer<word_t, N>` (`resize(n)` fails exactly for `n > N`, buffer.hpp:79-86).

An out-parameter is modelled by returning its new value; aliasing of the out-parameter with an operand is discussed in
`Model/Alias.lean`.
-/
namespace Ack

/-- Buffer capacity in words: `none` = flexbuffer, `some N` = fixed_buffer of `N` words. -/
abbrev Cap := Option Nat

/-- `buf_.resize(n)` succeeds (buffer.hpp:79-86 and 217-245). -/
def Cap.fits (cap : Cap) (n : Nat) : Bool :=
  match cap with
  | none => true
  | some N => decide (n ≤ N)

/-- Fields `is_neg_` and `buf_[0 .. size_)` of `bigint` (bigint.hpp:782-785). -/
structure Big where
  neg : Bool
  ws : List Word
deriving DecidableEq, Repr

namespace Big

/-- The value assigned by `clear()` (bigint.hpp:1492-1495): `*this = 0`. -/
def zero : Big := ⟨false, [0]⟩

/-- Loop of `trim`, bigint.hpp:791-797: the argument is `i`. -/
def trimGo (ws : List Word) : Nat → Nat
  | 0 => 1
  | i + 1 => if ws[i + 1]?.getD 0 ≠ 0 then i + 2 else trimGo ws i

/-- `trim(n)`, bigint.hpp:788-806, with `n` the length of the list. -/
def trim (neg : Bool) (ws : List Word) : Big :=
  let n := trimGo ws (ws.length - 1)
  ⟨if n = 1 ∧ ws.head? = some 0 then false else neg, ws.take n⟩

/-- `bigint(int)` / `operator=(int)`, bigint.hpp:1126, 1227-1233.  The argument is the two's complement word. -/
def ofInt32 (x : BitVec 32) : Big := ⟨decide (x.toInt < 0), [cabs32 x]⟩

/-- `bigint(word_t)` / `operator=(word_t)`, bigint.hpp:1135, 1235-1245. -/
def ofWord (x : Word) : Big := ⟨false, [x]⟩

/-- `bigint(uint64_t)` / `operator=(uint64_t)`, bigint.hpp:1153, 1257-1268.  With a one-word fixed buffer the resize
fails and `buf_[1]` fails its bounds check (buffer.hpp:121, 127). -/
def ofU64 (cap : Cap) (x : BitVec 64) : Res Big := do
  check (cap.fits 2)
  let w0 : Word := x.setWidth 32
  let w1 : Word := (x >>> 32).setWidth 32
  .ok (if w1 ≠ 0 then trim false [w0, w1] else trim false [w0])

/-- `bigint(int64_t)` / `operator=(int64_t)`, bigint.hpp:1144, 1247-1255. -/
def ofInt64 (cap : Cap) (x : BitVec 64) : Res Big := do
  let r ← ofU64 cap (cabs64 x)
  .ok ⟨decide (x.toInt < 0), r.ws⟩

/-- `is_zero`, bigint.hpp:1630-1633. -/
def isZero (x : Big) : Bool := x.ws.length == 1 && x.ws.headD 0 == 0

/-- `is_one`, bigint.hpp:1635-1638. -/
def isOne (x : Big) : Bool := x.ws.length == 1 && !x.neg && x.ws.headD 0 == 1

/-- `is_negative`, bigint.hpp:1640-1643. -/
def isNegative (x : Big) : Bool := !x.isZero && x.neg

/-- `is_odd`, bigint.hpp:1650-1653. -/
def isOdd (x : Big) : Bool := (x.ws.headD 0 &&& 1) == 1

/-- `is_even`, bigint.hpp:1655-1658. -/
def isEven (x : Big) : Bool := !x.isOdd

/-- `get_low32bit`, bigint.hpp:1645-1648. -/
def low32 (x : Big) : Word := x.ws.headD 0

/-- `ucompare`, bigint.hpp:808-812. -/
def ucompare (x y : List Word) : Int :=
  if x.length = y.length then cmpN x y else if x.length > y.length then 1 else -1

/-- `compare`, bigint.hpp:1558-1578. -/
def compare (x y : Big) : Int :=
  if x.neg ^^ y.neg then
    if x.isZero && y.isZero then 0 else if x.neg then -1 else 1
  else if x.isOne && y.isOne then 0
  else
    let c := ucompare x.ws y.ws
    if x.neg then -c else c

/-- `compares1`, bigint.hpp:1580-1603 (`cmp_t<1>`, bigint.hpp:110-119, on the single word). -/
def compares1 (x : Big) (y : BitVec 32) : Int :=
  if x.neg ^^ decide (y.toInt < 0) then
    if x.isZero && y == 0 then 0 else if x.neg then -1 else 1
  else if x.isOne && y == 1 then 0
  else
    let c := if x.ws.length > 1 then 1 else cmpN [x.ws.headD 0] [cabs32 y]
    if x.neg then -c else c

/-- `compareu1`, bigint.hpp:1605-1613. -/
def compareu1 (x : Big) (y : Word) : Int :=
  if x.neg then -1
  else if x.ws.length > 1 then 1
  else
    let x0 := x.ws.headD 0
    if x0 > y then 1 else if x0 = y then 0 else -1

/-- `uadd` after the operands were ordered by length, bigint.hpp:826-842: the words of `z` after `trim` (or `[0]`
when the resize to `xn + 1` fails). -/
def uaddGe (cap : Cap) (x y : List Word) : List Word :=
  let yn := y.length
  let a := addN (x.take yn) y
  let h := if x.length > yn then addWord (x.drop yn) a.2 else ([], a.2)
  if cap.fits (x.length + 1) then (trim false (a.1 ++ h.1 ++ [h.2])).ws else [0]

/-- `uadd`, bigint.hpp:814-843: the longer operand goes first. -/
def uadd (cap : Cap) (x y : List Word) : List Word :=
  if y.length > x.length then uaddGe cap y x else uaddGe cap x y

/-- `uadd1`, bigint.hpp:845-860. -/
def uadd1 (cap : Cap) (x : List Word) (y : Word) : List Word :=
  if cap.fits (x.length + 1) then
    let a := addWord x y
    (trim false (a.1 ++ [a.2])).ws
  else [0]

/-- `usub1`, bigint.hpp:862-879. -/
def usub1 (cap : Cap) (x : List Word) (y : Word) : List Word :=
  if cap.fits x.length then (trim false (subWord x y).1).ws else [0]

/-- `usub`, bigint.hpp:881-903. -/
def usub (cap : Cap) (x y : List Word) : List Word :=
  if cap.fits x.length then
    let yn := y.length
    let a := subN (x.take yn) y
    let h := if x.length > yn then (subWord (x.drop yn) a.2).1 else []
    (trim false (a.1 ++ h)).ws
  else [0]

/-- `_add`, bigint.hpp:905-922. -/
def addSigned (cap : Cap) (x : Big) (xNeg : Bool) (y : Big) (yNeg : Bool) : Big :=
  if (xNeg ^^ yNeg) = false then ⟨xNeg, uadd cap x.ws y.ws⟩
  else if ucompare x.ws y.ws ≥ 0 then ⟨xNeg, usub cap x.ws y.ws⟩
  else ⟨yNeg, usub cap y.ws x.ws⟩

/-- `add`, bigint.hpp:1699-1702; `operator+`, `operator+=` 2517, 2523. -/
def add (cap : Cap) (x y : Big) : Big := addSigned cap x x.neg y y.neg

/-- `sub`, bigint.hpp:1704-1707; `operator-`, `operator-=` 2529, 2535. -/
def sub (cap : Cap) (x y : Big) : Big := addSigned cap x x.neg y (!y.neg)

/-- `_adds1`, bigint.hpp:924-941.  `y` is the `int` holding the absolute value (as a bit pattern). -/
def adds1Go (cap : Cap) (x : Big) (y : Word) (yNeg : Bool) : Big :=
  if (x.neg ^^ yNeg) = false then ⟨yNeg, uadd1 cap x.ws y⟩
  else if x.ws.length > 1 ∨ x.ws.headD 0 ≥ y then ⟨x.neg, usub1 cap x.ws y⟩
  else ⟨yNeg, [y - x.ws.headD 0]⟩

/-- `_addu1`, bigint.hpp:943-959 (same text as `_adds1`). -/
def addu1Go (cap : Cap) (x : Big) (y : Word) (yNeg : Bool) : Big :=
  if (x.neg ^^ yNeg) = false then ⟨yNeg, uadd1 cap x.ws y⟩
  else if x.ws.length > 1 ∨ x.ws.headD 0 ≥ y then ⟨x.neg, usub1 cap x.ws y⟩
  else ⟨yNeg, [y - x.ws.headD 0]⟩

/-- `adds1`, bigint.hpp:1792-1796; `x + int`. -/
def adds1 (cap : Cap) (x : Big) (y : BitVec 32) : Big := adds1Go cap x (cabs32 y) (decide (y.toInt < 0))

/-- `subs1`, bigint.hpp:1798-1802; `x - int`. -/
def subs1 (cap : Cap) (x : Big) (y : BitVec 32) : Big := adds1Go cap x (cabs32 y) (!decide (y.toInt < 0))

/-- `addu1`, bigint.hpp:1753-1756; `x + word_t`. -/
def addu1 (cap : Cap) (x : Big) (y : Word) : Big := addu1Go cap x y false

/-- `subu1`, bigint.hpp:1758-1761; `x - word_t`. -/
def subu1 (cap : Cap) (x : Big) (y : Word) : Big := addu1Go cap x y true

/-- `mul(z, x, y)`, bigint.hpp:1710-1729; `none` is the return value `false` (`z` is left as it was). -/
def mul? (cap : Cap) (x y : Big) : Option Big :=
  if cap.fits (x.ws.length + y.ws.length) then
    some ⟨x.neg ^^ y.neg, (trim false (mulNM x.ws y.ws)).ws⟩
  else none

/-- `operator*`, bigint.hpp:2543, and member `mul` (1732-1737): a fresh zero receives the product, the returned flag is
ignored. -/
def mul (cap : Cap) (x y : Big) : Big := (mul? cap x y).getD zero

/-- `operator*=`, bigint.hpp:2549: `*this` receives the product, the returned flag is ignored. -/
def mulAssign (cap : Cap) (x y : Big) : Big := (mul? cap x y).getD x

/-- `sqr(y, x)`, bigint.hpp:1740-1743. -/
def sqr? (cap : Cap) (x : Big) : Option Big := mul? cap x x

/-- member `sqr()`, bigint.hpp:1746-1751. -/
def sqr (cap : Cap) (x : Big) : Big := (sqr? cap x).getD zero

/-- `mulu1`, bigint.hpp:1763-1778: sign assigned before `trim`. -/
def mulu1 (cap : Cap) (x : Big) (y : Word) : Big :=
  if cap.fits (x.ws.length + 1) then
    let a := mulWordN x.ws y
    trim x.neg (a.1 ++ [a.2])
  else zero

/-- `muls1`, bigint.hpp:1804-1809. -/
def muls1 (cap : Cap) (x : Big) (y : BitVec 32) : Big :=
  let z := mulu1 cap x (cabs32 y)
  ⟨z.neg ^^ decide (y.toInt < 0), z.ws⟩

/-- `udiv`, bigint.hpp:966-1004: quotient and remainder words after `trim` (the sign flags are overwritten by all
callers).  Outer result: abort on a zero divisor (the `check` of `div_word`); `none`: a resize failed and the function
returned `false`.  `r.buf_ = x` in the branch `xn < yn` cannot fail. -/
def udiv (cap : Cap) (x y : List Word) : Res (Option (List Word × List Word)) :=
  if x.length < y.length then .ok (some ([0], (trim false x).ws))
  else do
    let qn := x.length - y.length + 1
    if cap.fits qn then
      let (q, r) ← divArr qn x y
      if cap.fits r.length then .ok (some ((trim false q).ws, (trim false r).ws)) else .ok none
    else .ok none

/-- `div_mod`, bigint.hpp:1852-1863. -/
def divMod? (cap : Cap) (x y : Big) : Res (Option (Big × Big)) := do
  match ← udiv cap x.ws y.ws with
  | some (q, r) => .ok (some (⟨x.neg ^^ y.neg, q⟩, ⟨x.neg, r⟩))
  | none => .ok none

/-- `div(q, x, y)`, bigint.hpp:1866-1870 with a fresh zero for `q`; `operator/` 2555. -/
def div (cap : Cap) (x y : Big) : Res Big := do
  match ← divMod? cap x y with
  | some (q, _) => .ok q
  | none => .ok zero

/-- `mod(r, x, y)`, bigint.hpp:1873-1876, with a fresh zero for `r`; `operator%` 2567. -/
def mod (cap : Cap) (x y : Big) : Res Big := do
  match ← divMod? cap x y with
  | some (_, r) => .ok r
  | none => .ok zero

/-- member `mod(m)`, bigint.hpp:1878-1884: aborts when `mod` reports failure. -/
def modMember (cap : Cap) (x y : Big) : Res Big := do
  match ← divMod? cap x y with
  | some (_, r) => .ok r
  | none => .error .abort

/-- `quot_rem`, bigint.hpp:1927-1944.  The returned flag of `udiv` is ignored by the code; the model reports the (for
stored operands impossible, see `udiv_total`) failure as `ub` since `r` would then hold whatever it held before.  When
`uadd1` has no room it clears the quotient, flag included (bigint.hpp:845-851, 1492-1495). -/
def quotRem (cap : Cap) (x y : Big) : Res (Big × Big) := do
  let qsign := x.neg ^^ y.neg
  match ← udiv cap x.ws y.ws with
  | none => .error .ub
  | some (q, r) =>
    let R : Big := ⟨y.neg, r⟩
    let Q : Big := ⟨qsign, q⟩
    if !R.isZero && qsign then
      .ok (⟨qsign && cap.fits (q.length + 1), uadd1 cap q 1⟩, ⟨y.neg, usub cap y.ws r⟩)
    else .ok (Q, R)

/-- `div_mods1`, bigint.hpp:1817-1842, with a non-null `q`: the quotient. -/
def divs1 (cap : Cap) (x : Big) (y : BitVec 32) : Res Big :=
  if cap.fits x.ws.length then do
    let (q, _) ← divWord x.ws (cabs32 y)
    .ok (trim (x.neg ^^ decide (y.toInt < 0)) q)
  else .ok zero

/-- `div_mods1`, bigint.hpp:1817-1842, with `q == nullptr`: the returned `int` (bit pattern). -/
def divMods1Rem (x : Big) (y : BitVec 32) : Res (BitVec 32) := do
  let r ← modWord x.ws (cabs32 y)
  .ok (if x.neg then -r else r)

/-- `mods1`, bigint.hpp:1891-1896; `x % int`. -/
def mods1 (x : Big) (y : BitVec 32) : Res Big := do
  let r ← divMods1Rem x y
  .ok ⟨x.neg, (ofInt32 r).ws⟩

/-- `divu1`, bigint.hpp:1780-1783 through `udiv_modu1` 1898-1917; `x / word_t`. -/
def divu1 (cap : Cap) (x : Big) (y : Word) : Res Big :=
  if cap.fits x.ws.length then do
    let (q, _) ← divWord x.ws y
    .ok ⟨false, (trim false q).ws⟩
  else .ok zero

/-- `modu1`, bigint.hpp:1785-1790; `x % word_t`.  `udiv_modu1` is called with a null quotient pointer and passes it to
`div_word`, which stores `q[i]` for every word of `x` (bigint.hpp:1911, 450-452): a write through a null pointer. -/
def modu1 (x : Big) (y : Word) : Res Big := do
  check (y != 0)
  if x.ws.length > 0 then .error .ub else .ok ⟨x.neg, [0]⟩

/-- `shl`, bigint.hpp:1947-1958; `operator<<`, `operator<<=`.  The flag returned by `resize` is ignored: on a fixed
buffer that is too small `shift_left` stores beyond the array, which is undefined behaviour. -/
def shl (cap : Cap) (x : Big) (n : Nat) : Res Big :=
  let yn := x.ws.length + (n + 31) / 32
  if cap.fits yn then .ok (trim x.neg (shiftLeft x.ws n)) else .error .ub

/-- `shr`, bigint.hpp:1961-1976; `operator>>`, `operator>>=`.  `yn ≤ xn`, so the resize of a buffer that holds `x`
succeeds. -/
def shr (x : Big) (n : Nat) : Big :=
  if x.ws.length * 32 ≤ n then zero else trim x.neg (shiftRight x.ws n)

/-- `neg`, bigint.hpp:1978-1990; unary minus 2596. -/
def negate (x : Big) : Big := ⟨!x.neg, x.ws⟩

/-- `abs`, bigint.hpp:1992-2008. -/
def abs (x : Big) : Big := ⟨false, x.ws⟩

/-- `or_bit`, bigint.hpp:2011-2035; `zNeg` is the sign flag `z` had before the call (false for `operator|`). -/
def orBit (zNeg : Bool) (x y : Big) : Big :=
  let (px, py) := if x.ws.length < y.ws.length then (y, x) else (x, y)
  let yn := py.ws.length
  trim zNeg (List.zipWith (· ||| ·) (x.ws.take yn) (y.ws.take yn) ++ px.ws.drop yn)

/-- `and_bit`, bigint.hpp:2037-2059. -/
def andBit (zNeg : Bool) (x y : Big) : Big :=
  let (_, py) := if x.ws.length < y.ws.length then (y, x) else (x, y)
  let yn := py.ws.length
  trim zNeg (List.zipWith (· &&& ·) (x.ws.take yn) (y.ws.take yn))

/-- `or_bitu1`, bigint.hpp:2061-2066. -/
def orBitu1 (x : Big) (y : Word) : Big :=
  match x.ws with
  | [] => x
  | w :: ws => ⟨x.neg, (w ||| y) :: ws⟩

/-- `and_bitu1`, bigint.hpp:2068-2078. -/
def andBitu1 (x : Big) (y : Word) : Big := ⟨false, [x.ws.headD 0 &&& y]⟩

/-- `bit_length`, bigint.hpp:1501-1511. -/
def bitLength (x : Big) : Nat :=
  if x.isZero then 1 else (x.ws.length - 1) * 32 + 1 + bsr32 (x.ws.getLastD 0)

/-- `byte_length`, bigint.hpp:1694-1697. -/
def byteLength (x : Big) : Nat := (x.bitLength + 7) / 8

/-- `test_bit`, bigint.hpp:1514-1524. -/
def testBit (x : Big) (i : Nat) : Bool :=
  let q := i / 32
  let r := i % 32
  if q ≥ x.ws.length then false
  else (x.ws[q]?.getD 0 &&& (1#32 <<< r)) != 0

/-- `get_int32`, bigint.hpp:1667-1682: `none` is the return value `false`.  `n = buf_[0]` converts the unsigned word to
`int32_t` (modulo 2^32). -/
def getInt32 (x : Big) : Option (BitVec 32) :=
  if x.ws.length > 1 then none
  else
    let n : BitVec 32 := x.ws.headD 0
    some (if x.isNegative && decide (n.toInt > 0) then -n else n)

/-! ### bytes -/

abbrev Byte := BitVec 8

/-- Little-endian 32-bit load, `p_wdata[k]` (bigint.hpp:1407-1410).  The cast to `word_t*` of a possibly unaligned
byte pointer is taken to be an ordinary unaligned load (wasm). -/
def leLoad (b0 b1 b2 b3 : Byte) : Word :=
  b0.setWidth 32 ||| (b1.setWidth 32 <<< 8) ||| (b2.setWidth 32 <<< 16) ||| (b3.setWidth 32 <<< 24)

/-- The words `p_wdata[0 .. n_words)` in memory order. -/
def memWords : List Byte → List Word
  | b0 :: b1 :: b2 :: b3 :: t => leLoad b0 b1 b2 b3 :: memWords t
  | _ => []

/-- Loop bigint.hpp:1416-1418 over the leading bytes: `w |= b_j << 8*((n_left-1-j) % 4)`; the argument list is the
remaining bytes, so its length is `n_left - j`. -/
def leadWord : List Byte → Word → Word
  | [], w => w
  | b :: t, w => leadWord t (w ||| (b.setWidth 32 <<< (8 * (t.length % 4))))

/-- `get_word_size(data)`, utils.hpp:45-60: number of words for `n` bytes. -/
def wordSize (n : Nat) : Nat := (n + 3) / 4

/-- `set_bytes`, bigint.hpp:1382-1424, run-time path; `none` is the return value `false`. -/
def setBytes (cap : Cap) (data : List Byte) : Option Big :=
  if data.length = 0 then some zero
  else if cap.fits (wordSize data.length) then
    let nLeft := data.length % 4
    let ws := (memWords (data.drop nLeft)).reverse.map bswapWord
    let ws := if nLeft ≠ 0 then ws ++ [leadWord (data.take nLeft) 0] else ws
    some (trim false ws)
  else none

/-- Constructor from bytes, bigint.hpp:1164-1190. -/
def ofBytes (cap : Cap) (data : List Byte) : Res Big :=
  match setBytes cap data with
  | some x => .ok x
  | none => .error .abort

/-- Byte `data[i]` stored by `get_bytes` (bigint.hpp:1439-1442), in terms of `b = num_bytes - 1 - i`. -/
def byteAt (x : Big) (b : Nat) : Byte := ((x.ws[b / 4]?.getD 0) >>> (8 * (b % 4))).setWidth 8

/-- Loop of `get_bytes`, from the most significant byte (`n` bytes remaining). -/
def bytesGo (x : Big) : Nat → List Byte
  | 0 => []
  | n + 1 => byteAt x n :: bytesGo x n

/-- `get_bytes`, bigint.hpp:1432-1444: the span after the call; `none` is the return value `false`. -/
def getBytes (x : Big) (data : List Byte) : Option (List Byte) :=
  let nb := x.byteLength
  if data.length < nb then none else some (bytesGo x nb ++ data.drop nb)

/-- `to_bytes`, bigint.hpp:1450-1455. -/
def toBytes (x : Big) : List Byte :=
  let d := List.replicate x.byteLength (0 : Byte)
  (getBytes x d).getD d

/-! ### Non-adjacent form -/

/-- Loop of `to_naf`, bigint.hpp:1466-1477.  `(num % 4).get_int32(nd)` leaves `nd` in `{1, 3}` here; the failure of
`get_int32` (impossible) would leave `nd` uninitialised.  The digit is stored as a `char`. -/
def nafGo (cap : Cap) : Nat → Big → Res (List (BitVec 8))
  | 0, _ => .error .fuel
  | f + 1, num =>
    if compareu1 num 0 > 0 then
      if num.isOdd then do
        let m ← mods1 num 4
        match getInt32 m with
        | none => .error .ub
        | some nd0 =>
          let nd : BitVec 32 := 2 - nd0
          let rest ← nafGo cap f (shr (subs1 cap num nd) 1)
          .ok (nd.setWidth 8 :: rest)
      else do
        let rest ← nafGo cap f (shr num 1)
        .ok (0 :: rest)
    else .ok []

/-- `to_naf`, bigint.hpp:1461-1479. -/
def toNaf (cap : Cap) (x : Big) : Res (List (BitVec 8)) := nafGo cap (x.bitLength + 2) x

/-- `to_rnaf`, bigint.hpp:1485-1490. -/
def toRnaf (cap : Cap) (x : Big) : Res (List (BitVec 8)) := do
  let n ← toNaf cap x
  .ok n.reverse

end Big
end Ack
