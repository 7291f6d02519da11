import Verif.Model.Outcome
/-!
# Word-level routines of bigint.hpp (`namespace ack::detail`)

`word_t` is `uint32_t` (include/ack/types.hpp), modelled by `BitVec 32`; `uint64_t` intermediates are
`BitVec 64`, so every wrap-around of the C++ code is a wrap-around of the model.
An array `x[0..n)` is the list of its words, least significant first (as in the code).
A routine that fills `z[0..n)` returns the list of the words it stores.
-/
namespace Ack

abbrev Word := BitVec 32
abbrev DWord := BitVec 64

/-- `bswap_word`, bigint.hpp:37-48 (4-byte branch). -/
def bswapWord (x : Word) : Word :=
  ((x &&& 0x000000ff#32) <<< 24) ||| ((x &&& 0x0000ff00#32) <<< 8) |||
  ((x &&& 0x00ff0000#32) >>> 8) ||| ((x &&& 0xff000000#32) >>> 24)

/-- `cabs(int32_t)`, bigint.hpp:62-68.  The two's complement argument is a `BitVec 32`.  `-x` overflows only for
`INT_MIN`, which the code treats separately. -/
def cabs32 (x : BitVec 32) : BitVec 32 :=
  if 0 ≤ x.toInt then x else if x.toInt = -2147483648 then 2147483648#32 else -x

/-- `cabs(int64_t)`, bigint.hpp:71-77. -/
def cabs64 (x : BitVec 64) : BitVec 64 :=
  if 0 ≤ x.toInt then x else if x.toInt = -9223372036854775808 then 9223372036854775808#64 else -x

/-- `cmp_ge_n`, bigint.hpp:81-90: scans from the most significant word. The recursion looks at the higher words
(the tail) first; `none` stands for "all equal so far". -/
def cmpGeGo : List Word → List Word → Option Bool
  | x :: xs, y :: ys =>
    match cmpGeGo xs ys with
    | some b => some b
    | none => if x > y then some true else if x < y then some false else none
  | _, _ => none

/-- `cmp_ge_n`, bigint.hpp:81-90. -/
def cmpGeN (x y : List Word) : Bool := (cmpGeGo x y).getD true

/-- `cmp_n`, bigint.hpp:100-108. -/
def cmpN : List Word → List Word → Int
  | x :: xs, y :: ys =>
    let c := cmpN xs ys
    if c ≠ 0 then c else if x ≠ y then (if x > y then 1 else -1) else 0
  | _, _ => 0

/-- `get_real_size`, bigint.hpp:124-131, on the first `n` words of `x`: the loop variable is the model's recursion
argument.  Result at least 1. -/
def realSizeGo (x : List Word) : Nat → Nat
  | 0 => 0
  | n + 1 => if x[n]?.getD 0 ≠ 0 then n + 1 else realSizeGo x n

/-- `get_real_size`, bigint.hpp:124-131 (called with `n = ` length of the list). -/
def getRealSize (x : List Word) : Nat :=
  let n := realSizeGo x x.length
  if n > 0 then n else 1

/-- `bsr<uint32_t>`, bigint.hpp:134-143: `countl_zero(x) ^ 0x1f`. -/
def bsr32 (x : Word) : Nat := (x.clz.toNat) ^^^ 0x1f

/-- `mul_word1`, bigint.hpp:154-159: `(H, L)`. -/
def mulWord1 (x y : Word) : Word × Word :=
  let t : DWord := x.setWidth 64 * y.setWidth 64
  ((t >>> 32).setWidth 32, t.setWidth 32)

/-- Loop of `get_add`, bigint.hpp:172-183, started with carry `c`. -/
def addGo : List Word → List Word → DWord → List Word × Word
  | x :: xs, y :: ys, c =>
    let v : DWord := x.setWidth 64 + y.setWidth 64 + c
    let r := addGo xs ys (v >>> 32)
    (v.setWidth 32 :: r.1, r.2)
  | _, _, c => ([], c.setWidth 32)

/-- `add_n`, bigint.hpp:197-200. -/
def addN (x y : List Word) : List Word × Word := addGo x y 0

/-- Loop of `get_sub`, bigint.hpp:202-213, started with borrow `c`; the 64-bit difference wraps and bit 63 is the
borrow. -/
def subGo : List Word → List Word → DWord → List Word × Word
  | x :: xs, y :: ys, c =>
    let v : DWord := x.setWidth 64 - y.setWidth 64 - c
    let r := subGo xs ys (v >>> 63)
    (v.setWidth 32 :: r.1, r.2)
  | _, _, c => ([], c.setWidth 32)

/-- `sub_n`, bigint.hpp:227-230. -/
def subN (x y : List Word) : List Word × Word := subGo x y 0

/-- Loop of `get_mul_word`, bigint.hpp:232-245, started with high part `h`. -/
def mulWordGo (y : Word) : List Word → DWord → List Word × Word
  | x :: xs, h =>
    let v : DWord := x.setWidth 64 * y.setWidth 64 + h
    let r := mulWordGo y xs (v >>> 32)
    (v.setWidth 32 :: r.1, r.2)
  | [], h => ([], h.setWidth 32)

/-- `mul_word_n`, bigint.hpp:247-250. -/
def mulWordN (x : List Word) (y : Word) : List Word × Word := mulWordGo y x 0

/-- Loop of `get_mul_word_add`, bigint.hpp:252-267: `z += x * y`. -/
def mulWordAddGo (y : Word) : List Word → List Word → DWord → List Word × Word
  | z :: zs, x :: xs, h =>
    let v : DWord := x.setWidth 64 * y.setWidth 64 + h + z.setWidth 64
    let r := mulWordAddGo y zs xs (v >>> 32)
    (v.setWidth 32 :: r.1, r.2)
  | _, _, h => ([], h.setWidth 32)

/-- `mul_word_add_n`, bigint.hpp:269-272. -/
def mulWordAddN (z x : List Word) (y : Word) : List Word × Word := mulWordAddGo y z x 0

/-- `shl_n`, bigint.hpp:307-320, `0 < bit < 32`.  `low` is the word below (`0` under the lowest word: `pz[0]` takes no
bits from below).  The C++ loop runs downwards (so that `z` may overlap `x`), the model upwards; the stored words are
the same. -/
def shlGo (bit : Nat) : Word → List Word → List Word × Word
  | low, x :: xs =>
    let r := shlGo bit x xs
    (((x <<< bit) ||| (low >>> (32 - bit))) :: r.1, r.2)
  | low, [] => ([], low >>> (32 - bit))

/-- `shl_n`, bigint.hpp:307-320: stored words and returned top bits. -/
def shlN (x : List Word) (bit : Nat) : List Word × Word := shlGo bit 0 x

/-- `shr_n`, bigint.hpp:324-335, `0 < bit < 32`. -/
def shrN (bit : Nat) : List Word → List Word
  | [] => []
  | [x] => [x >>> bit]
  | x :: t :: xs => ((x >>> bit) ||| (t <<< (32 - bit))) :: shrN bit (t :: xs)

/-- `shift_left`, bigint.hpp:344-362: the `yn` words stored. -/
def shiftLeft (x : List Word) (bit : Nat) : List Word :=
  let q := bit / 32
  let r := bit % 32
  if r = 0 then List.replicate q 0 ++ x
  else
    let s := shlN x r
    List.replicate q 0 ++ (s.1 ++ [s.2])

/-- `shift_right`, bigint.hpp:370-385: the `xn - bit/32` words stored. -/
def shiftRight (x : List Word) (bit : Nat) : List Word :=
  let q := bit / 32
  let r := bit % 32
  if r = 0 then x.drop q else shrN r (x.drop q)

/-- Carry loop of `add_word`, bigint.hpp:396-401: adds one to the words until a word does not wrap. -/
def incGo : List Word → List Word × Word
  | [] => ([], 1)
  | y :: ys =>
    let t := y + 1
    if t ≠ 0 then (t :: ys, 0)
    else
      let r := incGo ys
      (t :: r.1, r.2)

/-- `add_word`, bigint.hpp:388-402. -/
def addWord (y : List Word) (x : Word) : List Word × Word :=
  match y with
  | [] => ([], 0)
  | y0 :: ys =>
    let t := y0 + x
    if t ≥ x then (t :: ys, 0)
    else
      let r := incGo ys
      (t :: r.1, r.2)

/-- Borrow loop of `sub_word`, bigint.hpp:413-418. -/
def decGo : List Word → List Word × Word
  | [] => ([], 1)
  | y :: ys =>
    if y ≠ 0 then ((y - 1) :: ys, 0)
    else
      let r := decGo ys
      ((y - 1) :: r.1, r.2)

/-- `sub_word`, bigint.hpp:405-419. -/
def subWord (y : List Word) (x : Word) : List Word × Word :=
  match y with
  | [] => ([], 0)
  | t :: ys =>
    if t ≥ x then ((t - x) :: ys, 0)
    else
      let r := decGo ys
      ((t - x) :: r.1, r.2)

/-- `div_word1`, bigint.hpp:421-428: quotient and remainder of `[H:L] / y`.  The quotient is cut to 32 bits, exact when
`H < y` (the code's assertion).  `y = 0` does not reach this function (see `divWord`). -/
def divWord1 (h l y : Word) : Word × Word :=
  let t : DWord := (h.setWidth 64 <<< 32) ||| l.setWidth 64
  ((t / y.setWidth 64).setWidth 32, (t % y.setWidth 64).setWidth 32)

/-- Loop of `div_word`, bigint.hpp:449-453: from the top word down; quotient words and remainder. -/
def divWordGo (y : Word) : List Word → List Word × Word
  | [] => ([], 0)
  | x :: xs =>
    let r := divWordGo y xs
    let d := divWord1 r.2 x y
    (d.1 :: r.1, d.2)

/-- `div_word`, bigint.hpp:444-454 (with a non-null `q`). -/
def divWord (x : List Word) (y : Word) : Res (List Word × Word) := do
  check (y != 0)
  .ok (divWordGo y x)

/-- `mod_word`, bigint.hpp:460-470. -/
def modWord (x : List Word) (y : Word) : Res Word := do
  check (y != 0)
  .ok (divWordGo y x).2

/-- The correction loop of `div_small`, bigint.hpp:519-522: `while (x >= y) { x -= y; qv++; }`. -/
def divSmallLoop (y : List Word) : Nat → List Word → Word → Res (List Word × Word)
  | 0, _, _ => .error .fuel
  | f + 1, x, qv => if cmpGeN x y then divSmallLoop y f (subN x y).1 (qv + 1) else .ok (x, qv)

/-- Fuel for the loop above: two passes, the second of which ends it. -/
def divSmallFuel : Nat := 2

/-- `div_small`, bigint.hpp:473-527.  `x` has `xn` words, `y` has `yn ≥ 2` words with non-zero top word.
`none` is the code's return value 0 ("not handled"); `some (q, x, rn)` is: single quotient word, remainder array, and
real size of the remainder. -/
def divSmall (x y : List Word) : Res (Option (Word × List Word × Nat)) :=
  let xn := x.length
  let yn := y.length
  if xn > yn then .ok none
  else
    let yTop := y.getLastD 0
    let ret : Int := if xn < yn then -1 else cmpN x y
    if ret < 0 then .ok (some (0, x, getRealSize x))
    else if ret = 0 then
      let x' := List.replicate xn (0 : Word)
      .ok (some (1, x', getRealSize x'))
    else if yTop ≥ 65536#32 then do
      let st : List Word × Word :=
        if yTop = 0xffffffff#32 then ((subN x y).1, 1)
        else
          let qv := (x.getLastD 0) / (yTop + 1)
          ((subN x (mulWordN y qv).1).1, qv)
      let (x', qv) ← divSmallLoop y divSmallFuel st.1 st.2
      .ok (some (qv, x', getRealSize x'))
    else .ok none

/-- One iteration of the main loop of `div_full_bit` when `x[xn-1] != 0`, bigint.hpp:559-588.  The state is `(q, x)`
with `xn = x.length`; `q` is the quotient array.  `.inr` means `break`. -/
def dfbStep (y : List Word) (rev : Word) (q x : List Word) : (List Word × List Word) ⊕ (List Word × List Word) :=
  let yn := y.length
  let xn := x.length
  let yTop := y.getLastD 0
  let d := xn - yn
  if cmpGeN (x.drop d) y then
    let x' := x.take d ++ (subN (x.drop d) y).1
    let q' := q.take d ++ (addWord (q.drop d) 1).1
    if d = 0 then .inr (q', x') else .inl (q', x')
  else if d = 0 then .inr (q, x)
  else
    let xt := x.getLastD 0
    let v : Word :=
      if yTop = 0xffffffff#32 then xt
      else
        let hl := mulWord1 xt rev
        let v := (hl.1 <<< 1) ||| (hl.2 >>> 31)
        if v = 0 then 1 else v
    let t := mulWordN y v
    let mid := (x.drop (d - 1)).take yn
    let s := subN mid t.1
    let ret := t.2 + s.2
    let x' := x.take (d - 1) ++ s.1 ++ [xt - ret]
    let q' := q.take (d - 1) ++ (addWord (q.drop (d - 1)) v).1
    .inl (q', x')

/-- Main loop of `div_full_bit`, bigint.hpp:553-589.  Decreasing `xn` is dropping the (zero) top word. -/
def dfbLoop (y : List Word) (rev : Word) : Nat → List Word → List Word → Res (List Word × List Word)
  | 0, _, _ => .error .fuel
  | f + 1, q, x =>
    if x.length ≥ y.length then
      if x.getLastD 0 = 0 then dfbLoop y rev f q x.dropLast
      else
        match dfbStep y rev q x with
        | .inl (q', x') => dfbLoop y rev f q' x'
        | .inr (q', x') => .ok (q', x')
    else .ok (q, x)

/-- Base-2^32 value; used by the model only to give the search of `fp_sqrt` enough fuel. -/
def wordsFuel : List Word → Nat
  | [] => 0
  | w :: ws => w.toNat + 4294967296 * wordsFuel ws

/-- `div_full_bit`, bigint.hpp:530-594: the top bit of `y` is set.  Returns the `qn` quotient words, the remaining `x`
words and the real size of the remainder.  The quotient array is present in the model also when the code passes
`q = nullptr`; it does not influence `x`.  The fuel: twelve passes for every word that `x` has more than `y`, and thirteen. -/
def divFullBit (qn : Nat) (x y : List Word) : Res (List Word × List Word × Nat) := do
  let yTop := y.getLastD 0
  let rev : Word := if yTop ≠ 0xffffffff#32 then (divWord1 0x80000000#32 0 (yTop + 1)).1 else 0
  let (q, x') ← dfbLoop y rev (12 * (x.length - y.length) + 13) (List.replicate qn 0) x
  .ok (q, x', getRealSize x')

/-- `div1`, bigint.hpp:597-617: quotient words and the remainder words (the returned size is 1). -/
def div1 (qn : Nat) (x : List Word) (y0 : Word) : Res (List Word × List Word) := do
  let xn := getRealSize x
  let (q, t) ← divWord (x.take xn) y0
  .ok (q ++ List.replicate (qn - xn) 0, [t])

/-- `div`, bigint.hpp:620-662: quotient array of `qn` words and the `rn` remainder words (`rn` is the C++ return
value, the remainder is what the code leaves in `x[0..rn)`; what it leaves above is never read by its only caller,
bigint.hpp:997). -/
def divArr (qn : Nat) (x y : List Word) : Res (List Word × List Word) :=
  match y with
  | [y0] => div1 qn x y0
  | _ => do
    let xr := x.take (getRealSize x)
    match ← divSmall xr y with
    | some (qv, r, rn) => .ok (qv :: List.replicate (qn - 1) 0, r.take rn)
    | none =>
      let shift := 31 - bsr32 (y.getLastD 0)
      if shift ≠ 0 then
        let yShift := (shlN y shift).1
        let s := shlN xr shift
        let xx := if s.2 ≠ 0 then s.1 ++ [s.2] else s.1
        let (q, r, rn) ← divFullBit qn xx yShift
        .ok (q, shrN shift (r.take rn))
      else
        let (q, r, rn) ← divFullBit qn xr y
        .ok (q, r.take rn)

/-- Rows of `mul_nm`, bigint.hpp:692-696, for the remaining words `ys` of `y`: `z` is the window `z[i..i+xn)`; each row
adds `x * y[i]` to the window and stores the carry above it. -/
def mulRows (x : List Word) : List Word → List Word → List Word
  | [], z => z
  | y :: ys, z =>
    let r := mulWordAddN z x y
    match r.1 with
    | [] => []
    | z0 :: zs => z0 :: mulRows x ys (zs ++ [r.2])

/-- Main part of `mul_nm`, bigint.hpp:692-696, for `xn ≥ yn ≥ 1`; `z` has `xn + yn` words.  The copies made when `z`
aliases an operand (678-690) do not change the result. -/
def mulNMge (x y : List Word) : List Word :=
  match y with
  | [] => []
  | y0 :: ys =>
    let r := mulWordN x y0
    match r.1 with
    | [] => []
    | z0 :: zs => z0 :: mulRows x ys (zs ++ [r.2])

/-- `mul_nm`, bigint.hpp:665-699: the swap that makes `x` the longer operand, then the main part. -/
def mulNM (x y : List Word) : List Word :=
  if y.length > x.length then mulNMge y x else mulNMge x y

end Ack
