import Verif.Model.Buffer
import Verif.Model.BigintNT
/-!
# `bigint` on memory: aliasing of the destination with operands

`Model/Bigint.lean` models an operation `op(z, x, y)` as a function of the values of `x` and `y`.  Here the same
routines are modelled on the memory of `Model/Buffer.lean`, with pointers, in the order of the reads and writes of the
C++ code, and with `z`, `x`, `y` naming objects that may coincide.  A pointer into a released block is invalid, and
reading an indeterminate word is undefined behaviour.

Local arrays (`__builtin_alloca`, VLAs) are blocks that are never released (their release at function exit is not
observable).
-/
namespace Ack.Mem

/-! ### Array loops on pointers -/

/-- The loops `for (i = 0; i < n; i++) z[i] = f(x[i], y[i])` with a running carry `c`. -/
def mapUp2 {σ : Type} (f : σ → Word → Word → Word × σ) : Nat → Ptr → Ptr → Ptr → Heap → σ → Res (Heap × σ)
  | 0, _, _, _, h, c => .ok (h, c)
  | n + 1, z, x, y, h, c => do
    let a ← h.read x
    let b ← h.read y
    let r := f c a b
    let h ← h.write z r.1
    mapUp2 f n (z.add 1) (x.add 1) (y.add 1) h r.2

/-- The loops `for (i = 0; i < n; i++) z[i] = f(x[i])` with a running carry `c`. -/
def mapUp1 {σ : Type} (f : σ → Word → Word × σ) : Nat → Ptr → Ptr → Heap → σ → Res (Heap × σ)
  | 0, _, _, h, c => .ok (h, c)
  | n + 1, z, x, h, c => do
    let a ← h.read x
    let r := f c a
    let h ← h.write z r.1
    mapUp1 f n (z.add 1) (x.add 1) h r.2

/-- The loops `for (i = n - 1; i >= 0; i--) z[i] = f(x[i])` with a running carry `c`. -/
def mapDown1 {σ : Type} (f : σ → Word → Word × σ) : Nat → Ptr → Ptr → Heap → σ → Res (Heap × σ)
  | 0, _, _, h, c => .ok (h, c)
  | n + 1, z, x, h, c => do
    let a ← h.read (x.add n)
    let r := f c a
    let h ← h.write (z.add n) r.1
    mapDown1 f n z x h r.2

/-- Body of `get_add`, bigint.hpp:177-181. -/
def addF (c : DWord) (x y : Word) : Word × DWord :=
  let v : DWord := x.setWidth 64 + y.setWidth 64 + c
  (v.setWidth 32, v >>> 32)

/-- `add_n`, bigint.hpp:172-200. -/
def mAddN (z x y : Ptr) (n : Nat) (h : Heap) : Res (Heap × Word) := do
  let (h, c) ← mapUp2 addF n z x y h 0
  .ok (h, c.setWidth 32)

/-- Body of `get_sub`, bigint.hpp:207-211. -/
def subF (c : DWord) (x y : Word) : Word × DWord :=
  let v : DWord := x.setWidth 64 - y.setWidth 64 - c
  (v.setWidth 32, v >>> 63)

/-- `sub_n`, bigint.hpp:202-230. -/
def mSubN (z x y : Ptr) (n : Nat) (h : Heap) : Res (Heap × Word) := do
  let (h, c) ← mapUp2 subF n z x y h 0
  .ok (h, c.setWidth 32)

/-- Body of `get_mul_word`, bigint.hpp:238-241. -/
def mulF (y : Word) (H : DWord) (x : Word) : Word × DWord :=
  let v : DWord := x.setWidth 64 * y.setWidth 64 + H
  (v.setWidth 32, v >>> 32)

/-- `mul_word_n`, bigint.hpp:232-250. -/
def mMulWordN (z x : Ptr) (y : Word) (n : Nat) (h : Heap) : Res (Heap × Word) := do
  let (h, c) ← mapUp1 (mulF y) n z x h 0
  .ok (h, c.setWidth 32)

/-- Body of `get_mul_word_add`, bigint.hpp:259-263. -/
def mulAddF (y : Word) (H : DWord) (x z : Word) : Word × DWord :=
  let v : DWord := x.setWidth 64 * y.setWidth 64 + H + z.setWidth 64
  (v.setWidth 32, v >>> 32)

/-- `get_mul_word_add(n)(z, x, y)`, bigint.hpp:252-267. -/
def mMulWordAddN (z x : Ptr) (y : Word) (n : Nat) (h : Heap) : Res (Heap × Word) := do
  let (h, c) ← mapUp2 (mulAddF y) n z x z h 0
  .ok (h, c.setWidth 32)

/-- `copy_n`, bigint.hpp:293-297. -/
def mCopyN (z x : Ptr) (n : Nat) (h : Heap) : Res Heap := do
  let (h, _) ← mapUp1 (fun (_ : Unit) w => (w, ())) n z x h ()
  .ok h

/-- `clear_n`, bigint.hpp:300-304. -/
def mClearN : Nat → Ptr → Heap → Res Heap
  | 0, _, h => .ok h
  | n + 1, x, h => do
    let h ← h.write x 0
    mClearN n (x.add 1) h

/-- Loop of `shl_n`, bigint.hpp:313-318: `prev` is the word at index `n`, `z[n..]` has still to be written for the
indices `n` down to 0. -/
def mShlGo (bit : Nat) (z x : Ptr) : Nat → Word → Heap → Res Heap
  | 0, prev, h => h.write z (prev <<< bit)
  | n + 1, prev, h => do
    let t ← h.read (x.add n)
    let h ← h.write (z.add (n + 1)) ((prev <<< bit) ||| (t >>> (32 - bit)))
    mShlGo bit z x n t h

/-- `shl_n`, bigint.hpp:307-320, for `n ≥ 1`. -/
def mShlN (z x : Ptr) (bit n : Nat) (h : Heap) : Res (Heap × Word) := do
  let prev ← h.read (x.add (n - 1))
  let h ← mShlGo bit z x (n - 1) prev h
  .ok (h, prev >>> (32 - bit))

/-- Loop of `shr_n`, bigint.hpp:329-334: `n` words after `prev` remain; `z` is where the next word goes, `x` the next
word to read. -/
def mShrGo (bit : Nat) : Nat → Ptr → Ptr → Word → Heap → Res Heap
  | 0, z, _, prev, h => h.write z (prev >>> bit)
  | n + 1, z, x, prev, h => do
    let t ← h.read x
    let h ← h.write z ((prev >>> bit) ||| (t <<< (32 - bit)))
    mShrGo bit n (z.add 1) (x.add 1) t h

/-- `shr_n`, bigint.hpp:324-335, for `n ≥ 1`. -/
def mShrN (z x : Ptr) (bit n : Nat) (h : Heap) : Res Heap := do
  let prev ← h.read x
  mShrGo bit (n - 1) z (x.add 1) prev h

/-- `shift_left`, bigint.hpp:344-362. -/
def mShiftLeft (y x : Ptr) (bit xn : Nat) (h : Heap) : Res Heap := do
  let q := bit / 32
  let r := bit % 32
  let h ← if r = 0 then do
      let (h, _) ← mapDown1 (fun (_ : Unit) w => (w, ())) xn (y.add q) x h ()
      pure h
    else do
      let (h, c) ← mShlN (y.add q) x r xn h
      h.write (y.add (q + xn)) c
  mClearN q y h

/-- `shift_right`, bigint.hpp:370-385. -/
def mShiftRight (y x : Ptr) (bit xn : Nat) (h : Heap) : Res Heap :=
  let q := bit / 32
  let r := bit % 32
  if r = 0 then mCopyN y (x.add q) (xn - q) h else mShrN y (x.add q) r (xn - q) h

/-- Carry loop of `add_word`, bigint.hpp:396-401. -/
def mIncGo : Nat → Ptr → Heap → Res (Heap × Word)
  | 0, _, h => .ok (h, 1)
  | n + 1, y, h => do
    let a ← h.read y
    let t := a + 1
    let h ← h.write y t
    if t ≠ 0 then .ok (h, 0) else mIncGo n (y.add 1) h

/-- `add_word`, bigint.hpp:388-402. -/
def mAddWord (y : Ptr) (n : Nat) (x : Word) (h : Heap) : Res (Heap × Word) :=
  match n with
  | 0 => .ok (h, 0)
  | n + 1 => do
    let a ← h.read y
    let t := a + x
    let h ← h.write y t
    if t ≥ x then .ok (h, 0) else mIncGo n (y.add 1) h

/-- Borrow loop of `sub_word`, bigint.hpp:413-418. -/
def mDecGo : Nat → Ptr → Heap → Res (Heap × Word)
  | 0, _, h => .ok (h, 1)
  | n + 1, y, h => do
    let t ← h.read y
    let h ← h.write y (t - 1)
    if t ≠ 0 then .ok (h, 0) else mDecGo n (y.add 1) h

/-- `sub_word`, bigint.hpp:405-419. -/
def mSubWord (y : Ptr) (n : Nat) (x : Word) (h : Heap) : Res (Heap × Word) :=
  match n with
  | 0 => .ok (h, 0)
  | n + 1 => do
    let t ← h.read y
    let h ← h.write y (t - x)
    if t ≥ x then .ok (h, 0) else mDecGo n (y.add 1) h

/-- `div_word`, bigint.hpp:444-454. -/
def mDivWord (q x : Ptr) (n : Nat) (y : Word) (h : Heap) : Res (Heap × Word) := do
  check (y != 0)
  mapDown1 (fun r w => divWord1 r w y) n q x h 0

/-- Rows of `mul_nm`, bigint.hpp:693-696: rows `i, i+1, ...` for the remaining `k` words of `y`; `z` is `&z[i]`. -/
def mMulRows (x : Ptr) (xn : Nat) : Nat → Ptr → Ptr → Heap → Res Heap
  | 0, _, _, h => .ok h
  | k + 1, z, y, h => do
    let w ← h.read y
    let (h, c) ← mMulWordAddN z x w xn h
    let h ← h.write (z.add xn) c
    mMulRows x xn k (z.add 1) (y.add 1) h

/-- `mul_nm` after the swap, bigint.hpp:676-698, for `xn, yn ≥ 1`: local copies of the operands that alias `z`, rows. -/
def mMulNMge (z x : Ptr) (xn : Nat) (y : Ptr) (yn : Nat) (h : Heap) : Res Heap := do
  let (h, x) ← if z = x then do
      let (h, p) := h.alloc xn false none
      let h ← mCopyN ⟨p, 0⟩ x xn h
      pure (h, (⟨p, 0⟩ : Ptr))
    else pure (h, x)
  let (h, y) ← if z = y then do
      let (h, p) := h.alloc yn false none
      let h ← mCopyN ⟨p, 0⟩ y yn h
      pure (h, (⟨p, 0⟩ : Ptr))
    else pure (h, y)
  let y0 ← h.read y
  let (h, c) ← mMulWordN z x y0 xn h
  let h ← h.write (z.add xn) c
  mMulRows x xn (yn - 1) (z.add 1) (y.add 1) h

/-- `mul_nm`, bigint.hpp:665-699, for `xn, yn ≥ 1`. -/
def mMulNM (z x : Ptr) (xn : Nat) (y : Ptr) (yn : Nat) (h : Heap) : Res Heap :=
  if yn > xn then mMulNMge z y yn x xn h else mMulNMge z x xn y yn h

/-! ### `bigint` objects -/

/-- All `bigint` objects (bigint.hpp:782-785): object `i` has the buffer `mem.objs[i]`, `size_ = size i` and
`is_neg_ = neg i`. -/
structure BigSt where
  mem : State
  size : Nat → Nat
  neg : Nat → Bool

namespace BigSt

/-- The buffer of object `i` (the theorems only speak about existing objects). -/
def buf (s : BigSt) (i : Nat) : Res Flex :=
  match s.mem.objs[i]? with
  | some o => .ok o
  | none => .error .ub

/-- `&buf_[k]`, bounds-checked (buffer.hpp:119-129, 289-309). -/
def elem (s : BigSt) (i k : Nat) : Res Ptr := do
  let o ← s.buf i
  check (decide (k < o.size))
  .ok (o.data.add k)

/-- `buf_.resize(n)` of object `i`. -/
def resize (K : Kind) (s : BigSt) (i n : Nat) : Res (BigSt × Bool) := do
  let o ← s.buf i
  let (h, o, f) ← Mem.resize K s.mem.heap o n
  .ok ({ s with mem := ⟨h, s.mem.objs.set i o⟩ }, f)

/-- Replace the memory. -/
def withHeap (s : BigSt) (h : Heap) : BigSt := { s with mem := { s.mem with heap := h } }

/-- `is_neg_ = v` of object `i`. -/
def setNeg (s : BigSt) (i : Nat) (v : Bool) : BigSt := { s with neg := upd s.neg i v }

/-- `size_ = n` of object `i`. -/
def setSize (s : BigSt) (i n : Nat) : BigSt := { s with size := upd s.size i n }

/-- `buf_[k] = w` of object `i`. -/
def store (s : BigSt) (i k : Nat) (w : Word) : Res BigSt := do
  let p ← s.elem i k
  let h ← s.mem.heap.write p w
  .ok (s.withHeap h)

/-- The value `buf_[k]` of object `i`. -/
def load (s : BigSt) (i k : Nat) : Res Word := do
  let p ← s.elem i k
  s.mem.heap.read p

/-- `operator=(word_t)`, bigint.hpp:1235-1245 (the flag of `resize` is ignored). -/
def assignWord (K : Kind) (s : BigSt) (i : Nat) (w : Word) : Res BigSt := do
  let s := s.setNeg i false
  let (s, _) ← s.resize K i 1
  let s ← s.store i 0 w
  .ok (s.setSize i 1)

/-- `clear()`, bigint.hpp:1492-1495: `*this = 0` (an `int`, 1227-1233). -/
def clear (K : Kind) (s : BigSt) (i : Nat) : Res BigSt := do
  let s ← s.assignWord K i 0
  .ok (s.setNeg i false)

/-- Loop of `trim`, bigint.hpp:791-797; the first argument is the loop variable. -/
def trimGo (s : BigSt) (i : Nat) : Nat → Res Nat
  | 0 => .ok 1
  | k + 1 => do
    let w ← s.load i (k + 1)
    if w ≠ 0 then .ok (k + 2) else trimGo s i k

/-- `trim(n)`, bigint.hpp:788-806.  The early `return` of the loop leaves `is_neg_` alone. -/
def trim (s : BigSt) (i n : Nat) : Res BigSt :=
  if n > 0 then do
    let m ← trimGo s i (n - 1)
    let s := s.setSize i m
    if m > 1 then .ok s
    else do
      let w ← s.load i 0
      .ok (if w = 0 then s.setNeg i false else s)
  else .ok s

/-- `uadd` after the operand pointers were taken and ordered, bigint.hpp:826-842. -/
def uaddGe (K : Kind) (s : BigSt) (z : Nat) (px : Ptr) (xn : Nat) (py : Ptr) (yn : Nat) : Res BigSt := do
  let (s, ok) ← s.resize K z (xn + 1)
  if ok then
    let dst ← s.elem z 0
    let (h, c) ← mAddN dst px py yn s.mem.heap
    let (h, c) ← if xn > yn then do
        let n := xn - yn
        let h ← if dst ≠ px then mCopyN (dst.add yn) (px.add yn) n h else pure h
        mAddWord (dst.add yn) n c h
      else pure (h, c)
    let h ← h.write (dst.add xn) c
    (s.withHeap h).trim z (xn + 1)
  else s.clear K z

/-- `uadd`, bigint.hpp:814-843.  The operand pointers are taken before `z` is resized. -/
def uadd (K : Kind) (s : BigSt) (z x y : Nat) : Res BigSt := do
  let px ← s.elem x 0
  let py ← s.elem y 0
  if s.size y > s.size x then s.uaddGe K z py (s.size y) px (s.size x)
  else s.uaddGe K z px (s.size x) py (s.size y)

/-- `uadd1`, bigint.hpp:845-860. -/
def uadd1 (K : Kind) (s : BigSt) (z x : Nat) (y : Word) : Res BigSt := do
  let xn := s.size x
  let zn := xn + 1
  let (s, ok) ← s.resize K z zn
  if ok then
    let dst ← s.elem z 0
    let src ← s.elem x 0
    let h ← if dst ≠ src then mCopyN dst src xn s.mem.heap else pure s.mem.heap
    let (h, c) ← mAddWord dst xn y h
    let s ← (s.withHeap h).store z (zn - 1) c
    s.trim z zn
  else s.clear K z

/-- `usub1`, bigint.hpp:862-879. -/
def usub1 (K : Kind) (s : BigSt) (z x : Nat) (y : Word) : Res BigSt := do
  let xn := s.size x
  let (s, ok) ← s.resize K z xn
  if ok then
    let dst ← s.elem z 0
    let src ← s.elem x 0
    let h ← if dst ≠ src then mCopyN dst src xn s.mem.heap else pure s.mem.heap
    let (h, _) ← mSubWord dst xn y h
    (s.withHeap h).trim z xn
  else s.clear K z

/-- `usub`, bigint.hpp:881-903. -/
def usub (K : Kind) (s : BigSt) (z x y : Nat) : Res BigSt := do
  let xn := s.size x
  let yn := s.size y
  let (s, ok) ← s.resize K z xn
  if ok then
    let dst ← s.elem z 0
    let px ← s.elem x 0
    let py ← s.elem y 0
    let (h, c) ← mSubN dst px py yn s.mem.heap
    let h ← if xn > yn then do
        let n := xn - yn
        let dst ← s.elem z yn
        let src ← s.elem x yn
        let h ← if dst ≠ src then mCopyN dst src n h else pure h
        let (h, _) ← mSubWord dst n c h
        pure h
      else pure h
    (s.withHeap h).trim z xn
  else s.clear K z

/-- Loop of `cmp_n`, bigint.hpp:100-108, from index `n - 1` down. -/
def cmpGo (h : Heap) (x y : Ptr) : Nat → Res Int
  | 0 => .ok 0
  | n + 1 => do
    let a ← h.read (x.add n)
    let b ← h.read (y.add n)
    if a ≠ b then .ok (if a > b then 1 else -1) else cmpGo h x y n

/-- `ucompare`, bigint.hpp:808-812. -/
def ucompare (s : BigSt) (x y : Nat) : Res Int :=
  if s.size x = s.size y then do
    let px ← s.elem x 0
    let py ← s.elem y 0
    cmpGo s.mem.heap px py (s.size x)
  else .ok (if s.size x > s.size y then 1 else -1)

/-- `_add`, bigint.hpp:905-922. -/
def addSigned (K : Kind) (s : BigSt) (z x : Nat) (xNeg : Bool) (y : Nat) (yNeg : Bool) : Res BigSt :=
  if (xNeg ^^ yNeg) = false then do
    let s ← s.uadd K z x y
    .ok (s.setNeg z xNeg)
  else do
    let r ← s.ucompare x y
    if r ≥ 0 then
      let s ← s.usub K z x y
      .ok (s.setNeg z xNeg)
    else
      let s ← s.usub K z y x
      .ok (s.setNeg z yNeg)

/-- `add(z, x, y)`, bigint.hpp:1699-1702. -/
def add (K : Kind) (s : BigSt) (z x y : Nat) : Res BigSt := s.addSigned K z x (s.neg x) y (s.neg y)

/-- `sub(z, x, y)`, bigint.hpp:1704-1707. -/
def sub (K : Kind) (s : BigSt) (z x y : Nat) : Res BigSt := s.addSigned K z x (s.neg x) y (!s.neg y)

/-- `_addu1`, bigint.hpp:943-959, and (with the same text) `_adds1`, 924-941. -/
def addu1Go (K : Kind) (s : BigSt) (z x : Nat) (y : Word) (yNeg : Bool) : Res BigSt :=
  if (s.neg x ^^ yNeg) = false then do
    let s ← s.uadd1 K z x y
    .ok (s.setNeg z yNeg)
  else do
    let x0 ← s.load x 0
    if s.size x > 1 ∨ x0 ≥ y then
      let s ← s.usub1 K z x y
      .ok (s.setNeg z (s.neg x))
    else
      let s ← s.assignWord K z (y - x0)
      .ok (s.setNeg z yNeg)

/-- `mul(z, x, y)`, bigint.hpp:1710-1729; the flag is the return value. -/
def mul (K : Kind) (s : BigSt) (z x y : Nat) : Res (BigSt × Bool) := do
  let xn := s.size x
  let yn := s.size y
  let zn := xn + yn
  let (s, ok) ← s.resize K z zn
  if ok then
    let pz ← s.elem z 0
    let px ← s.elem x 0
    let py ← s.elem y 0
    let h ← mMulNM pz px xn py yn s.mem.heap
    let s ← (s.withHeap h).trim z zn
    .ok (s.setNeg z (s.neg x ^^ s.neg y), true)
  else .ok (s, false)

/-- `mulu1`, bigint.hpp:1763-1778. -/
def mulu1 (K : Kind) (s : BigSt) (z x : Nat) (y : Word) : Res BigSt := do
  let xn := s.size x
  let zn := xn + 1
  let (s, ok) ← s.resize K z zn
  if ok then
    let pz ← s.elem z 0
    let px ← s.elem x 0
    let (h, c) ← mMulWordN pz px y xn s.mem.heap
    let s ← (s.withHeap h).store z (zn - 1) c
    let s := s.setNeg z (s.neg x)
    s.trim z zn
  else s.clear K z

/-- `shl(y, x, bits)`, bigint.hpp:1947-1958 (the flag of `resize` is ignored). -/
def shl (K : Kind) (s : BigSt) (y x bits : Nat) : Res BigSt := do
  let xn := s.size x
  let yn := xn + (bits + 31) / 32
  let (s, _) ← s.resize K y yn
  let py ← s.elem y 0
  let px ← s.elem x 0
  let h ← mShiftLeft py px bits xn s.mem.heap
  let s := (s.withHeap h).setNeg y (s.neg x)
  s.trim y yn

/-- `shr(y, x, bits)`, bigint.hpp:1961-1976. -/
def shr (K : Kind) (s : BigSt) (y x bits : Nat) : Res BigSt := do
  let xn := s.size x
  if xn * 32 ≤ bits then s.clear K y
  else
    let yn := xn - bits / 32
    let (s, _) ← s.resize K y yn
    let py ← s.elem y 0
    let px ← s.elem x 0
    let h ← mShiftRight py px bits xn s.mem.heap
    let s := (s.withHeap h).setNeg y (s.neg x)
    s.trim y yn

/-- `div_mods1`, bigint.hpp:1817-1842, with a non-null `q` (`divs1`): the quotient. -/
def divs1 (K : Kind) (s : BigSt) (q x : Nat) (y : BitVec 32) : Res BigSt := do
  let xn := s.size x
  let s := s.setNeg q (s.neg x ^^ decide (y.toInt < 0))
  let (s, ok) ← s.resize K q xn
  if ok then
    let pq ← s.elem q 0
    let px ← s.elem x 0
    let (h, _) ← mDivWord pq px xn (cabs32 y) s.mem.heap
    (s.withHeap h).trim q xn
  else s.clear K q

/-- `bit_length()`, bigint.hpp:1501-1511. -/
def bitLength (s : BigSt) (i : Nat) : Res Nat := do
  let w0 ← s.load i 0
  if s.size i = 1 ∧ w0 = 0 then .ok 1
  else
    let v ← s.load i (s.size i - 1)
    .ok ((s.size i - 1) * 32 + 1 + bsr32 v)

/-- `set_bit(i, v)`, bigint.hpp:1526-1556. -/
def setBit (K : Kind) (s : BigSt) (x i : Nat) (v : Bool) : Res BigSt := do
  let q := i / 32
  let r := i % 32
  let newSize := q + 1
  let (s, ok) ← if newSize > s.size x then s.resize K x newSize else pure (s, true)
  if ok then
    let mask : Word := 1#32 <<< r
    let len ← s.bitLength x
    let w ← s.load x q
    let s ← s.store x q (if v then w ||| mask else w &&& ~~~mask)
    if i + 1 ≥ len then s.trim x newSize else .ok s
  else s.clear K x

end BigSt

/-! ### Division with the quotient in the storage of the divisor -/

/-- Main loop of `div_full_bit` (bigint.hpp:553-589) when `q` and `y` are the same array: `sh` is the shared storage,
of which the first `yn` words are read as divisor and the first `qn` words are the quotient.  `yTop` and `rev` were
computed before `q` was cleared. -/
def dfbAlias (qn yn : Nat) (yTop rev : Word) : Nat → List Word → List Word → Res (List Word × List Word)
  | 0, _, _ => .error .fuel
  | f + 1, sh, x =>
    if x.length ≥ yn then
      if x.getLastD 0 = 0 then dfbAlias qn yn yTop rev f sh x.dropLast
      else
        let y := sh.take yn
        let d := x.length - yn
        if cmpGeN (x.drop d) y then
          let x' := x.take d ++ (subN (x.drop d) y).1
          let sh' := sh.take d ++ (addWord ((sh.take qn).drop d) 1).1 ++ sh.drop qn
          if d = 0 then .ok (sh', x') else dfbAlias qn yn yTop rev f sh' x'
        else if d = 0 then .ok (sh, x)
        else
          let xt := x.getLastD 0
          let v : Word :=
            if yTop = 0xffffffff#32 then xt
            else
              let hl := mulWord1 xt rev
              let v := (hl.1 <<< 1) ||| (hl.2 >>> 31)
              if v = 0 then 1 else v
          let t := mulWordN y v
          let mid := (x.drop (d - 1)).take yn
          let s := subN mid t.1
          let ret := t.2 + s.2
          let x' := x.take (d - 1) ++ s.1 ++ [xt - ret]
          let sh' := sh.take (d - 1) ++ (addWord ((sh.take qn).drop (d - 1)) v).1 ++ sh.drop qn
          dfbAlias qn yn yTop rev f sh' x'
    else .ok (sh, x)

/-- `detail::div(q, qn, x, xn, y, yn)` (bigint.hpp:620-662) with `q == y`.  With one divisor word `y[0]` is passed by
value; `div_small` stores to `q` after its last read of `y`; with `shift != 0` the divisor is copied first.  In these
cases the result is that of `divArr`.  With `shift == 0` `div_full_bit` clears and updates the divisor it reads.  The
result is the quotient; `fuel` bounds the loop, which need not terminate here. -/
def divArrAlias (fuel qn : Nat) (x y : List Word) : Res (List Word) :=
  match y with
  | [_] => (divArr qn x y).map (·.1)
  | _ => do
    let xr := x.take (getRealSize x)
    match ← divSmall xr y with
    | some (qv, _, _) => .ok (qv :: List.replicate (qn - 1) 0)
    | none =>
      let shift := 31 - bsr32 (y.getLastD 0)
      if shift ≠ 0 then (divArr qn x y).map (·.1)
      else
        let yTop := y.getLastD 0
        let rev : Word := if yTop ≠ 0xffffffff#32 then (divWord1 0x80000000#32 0 (yTop + 1)).1 else 0
        let (sh, _) ← dfbAlias qn y.length yTop rev fuel (List.replicate qn 0 ++ y.drop qn) xr
        .ok (sh.take qn)

/-- `div(c, x, c)` as called by `lcm` (bigint.hpp:2343 through 1866-1870, 1852-1863, 966-1004): the new value of `c`.
`none`: a resize failed, `c` keeps its value. -/
def divInto (cap : Cap) (fuel : Nat) (x c : Big) : Res Big :=
  if x.ws.length < c.ws.length then .ok ⟨x.neg ^^ c.neg, [0]⟩
  else do
    let qn := x.ws.length - c.ws.length + 1
    if cap.fits qn then
      let q ← divArrAlias fuel qn x.ws c.ws
      .ok ⟨x.neg ^^ c.neg, (Big.trim false q).ws⟩
    else .ok c

/-- `lcm`, bigint.hpp:2339-2353: the value of the (fresh) result object. -/
def lcm (cap : Cap) (fuel : Nat) (x y : Big) : Res Big := do
  let c ← Big.gcd cap x y
  let c ← divInto cap fuel x c
  .ok (Big.mul cap c y)

end Ack.Mem
