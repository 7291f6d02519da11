import Verif.Model.Alias
/-!
# The remaining operations of `bigint` on memory

Assignment, negation, bit operations, division.  Local objects (`bigint r` of `div`, the local array `xx` of `udiv`)
are not put into the memory: nothing else can refer to them.
-/
namespace Ack.Mem

/-- The words `p[0..n)`. -/
def readN (h : Heap) : Ptr → Nat → Res (List Word)
  | _, 0 => .ok []
  | p, n + 1 => do
    let w ← h.read p
    let ws ← readN h (p.add 1) n
    .ok (w :: ws)

/-- Store `ws` to `p[0..)`. -/
def writeN : Ptr → List Word → Heap → Res Heap
  | _, [], h => .ok h
  | p, w :: ws, h => do
    let h ← h.write p w
    writeN (p.add 1) ws h

namespace BigSt

/-- `buf_ = rhs.buf_` of object `z`, buffer.hpp:76 and 175-190. -/
def assignBuf (K : Kind) (s : BigSt) (z x : Nat) : Res BigSt := do
  let (m, _) ← step K s.mem (.copyAssign z x)
  .ok { s with mem := m }

/-- `operator=(const bigint&)`, bigint.hpp:1270-1279. -/
def assign (K : Kind) (s : BigSt) (z x : Nat) : Res BigSt :=
  if z = x then .ok s
  else do
    let s ← s.assignBuf K z x
    .ok ((s.setSize z (s.size x)).setNeg z (s.neg x))

/-- `neg(y, x)`, bigint.hpp:1978-1982. -/
def negate (K : Kind) (s : BigSt) (z x : Nat) : Res BigSt := do
  let s ← s.assign K z x
  .ok (s.setNeg z (!s.neg x))

/-- `abs(y, x)`, bigint.hpp:1992-1996. -/
def abs (K : Kind) (s : BigSt) (z x : Nat) : Res BigSt := do
  let s ← s.assign K z x
  .ok (s.setNeg z false)

/-- Loops of `or_bit` and `and_bit`, bigint.hpp:2030-2032 and 2055-2057: `n` words from index `i` on. -/
def bitLoop (f : Word → Word → Word) (z x y : Nat) : Nat → Nat → BigSt → Res BigSt
  | 0, _, s => .ok s
  | n + 1, i, s => do
    let a ← s.load x i
    let b ← s.load y i
    let s ← s.store z i (f a b)
    bitLoop f z x y n (i + 1) s

/-- `or_bit(z, x, y)`, bigint.hpp:2011-2036. -/
def orBit (K : Kind) (s : BigSt) (z x y : Nat) : Res BigSt := do
  let px := if s.size x < s.size y then y else x
  let py := if s.size x < s.size y then x else y
  let xn := s.size px
  let yn := s.size py
  let (s, ok) ← s.resize K z xn
  let s ← if ok then pure s else s.clear K z
  let s ← bitLoop (· ||| ·) z x y yn 0 s
  let pz ← s.elem z 0
  let pp ← s.elem px 0
  let h ← mCopyN (pz.add yn) (pp.add yn) (xn - yn) s.mem.heap
  (s.withHeap h).trim z xn

/-- `and_bit(z, x, y)`, bigint.hpp:2038-2059. -/
def andBit (K : Kind) (s : BigSt) (z x y : Nat) : Res BigSt := do
  let py := if s.size x < s.size y then x else y
  let yn := s.size py
  let (s, ok) ← s.resize K z yn
  if ok then
    let s ← bitLoop (· &&& ·) z x y yn 0 s
    s.trim z yn
  else s.clear K z

/-- `or_bitu1(z, x, y)`, bigint.hpp:2061-2066. -/
def orBitu1 (K : Kind) (s : BigSt) (z x : Nat) (y : Word) : Res BigSt := do
  let s ← s.assign K z x
  let w ← s.load z 0
  s.store z 0 (w ||| y)

/-- `and_bitu1(z, x, y)`, bigint.hpp:2068-2078 (the flag of `resize` is ignored). -/
def andBitu1 (K : Kind) (s : BigSt) (z x : Nat) (y : Word) : Res BigSt := do
  let (s, _) ← s.resize K z 1
  let w ← s.load x 0
  let s ← s.store z 0 (w &&& y)
  .ok ((s.setSize z 1).setNeg z false)

/-- `muls1(z, x, y)`, bigint.hpp:1804-1809. -/
def muls1 (K : Kind) (s : BigSt) (z x : Nat) (y : BitVec 32) : Res BigSt := do
  let s ← s.mulu1 K z x (cabs32 y)
  .ok (s.setNeg z (s.neg z ^^ decide (y.toInt < 0)))

/-- `divu1(q, x, y)`, bigint.hpp:1780-1783 through 1898-1917. -/
def divu1 (K : Kind) (s : BigSt) (q x : Nat) (y : Word) : Res BigSt := do
  let xn := s.size x
  let (s, ok) ← s.resize K q xn
  if ok then
    let pq ← s.elem q 0
    let px ← s.elem x 0
    let (h, _) ← mDivWord pq px xn y s.mem.heap
    let s ← (s.withHeap h).trim q xn
    .ok (s.setNeg q false)
  else s.clear K q

/-- `div(q, x, y)`, bigint.hpp:1866-1870, 1852-1863, 966-1004; the flag is the return value.  The dividend is copied to
a local array; the quotient array, the local array and the divisor are separate blocks unless `q` is `y`, so the array
function is `divArr` (or `divArrAlias` for `q` = `y`; of the shared block only the quotient words are stored here).
The remainder object is local; its buffer is large enough because `x` fits the same buffer type. -/
def div (K : Kind) (fuel : Nat) (s : BigSt) (q x y : Nat) : Res (BigSt × Bool) := do
  let qsign := s.neg x ^^ s.neg y
  let xn := s.size x
  let yn := s.size y
  if xn < yn then
    let s ← s.clear K q
    .ok (s.setNeg q qsign, true)
  else
    let qn := xn - yn + 1
    let (s, ok) ← s.resize K q qn
    if ok then
      let px ← s.elem x 0
      let xs ← readN s.mem.heap px xn
      let pq ← s.elem q 0
      let py ← s.elem y 0
      let ys ← readN s.mem.heap py yn
      let ws ← if q = y then divArrAlias fuel qn xs ys else (divArr qn xs ys).map (·.1)
      let h ← writeN pq ws s.mem.heap
      let s ← (s.withHeap h).trim q qn
      .ok (s.setNeg q qsign, true)
    else .ok (s, false)

/-- `mod(r, x, y)`, bigint.hpp:1873-1876, 1852-1863, 966-1004, with a null quotient. -/
def mod (K : Kind) (s : BigSt) (r x y : Nat) : Res (BigSt × Bool) := do
  let xNeg := s.neg x
  let xn := s.size x
  let yn := s.size y
  if xn < yn then
    let s ← s.assignBuf K r x
    let s ← s.trim r xn
    .ok (s.setNeg r xNeg, true)
  else
    let px ← s.elem x 0
    let xs ← readN s.mem.heap px xn
    let py ← s.elem y 0
    let ys ← readN s.mem.heap py yn
    let (_, rem) ← divArr (xn - yn + 1) xs ys
    let (s, ok) ← s.resize K r rem.length
    if ok then
      let pr ← s.elem r 0
      let h ← writeN pr rem s.mem.heap
      let s ← (s.withHeap h).trim r rem.length
      .ok (s.setNeg r xNeg, true)
    else .ok (s, false)

/-- `bigint z(w);`, bigint.hpp:1135-1138: a new object at the end of the list. -/
def create (K : Kind) (s : BigSt) (w : Word) : Res BigSt := do
  let n := s.mem.objs.length
  let (m, _) ← step K s.mem .create
  ({ s with mem := m } : BigSt).assignWord K n w

/-- The copy constructor `bigint(const bigint& rhs)`, bigint.hpp:1215-1219. -/
def copyNew (K : Kind) (s : BigSt) (x : Nat) : Res BigSt := do
  let n := s.mem.objs.length
  let (m, _) ← step K s.mem (.copyNew x)
  .ok { mem := m, size := upd s.size n (s.size x), neg := upd s.neg n (s.neg x) }

/-- The move constructor `bigint(bigint&& rhs)`, bigint.hpp:1221-1225.  `size_` and `is_neg_` of the source stay. -/
def moveNew (K : Kind) (s : BigSt) (x : Nat) : Res BigSt := do
  let n := s.mem.objs.length
  let (m, _) ← step K s.mem (.moveNew x)
  .ok { mem := m, size := upd s.size n (s.size x), neg := upd s.neg n (s.neg x) }

/-- Move assignment `operator = (bigint&& rhs)`, bigint.hpp:1281-1290. -/
def moveAssign (K : Kind) (s : BigSt) (z x : Nat) : Res BigSt :=
  if z = x then .ok s
  else do
    let (m, _) ← step K s.mem (.moveAssign z x)
    .ok { mem := m, size := upd s.size z (s.size x), neg := upd s.neg z (s.neg x) }

/-- `std::swap(buf_, rhs.buf_)` of `swap`, bigint.hpp:1303: neither buffer class has a `swap` that the qualified call would
find (the member `flexbuffer::swap`, buffer.hpp:279, is not used), so this is the generic `T t(std::move(a));
a = std::move(b); b = std::move(t);`.  The temporary is the last object of the state; its lifetime then ends (no
destructor, buffer.hpp:208-215), its inline array stays as an unreachable block. -/
def swapBuf (K : Kind) (m : State) (x y : Nat) : Res State := do
  let t := m.objs.length
  let (m, _) ← step K m (.moveNew x)
  let (m, _) ← step K m (.moveAssign x y)
  let (m, _) ← step K m (.moveAssign y t)
  .ok ⟨m.heap, m.objs.take t⟩

/-- `swap`, bigint.hpp:1301-1306. -/
def swap (K : Kind) (s : BigSt) (x y : Nat) : Res BigSt := do
  let m ← swapBuf K s.mem x y
  .ok { mem := m, size := upd (upd s.size x (s.size y)) y (s.size x), neg := upd (upd s.neg x (s.neg y)) y (s.neg x) }

end BigSt

/-- A statement of a program that works on big integers.  `z` receives the result, `x` and `y` are operands; all are
positions in the list of objects and may coincide. -/
inductive Stmt
  /-- `bigint z(w);` (1135) -/
  | create (w : Word)
  /-- `z = w;` (1235) -/
  | set (z : Nat) (w : Word)
  /-- `z = x;` (1270) -/
  | assign (z x : Nat)
  /-- `bigint z(x);` (1215) -/
  | copyNew (x : Nat)
  /-- `bigint z(std::move(x));` (1221) -/
  | moveNew (x : Nat)
  /-- `z = std::move(x);` (1281) -/
  | moveAssign (z x : Nat)
  /-- `x.swap(y)` (1301) -/
  | swap (x y : Nat)
  /-- `neg(z, x)` (1978) -/
  | neg (z x : Nat)
  /-- `abs(z, x)` (1992) -/
  | abs (z x : Nat)
  /-- `add(z, x, y)` (1699), `z += y` for `x` = `z` -/
  | add (z x y : Nat)
  /-- `sub(z, x, y)` (1704), `z -= y` for `x` = `z` -/
  | sub (z x y : Nat)
  /-- `addu1`, `adds1` of a word and its sign (1756-1779), `++`, `--` -/
  | addWord (z x : Nat) (w : Word) (neg : Bool)
  /-- `mul(z, x, y)` (1709), the returned flag dropped -/
  | mul (z x y : Nat)
  /-- `mulu1(z, x, w)` -/
  | mulu1 (z x : Nat) (w : Word)
  /-- `muls1(z, x, w)` (1804) -/
  | muls1 (z x : Nat) (w : BitVec 32)
  /-- `shl(z, x, n)` -/
  | shl (z x n : Nat)
  /-- `shr(z, x, n)` -/
  | shr (z x n : Nat)
  /-- `divs1(z, x, w)` -/
  | divs1 (z x : Nat) (w : BitVec 32)
  /-- `div(z, x, y)` (1866), the returned flag dropped -/
  | div (z x y : Nat)
  /-- `mod(z, x, y)` (1873), the returned flag dropped -/
  | mod (z x y : Nat)
  /-- `x.set_bit(i, v)` (1526) -/
  | setBit (x i : Nat) (v : Bool)
deriving DecidableEq, Repr

/-- Run one statement.  `fuel` bounds the loop of the quotient when it shares storage with the divisor. -/
def Stmt.exec (K : Kind) (fuel : Nat) (s : BigSt) : Stmt → Res BigSt
  | .create w => s.create K w
  | .set z w => s.assignWord K z w
  | .assign z x => s.assign K z x
  | .copyNew x => s.copyNew K x
  | .moveNew x => s.moveNew K x
  | .moveAssign z x => s.moveAssign K z x
  | .swap x y => s.swap K x y
  | .neg z x => s.negate K z x
  | .abs z x => s.abs K z x
  | .add z x y => s.add K z x y
  | .sub z x y => s.sub K z x y
  | .addWord z x w b => s.addu1Go K z x w b
  | .mul z x y => (s.mul K z x y).map (·.1)
  | .mulu1 z x w => s.mulu1 K z x w
  | .muls1 z x w => s.muls1 K z x w
  | .shl z x n => s.shl K z x n
  | .shr z x n => s.shr K z x n
  | .divs1 z x w => s.divs1 K z x w
  | .div z x y => (s.div K fuel z x y).map (·.1)
  | .mod z x y => (s.mod K z x y).map (·.1)
  | .setBit x i v => s.setBit K x i v

/-- A straight-line program. -/
def exec (K : Kind) (fuel : Nat) : BigSt → List Stmt → Res BigSt
  | s, [] => .ok s
  | s, c :: p => do
    let s ← c.exec K fuel s
    exec K fuel s p

/-- No objects yet. -/
def BigSt.init : BigSt := ⟨State.init, fun _ => 0, fun _ => false⟩

end Ack.Mem
