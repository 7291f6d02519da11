import Verif.Model.AliasOps
import Verif.Model.BigintNT
/-!
# Number-theoretic functions of `bigint` on memory

Local objects and parameters passed by value are appended to the list of objects; the list is cut back when their lifetime
ends (no destructor releases anything, buffer.hpp:208-215; their arrays stay as unreachable blocks).
-/
namespace Ack.Mem
namespace BigSt

/-- End of the lifetime of all objects created since there were `n`. -/
def drop (s : BigSt) (n : Nat) : BigSt := { s with mem := ⟨s.mem.heap, s.mem.objs.take n⟩ }

/-- `is_zero`, bigint.hpp:1630-1633. -/
def isZero (s : BigSt) (x : Nat) : Res Bool := do
  let w ← s.load x 0
  .ok (s.size x == 1 && w == 0)

/-- `is_one`, bigint.hpp:1635-1638. -/
def isOne (s : BigSt) (x : Nat) : Res Bool := do
  let w ← s.load x 0
  .ok (s.size x == 1 && !s.neg x && w == 1)

/-- `div_mod(&q, r, x, y)`, bigint.hpp:1852-1863, through `udiv` (966-1004).  `q` is neither `r` (asserted, 968) nor `y` (not
in any call in the library; see `div` for that case).  `q->trim(qn)` is done before `r.buf_.resize(rn)` here; it only sets
`size_` and `is_neg_` of `q`, which are not read in between. -/
def divMod (K : Kind) (s : BigSt) (q r x y : Nat) : Res (BigSt × Bool) := do
  check (q ≠ r ∧ q ≠ y)
  let xNeg := s.neg x
  let qsign := xNeg ^^ s.neg y
  let xn := s.size x
  let yn := s.size y
  if xn < yn then
    let s ← s.assignBuf K r x
    let s ← s.trim r xn
    let s ← s.clear K q
    .ok ((s.setNeg r xNeg).setNeg q qsign, true)
  else
    let qn := xn - yn + 1
    let (s, ok) ← s.resize K q qn
    if ok then
      let px ← s.elem x 0
      let xs ← readN s.mem.heap px xn
      let pq ← s.elem q 0
      let py ← s.elem y 0
      let ys ← readN s.mem.heap py yn
      let (ws, rem) ← divArr qn xs ys
      let h ← writeN pq ws s.mem.heap
      let s ← (s.withHeap h).trim q qn
      let (s, ok) ← s.resize K r rem.length
      if ok then
        let pr ← s.elem r 0
        let h ← writeN pr rem s.mem.heap
        let s ← (s.withHeap h).trim r rem.length
        .ok ((s.setNeg r xNeg).setNeg q qsign, true)
      else .ok (s, false)
    else .ok (s, false)

/-- `a -= b * q`, bigint.hpp:2275 and 2292 through 2543 and 2534: the product is a temporary object. -/
def subMul (K : Kind) (s : BigSt) (a b q : Nat) : Res BigSt := do
  let c := s.mem.objs.length
  let s ← s.create K 0
  let (s, _) ← s.mul K c b q
  let s ← s.sub K a a c
  .ok (s.drop c)

/-- `if (b.is_neg_) b += m; y = b; return true;`, bigint.hpp:2268-2272 and 2285-2289. -/
def modinvRet (K : Kind) (s : BigSt) (y b m : Nat) : Res (BigSt × Bool) := do
  let s ← if s.neg b then s.add K b b m else pure s
  let s ← s.assign K y b
  .ok (s, true)

/-- Loop of `modinv`, bigint.hpp:2259-2293.  The local objects are `a` = `n`, `t` = `n + 1`, `q` = `n + 2`, `s` = `n + 3`,
`b` = `n + 4`. -/
def modinvLoop (K : Kind) (y m n : Nat) : Nat → BigSt → Res (BigSt × Bool)
  | 0, _ => .error .fuel
  | f + 1, s => do
    let (s, ok) ← s.divMod K (n + 2) (n + 3) (n + 3) (n + 1)
    if !ok then .ok (s, false)
    else if ← s.isZero (n + 3) then
      if !(← s.isOne (n + 1)) then .ok (s, false)
      else s.modinvRet K y (n + 4) m
    else
      let s ← s.subMul K n (n + 4) (n + 2)
      let (s, ok) ← s.divMod K (n + 2) (n + 1) (n + 1) (n + 3)
      if !ok then .ok (s, false)
      else if ← s.isZero (n + 1) then
        if !(← s.isOne (n + 3)) then .ok (s, false)
        else s.modinvRet K y n m
      else
        let s ← s.subMul K (n + 4) n (n + 2)
        modinvLoop K y m n f s

/-- `modinv(y, x, m)`, bigint.hpp:2187-2297 (the `#else` branch, 2244-2296); the flag is the return value.  `fuel` bounds the
loop. -/
def modinv (K : Kind) (fuel : Nat) (s : BigSt) (y x m : Nat) : Res (BigSt × Bool) := do
  check (!(← s.isZero m))
  if ← s.isZero x then
    let s ← s.assignWord K y 0
    let b ← s.isOne m
    .ok (s, b)
  else if ← s.isOne x then
    let s ← if ← s.isOne m then s.assignWord K y 0 else s.assignWord K y 1
    .ok (s, true)
  else
    let n := s.mem.objs.length
    let s ← s.create K 1
    let s ← s.create K 0
    let s ← s.create K 0
    let (s, ok) ← s.divMod K (n + 2) (n + 1) m x
    if !ok then .ok (s.drop n, false)
    else if ← s.isZero (n + 1) then .ok (s.drop n, false)
    else
      let s ← s.copyNew K x
      let s ← s.create K 0
      let s ← s.negate K (n + 4) (n + 2)
      let (s, b) ← modinvLoop K y m n fuel s
      .ok (s.drop n, b)

/-- Loop of `gcd`, bigint.hpp:2311-2319: the parameters are `x` = `n`, `y` = `n + 1`, the local object is `t` = `n + 2`. -/
def gcdLoop (K : Kind) (z n : Nat) : Nat → BigSt → Res BigSt
  | 0, _ => .error .fuel
  | f + 1, s => do
    if ← s.isZero (n + 1) then s.assign K z n
    else
      let s ← s.assign K (n + 2) n
      let s ← s.assign K n (n + 1)
      let (s, _) ← s.mod K (n + 1) (n + 2) (n + 1)
      gcdLoop K z n f s

/-- `gcd(z, x, y)`, bigint.hpp:2308-2320; `x` and `y` are passed by value. -/
def gcd (K : Kind) (fuel : Nat) (s : BigSt) (z x y : Nat) : Res BigSt := do
  let n := s.mem.objs.length
  let s ← s.copyNew K x
  let s ← s.copyNew K y
  let s ← s.create K 0
  let s ← gcdLoop K z n fuel s
  .ok (s.drop n)

/-- `lcm(z, x, y)`, bigint.hpp:2339-2345; the flags of `div` and `mul` are ignored. -/
def lcm (K : Kind) (fuel : Nat) (s : BigSt) (z x y : Nat) : Res BigSt := do
  let c := s.mem.objs.length
  let s ← s.create K 0
  let s ← s.gcd K fuel c x y
  let (s, _) ← s.div K fuel c x c
  let (s, _) ← s.mul K z c y
  .ok (s.drop c)

/-- `mod_mul_t::operator()`, bigint.hpp:1020-1030, with `pm` the modulus; `mod_sqr_t` (1032-1042) is the same with two equal
operands (`sqr(y, x)` is `mul(y, x, x)`, 1740-1743). -/
def modMul (K : Kind) (pm : Nat) (s : BigSt) (z x y : Nat) : Res (BigSt × Bool) := do
  let (s, ok) ← s.mul K z x y
  let u := s.mem.objs.length
  let s ← s.create K 0
  let (s, ok) ← if ok then s.mod K u z pm else pure (s, false)
  let s ← s.moveAssign K z u
  .ok (s.drop u, ok)

/-- `k` squarings of `z`, bigint.hpp:1102-1106. -/
def sqrLoop (op : BigSt → Nat → Nat → Nat → Res (BigSt × Bool)) (z : Nat) : Nat → BigSt → Res (BigSt × Bool)
  | 0, s => .ok (s, true)
  | k + 1, s => do
    let (s, ok) ← op s z z z
    if ok then sqrLoop op z k s else .ok (s, false)

/-- Table of `_pow`, bigint.hpp:1084-1088: `k` entries from `tbl[i]` on; `tbl[i]` is object `n + i`. -/
def tblLoop (op : BigSt → Nat → Nat → Nat → Res (BigSt × Bool)) (x n : Nat) : Nat → Nat → BigSt → Res (BigSt × Bool)
  | 0, _, s => .ok (s, true)
  | k + 1, i, s => do
    let (s, ok) ← op s (n + i) (n + (i - 1)) x
    if ok then tblLoop op x n k (i + 1) s else .ok (s, false)

/-- Multiplication by the table entry of one window, bigint.hpp:1107-1113. -/
def winMul (op : BigSt → Nat → Nat → Nat → Res (BigSt × Bool)) (z n idx : Nat) (s : BigSt) : Res (BigSt × Bool) :=
  if idx ≠ 0 then op s z z (n + (idx - 1)) else .ok (s, true)

/-- Loop over the windows of one exponent word, bigint.hpp:1101-1114; `k` windows remain. -/
def winLoop (op : BigSt → Nat → Nat → Nat → Res (BigSt × Bool)) (z n : Nat) (v : Word) : Nat → BigSt → Res (BigSt × Bool)
  | 0, s => .ok (s, true)
  | k + 1, s => do
    let (s, ok) ← sqrLoop op z 4 s
    if ok then
      let (s, ok) ← winMul op z n ((v >>> (k * 4)) &&& 15).toNat s
      if ok then winLoop op z n v k s else .ok (s, false)
    else .ok (s, false)

/-- Loop over the exponent words from the top, bigint.hpp:1099-1115. -/
def expLoop (op : BigSt → Nat → Nat → Nat → Res (BigSt × Bool)) (z n : Nat) : List Word → BigSt → Res (BigSt × Bool)
  | [], s => .ok (s, true)
  | v :: vs, s => do
    let (s, ok) ← winLoop op z n v 8 s
    if ok then expLoop op z n vs s else .ok (s, false)

/-- `k` objects, default constructed. -/
def createN (K : Kind) : Nat → BigSt → Res BigSt
  | 0, s => .ok s
  | k + 1, s => do
    let s ← s.create K 0
    createN K k s

/-- `_pow`, bigint.hpp:1047-1118.  `ys` are the exponent words at the time of the call: they are copied if they are those of
`z` (1091-1096), otherwise nothing stores to them before their last use. -/
def powGo (K : Kind) (op : BigSt → Nat → Nat → Nat → Res (BigSt × Bool)) (s : BigSt) (z x : Nat) (ys : List Word) :
    Res (BigSt × Bool) := do
  let yn := getRealSize ys
  let y0 := ys.headD 0
  let n := s.mem.objs.length
  if yn = 1 ∧ y0 = 0 then
    let s ← s.assignWord K z 1
    .ok (s, true)
  else if yn = 1 ∧ y0 = 1 then
    let s ← s.assign K z x
    .ok (s, true)
  else if yn = 1 ∧ y0 = 2 then op s z x x
  else if yn = 1 ∧ y0 = 3 then
    let s ← s.create K 0
    let (s, ok) ← op s n x x
    let (s, ok) ← if ok then op s z n x else pure (s, false)
    .ok (s.drop n, ok)
  else if yn = 1 ∧ y0 = 4 then
    let (s, ok) ← op s z x x
    if ok then op s z z z else .ok (s, false)
  else
    let s ← createN K 15 s
    let s ← s.assign K n x
    let (s, ok) ← tblLoop op x n 14 1 s
    if ok then
      let s ← s.assignWord K z 1
      let (s, ok) ← expLoop op z n (ys.take yn).reverse s
      .ok (s.drop n, ok)
    else .ok (s.drop n, false)

/-- `pow(z, x, y)`, bigint.hpp:2084-2093. -/
def pow (K : Kind) (s : BigSt) (z x y : Nat) : Res (BigSt × Bool) :=
  if s.neg y then .ok (s, false)
  else do
    let p ← s.elem y 0
    let ys ← readN s.mem.heap p (s.size y)
    powGo K (fun s z x y => s.mul K z x y) s z x ys

/-- `modexp(z, x, y, m)`, bigint.hpp:2137-2148, with an exponent on the same kind of buffer. -/
def modexp (K : Kind) (s : BigSt) (z x y m : Nat) : Res (BigSt × Bool) :=
  if s.neg y then .ok (s, false)
  else do
    let p ← s.elem y 0
    let ys ← readN s.mem.heap p (s.size y)
    powGo K (fun s z x y => s.modMul K m z x y) s z x ys

end BigSt

/-- Statements of a program that also calls the number-theoretic functions. -/
inductive NStmt
  | base (c : Stmt)
  | pow (z x y : Nat)
  | modexp (z x y m : Nat)
  | modinv (y x m : Nat)
  | gcd (z x y : Nat)
  | lcm (z x y : Nat)

/-- One statement.  Flags are checked as in the member functions, e.g. bigint.hpp:2116-2122: a failure aborts. -/
def NStmt.exec (K : Kind) (fuel : Nat) (s : BigSt) : NStmt → Res BigSt
  | .base c => c.exec K fuel s
  | .pow z x y => do
    let (s, ok) ← s.pow K z x y
    check ok
    .ok s
  | .modexp z x y m => do
    let (s, ok) ← s.modexp K z x y m
    check ok
    .ok s
  | .modinv y x m => do
    let (s, ok) ← s.modinv K fuel y x m
    check ok
    .ok s
  | .gcd z x y => s.gcd K fuel z x y
  | .lcm z x y => s.lcm K fuel z x y

/-- A program. -/
def execN (K : Kind) (fuel : Nat) : BigSt → List NStmt → Res BigSt
  | s, [] => .ok s
  | s, c :: p => do
    let s ← c.exec K fuel s
    execN K fuel s p

end Ack.Mem
