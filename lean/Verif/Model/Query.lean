import Verif.Model.KeyMem
/-!
# Integer programs that also ask questions (include/ack/bigint.hpp)

Continues `Model/AliasNT.lean` with the member functions that return something other than an integer object, the import of
bytes, and `quot_rem`.
-/
namespace Ack.Mem
open Big (Byte)

namespace BigSt

/-- `quot_rem(&q, r, x, y)`, bigint.hpp:1927-1944.  `udiv` is called through `div_mod`, which differs in the signs it gives its
results; they are stored again at once.  `q` is not `r` (asserted, 1929); the divisor is a copy, so that `q` may be `y`. -/
def quotRem (K : Kind) (s : BigSt) (q r x y : Nat) : Res BigSt := do
  let yy := s.mem.objs.length
  let s ← s.copyNew K y
  let yNeg := s.neg y
  let qsign := s.neg x ^^ yNeg
  let (s, _) ← s.divMod K q r x yy
  let s := s.setNeg r yNeg
  let s := s.setNeg q qsign
  let z ← s.isZero r
  let s ← if !z && qsign then do
      let s ← s.uadd1 K q q 1
      s.usub K r yy r
    else pure s
  .ok (s.drop yy)

end BigSt

/-- The questions. -/
inductive Query
  /-- `is_zero()`, 1630-1633 -/
  | isZero (x : Nat)
  /-- `is_one()`, 1635-1638 -/
  | isOne (x : Nat)
  /-- `is_negative()`, 1640-1643 -/
  | isNegative (x : Nat)
  /-- `is_odd()`, 1650-1653 -/
  | isOdd (x : Nat)
  /-- `is_even()`, 1655-1658 -/
  | isEven (x : Nat)
  /-- `x == y`, 2457 -/
  | eq (x y : Nat)
  /-- `x != y`, 2467 -/
  | ne (x y : Nat)
  /-- `x < y`, 2477 -/
  | lt (x y : Nat)
  /-- `x <= y`, 2487 -/
  | le (x y : Nat)
  /-- `x > y`, 2497 -/
  | gt (x y : Nat)
  /-- `x >= y`, 2507 -/
  | ge (x y : Nat)
  /-- `x == k` for an `int`, 2453 -/
  | eqInt (x : Nat) (k : BitVec 32)
  /-- `x < k` for an `int`, 2473 -/
  | ltInt (x : Nat) (k : BitVec 32)
  /-- `x > k` for an `int`, 2493 -/
  | gtInt (x : Nat) (k : BitVec 32)
  /-- `x.bit_length()`, 1501-1512 -/
  | bitLength (x : Nat)
  /-- `x.byte_length()`, 1694-1697 -/
  | byteLength (x : Nat)
  /-- `x.test_bit(i)`, 1514-1524 -/
  | testBit (x i : Nat)
  /-- `x.to_bytes()`, 1450-1455 -/
  | toBytes (x : Nat)
  /-- `x.to_naf()`, 1461-1479 -/
  | toNaf (x : Nat)
  /-- `x.jacobi(y)`, 2443-2446 -/
  | jacobi (x y : Nat)

/-- The answers. -/
inductive Ans
  | bool (b : Bool)
  | nat (n : Nat)
  | int (j : Int)
  | bytes (l : List Byte)
deriving DecidableEq

/-- An answer that takes no objects. -/
def told {α : Type} (f : α → Ans) (s : BigSt) (r : Res α) : Res (Ans × BigSt) := do
  let a ← r
  .ok (f a, s)

/-- One question. -/
def Query.exec (K : Kind) (fuel : Nat) (s : BigSt) : Query → Res (Ans × BigSt)
  | .isZero x => told .bool s (s.isZero x)
  | .isOne x => told .bool s (s.isOne x)
  | .isNegative x => told .bool s (s.isNegative x)
  | .isOdd x => told .bool s (s.isOdd x)
  | .isEven x => told (fun b => .bool !b) s (s.isOdd x)
  | .eq x y => told .bool s (s.opEq x y)
  | .ne x y => told (fun b => .bool !b) s (s.opEq x y)
  | .lt x y => told .bool s (s.opLt x y)
  | .le x y => told (fun b => .bool !b) s (s.opGt x y)
  | .gt x y => told .bool s (s.opGt x y)
  | .ge x y => told .bool s (s.opGe x y)
  | .eqInt x k => told .bool s (s.eqS x k)
  | .ltInt x k => told .bool s (s.ltS x k)
  | .gtInt x k => told .bool s (s.gtS x k)
  | .bitLength x => told .nat s (s.bitLength x)
  | .byteLength x => told .nat s (s.byteLength x)
  | .testBit x i => told .bool s (s.testBit x i)
  | .toBytes x => told .bytes s (s.toBytes x)
  | .toNaf x => do
    let (l, s) ← s.toNaf K x
    .ok (.bytes l, s)
  | .jacobi x y => do
    let (j, s) ← s.jacobi K fuel x y
    .ok (.int j, s)

/-- Statements of a program. -/
inductive QStmt
  | run (c : NStmt)
  /-- `bigint z(data);`, 1187-1190 -/
  | ofBytes (d : List Byte)
  /-- `quot_rem(&q, r, x, y)`, 1927-1944 -/
  | quotRem (q r x y : Nat)
  /-- `quot_rem(nullptr, r, x, y)`, 1927-1944 -/
  | rem (r x y : Nat)
  /-- a question, whose answer is kept -/
  | ask (q : Query)

/-- A program: the objects after it and the answers in order. -/
def qexec (K : Kind) (fuel : Nat) : BigSt → List QStmt → Res (BigSt × List Ans)
  | s, [] => .ok (s, [])
  | s, .run c :: p => do
    let s ← c.exec K fuel s
    qexec K fuel s p
  | s, .ofBytes d :: p => do
    let s ← s.ofBytes K d
    qexec K fuel s p
  | s, .quotRem q r x y :: p => do
    let s ← s.quotRem K q r x y
    qexec K fuel s p
  | s, .rem r x y :: p => do
    let s ← s.quotRemNull K r x y
    qexec K fuel s p
  | s, .ask q :: p => do
    let (a, s) ← q.exec K fuel s
    let (s, l) ← qexec K fuel s p
    .ok (s, a :: l)

end Ack.Mem
