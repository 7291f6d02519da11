import Verif.Model.KeyMem
/-!
# Programs on elements of a prime field, on memory (include/ack/fe.hpp, fp.hpp)

A program has one modulus, which it made of bytes, and elements with a pointer to it.  An element is made of bytes, or is what an
operator returns; it may be assigned what an operator returns, so that `x += y` is `x = x.add(y)` (fe.hpp:568-723) with a temporary
that is moved from and then ends.  Operands may be the element that is assigned.
-/
namespace Ack.Mem
open Big (Byte)

/-- `+`, `-`, `*`, `/`. -/
inductive FeBin | add | sub | mul | div
deriving DecidableEq

/-- The operators that take an `int`; `div` of an `int` names no function of `fp_element`. -/
inductive FeInt | add | sub | mul
deriving DecidableEq

/-- Operators with one operand. -/
inductive FeUn | neg | sqr | inv | sqrt
deriving DecidableEq

/-- The comparisons, fp.hpp:866-1093. -/
inductive FeCmp | eq | ne | lt | le | gt | ge
deriving DecidableEq

/-- An expression that makes an element; operands are named by their position. -/
inductive FeOp
  | copy (x : Nat)
  | bin (o : FeBin) (x y : Nat)
  | big (o : FeBin) (x : Nat) (d : List Byte)
  | int (o : FeInt) (x : Nat) (k : BitVec 32)
  | un (o : FeUn) (x : Nat)
deriving DecidableEq

/-- Statements. -/
inductive FeStmt
  | elem (d : List Byte) (ck : Bool)
  | new (f : FeOp)
  | set (x : Nat) (f : FeOp)
  | copySet (x y : Nat)
  | put (x : Nat) (d : List Byte) (ck : Bool)
  | cmp (o : FeCmp) (x y : Nat)
  | isZero (x : Nat)
  | isOne (x : Nat)
  | isValid (x : Nat)
  | toBytes (x : Nat)
  | toBytesLen (x n : Nat)
deriving DecidableEq

/-- The variables of a program. -/
structure FeVars where
  els : List FeR
  bools : List Bool
  strs : List (List Byte)

/-- A variable; one that is not declared is no program. -/
def FeVars.el (v : FeVars) (i : Nat) : M FeR :=
  match v.els[i]? with
  | some a => pure a
  | none => halt .ub

namespace FeR

/-- `add(IntU)`, fp.hpp:712-716, for `int`. -/
def addS (K : Kind) (a : FeR) (k : BitVec 32) : M FeR := do
  let p ← a.deref
  let v ← newObj fun s => s.fpAddS K a.v k p
  pure ⟨v, some p⟩

/-- `sub(IntU)`, fp.hpp:746-750, for `int`. -/
def subS (K : Kind) (a : FeR) (k : BitVec 32) : M FeR := do
  let p ← a.deref
  let v ← newObj fun s => s.fpSubS K a.v k p
  pure ⟨v, some p⟩

/-- The comparisons of two elements, fp.hpp:866-869, 903-906, 940-943, 977-980, 1014-1017, 1051-1054, with those of integers,
bigint.hpp:2473-2497. -/
def cmp (o : FeCmp) (a b : FeR) : M Bool :=
  match o with
  | .eq => ask fun s => s.opEq a.v b.v
  | .ne => do let r ← ask fun s => s.opEq a.v b.v; pure !r
  | .lt => ask fun s => s.opLt a.v b.v
  | .le => do let r ← ask fun s => s.opGt a.v b.v; pure !r
  | .gt => ask fun s => s.opGt a.v b.v
  | .ge => ask fun s => s.opGe a.v b.v

/-- `x = ...` for a temporary element: the defaulted move assignment (fp.hpp:529) moves the value and copies the pointer; then the
temporaries of the expression end. -/
def setTo (K : Kind) (x : FeR) (m : M FeR) : M FeR := fun s => do
  let (r, s1) ← m s
  let s2 ← s1.moveAssign K x.v r.v
  .ok (⟨x.v, r.pm⟩, s2.drop s.mem.objs.length)

/-- `x = y`: the defaulted copy assignment, fp.hpp:528. -/
def copySet (K : Kind) (x y : FeR) : M FeR := do
  change fun s => s.assign K x.v y.v
  pure ⟨x.v, y.pm⟩

/-- `fp_element x( IntT( d ), p, check )`, fp.hpp:514-521. -/
def ofBytes (K : Kind) (p : Nat) (d : List Byte) (ck : Bool) : M FeR := do
  let v ← newObj fun s => s.ofBytes K d
  if ck then do
    let b ← FeR.isValid ⟨v, some p⟩
    checkM b
    pure ⟨v, some p⟩
  else pure ⟨v, some p⟩

/-- `x.assign( IntT( d ), check )`, fp.hpp:558-570; `x = IntT( d )`, fp.hpp:584-587, without the check.  With a
null pointer the value is left as it is (here: assigned a copy of itself). -/
def put (K : Kind) (x : FeR) (d : List Byte) (ck : Bool) : M FeR :=
  x.setTo K do
    let v ← newObj fun s => s.ofBytes K d
    match x.pm with
    | none => x.copy K
    | some p =>
      if ck then do
        let b ← FeR.isValid ⟨v, some p⟩
        checkM b
        pure ⟨v, some p⟩
      else pure ⟨v, some p⟩

end FeR

/-- The result of an expression: a new element.  `copy` is the copy constructor (fp.hpp:526), `bin` the operators of two elements
(fe.hpp:296-299, 355-358, 414-417, 473-476), `big` those with a big integer on the right, made of bytes for this call
(fe.hpp:308-312, 367-371, 426-430, 485-489), `int` those with an `int` on the right (fe.hpp:321-325, 380-384, 439-443), `un` the
members `neg`, `sqr`, `inv`, `sqrt`.  In a declaration the integer stays among the objects although it ends; nothing refers to it. -/
def FeOp.eval (K : Kind) (fuel : Nat) (v : FeVars) : FeOp → M FeR
  | .copy x => do
    let x ← v.el x
    x.copy K
  | .bin o x y => do
    let x ← v.el x
    let y ← v.el y
    match o with
    | .add => x.add K y
    | .sub => x.sub K y
    | .mul => x.mul K y
    | .div => x.div K fuel y
  | .big o x d => do
    let x ← v.el x
    let i ← newObj fun s => s.ofBytes K d
    match o with
    | .add => x.addB K i
    | .sub => x.subB K i
    | .mul => x.mulB K i
    | .div => x.divB K fuel i
  | .int o x k => do
    let x ← v.el x
    match o with
    | .add => x.addS K k
    | .sub => x.subS K k
    | .mul => x.mulS K k
  | .un o x => do
    let x ← v.el x
    match o with
    | .neg => x.neg K
    | .sqr => x.sqr K
    | .inv => x.inv K fuel
    | .sqrt => x.sqrt K fuel

/-- One statement; `p` is the modulus. -/
def feStep (K : Kind) (fuel p : Nat) (v : FeVars) : FeStmt → M FeVars
  | .elem d ck => do
    let r ← FeR.ofBytes K p d ck
    return { v with els := v.els ++ [r] }
  | .new f => do
    let r ← f.eval K fuel v
    return { v with els := v.els ++ [r] }
  | .set x f => do
    let a ← v.el x
    let r ← a.setTo K (f.eval K fuel v)
    return { v with els := v.els.set x r }
  | .copySet x y => do
    let a ← v.el x
    let b ← v.el y
    let r ← a.copySet K b
    return { v with els := v.els.set x r }
  | .put x d ck => do
    let a ← v.el x
    let r ← a.put K d ck
    return { v with els := v.els.set x r }
  | .cmp o x y => do
    let a ← v.el x
    let b ← v.el y
    let r ← FeR.cmp o a b
    return { v with bools := v.bools ++ [r] }
  | .isZero x => do
    let a ← v.el x
    let r ← a.isZero
    return { v with bools := v.bools ++ [r] }
  | .isOne x => do
    let a ← v.el x
    let r ← a.isOne
    return { v with bools := v.bools ++ [r] }
  | .isValid x => do
    let a ← v.el x
    let r ← a.isValid
    return { v with bools := v.bools ++ [r] }
  | .toBytes x => do
    let a ← v.el x
    let r ← a.toBytes K
    return { v with strs := v.strs ++ [r] }
  | .toBytesLen x n => do
    let a ← v.el x
    let r ← a.toBytesLen n
    return { v with strs := v.strs ++ [r] }

/-- The statements in order. -/
def feExec (K : Kind) (fuel p : Nat) : List FeStmt → FeVars → M FeVars
  | [], v => pure v
  | t :: ts, v => do
    let v ← feStep K fuel p v t
    feExec K fuel p ts v

/-- A program: it makes the modulus of bytes and goes on with statements. -/
def feProgram (K : Kind) (fuel : Nat) (d : List Byte) (ts : List FeStmt) : M FeVars := do
  let p ← newObj fun s => s.ofBytes K d
  feExec K fuel p ts ⟨[], [], []⟩

end Ack.Mem
