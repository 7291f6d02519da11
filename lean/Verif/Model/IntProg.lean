import Verif.Model.Query
import Verif.Model.Native
/-!
# Programs written with the operators of `bigint`, on memory

Models the operators of include/ack/bigint.hpp:2448-2596 as a program uses them: nested expressions whose intermediate results are
temporaries, native operands of the four integer types, compound assignment, comparisons, branches and loops.

Objects are positions in the list of objects.  A temporary stays in the list when its lifetime ends; the buffers have no destructor
(buffer.hpp:208-215), so that the end of a lifetime has no effect.  The operands of an operator are evaluated from left to right;
an expression has no side effects on variables, so that another order changes nothing but the positions of temporaries.
-/
namespace Ack.Mem

namespace BigSt

/-- `operator = (int)`, bigint.hpp:1227-1233. -/
def assignInt (K : Kind) (s : BigSt) (i : Nat) (x : BitVec 32) : Res BigSt := do
  let s ← s.assignWord K i (cabs32 x)
  .ok (s.setNeg i (decide (x.toInt < 0)))

/-- `operator = (uint64_t)`, bigint.hpp:1257-1268 (the flag of `resize` is ignored). -/
def assignU64 (K : Kind) (s : BigSt) (i : Nat) (x : BitVec 64) : Res BigSt := do
  let s := s.setNeg i false
  let (s, _) ← s.resize K i 2
  let s ← s.store i 0 (x.setWidth 32)
  let s ← s.store i 1 ((x >>> 32).setWidth 32)
  let w ← s.load i 1
  s.trim i (if w ≠ 0 then 2 else 1)

/-- `operator = (int64_t)`, bigint.hpp:1247-1255. -/
def assignS64 (K : Kind) (s : BigSt) (i : Nat) (x : BitVec 64) : Res BigSt := do
  let s ← s.assignU64 K i (cabs64 x)
  .ok (s.setNeg i (decide (x.toInt < 0)))

/-- `z = n;` for a native integer. -/
def assignN (K : Kind) (s : BigSt) (i : Nat) : Native → Res BigSt
  | .s32 v => s.assignInt K i v
  | .u32 v => s.assignWord K i v
  | .s64 v => s.assignS64 K i v
  | .u64 v => s.assignU64 K i v

/-- `bigint(n)` for a native integer, bigint.hpp:1126-1160: a new object, then the assignment. -/
def newN (K : Kind) (s : BigSt) (n : Native) : Res BigSt := do
  let i := s.mem.objs.length
  let (m, _) ← step K s.mem .create
  ({ s with mem := m } : BigSt).assignN K i n

/-- `mods1(r, x, y)`, bigint.hpp:1891-1896. -/
def mods1 (K : Kind) (s : BigSt) (r x : Nat) (y : BitVec 32) : Res BigSt := do
  let xNeg := s.neg x
  let m ← s.divMods1Rem x y
  let s ← s.assignInt K r m
  .ok (s.setNeg r xNeg)

/-- `return c;` of an operator whose local variable `c` holds the result: nothing happens when the compiler constructs `c` in place
of the result (`elide`), otherwise the result is move-constructed (1221-1225). -/
def ret (K : Kind) (elide : Bool) (s : BigSt) (c : Nat) : Res (BigSt × Nat) :=
  if elide then .ok (s, c)
  else do
    let n := s.mem.objs.length
    let s ← s.moveNew K c
    .ok (s, n)

end BigSt

/-- The binary operators. -/
inductive BOp
  | add | sub | mul | div | mod | and | or
deriving DecidableEq, Repr

/-- The function behind `x op y` with result `z`, bigint.hpp:2517, 2529, 2543, 2555, 2567, 2577, 2585 (and behind the compound
assignments 2523, 2535, 2549, 2561, 2573, 2581, 2589 with `x` = `z`). -/
def BOp.run (K : Kind) (fuel : Nat) (s : BigSt) (z x y : Nat) : BOp → Res BigSt
  | .add => s.add K z x y
  | .sub => s.sub K z x y
  | .mul => (s.mul K z x y).map (·.1)
  | .div => (s.div K fuel z x y).map (·.1)
  | .mod => (s.mod K z x y).map (·.1)
  | .and => s.andBit K z x y
  | .or => s.orBit K z x y

/-- The operator with a 64-bit operand, bigint.hpp:2515-2516, 2521-2522, 2527-2528, … : a temporary `bigint(n)`, then the operator
for two big integers. -/
def BOp.run64 (K : Kind) (fuel : Nat) (s : BigSt) (z x : Nat) (n : Native) (o : BOp) : Res BigSt := do
  let t := s.mem.objs.length
  let s ← s.newN K n
  o.run K fuel s z x t

/-- The function behind `x op n` with result `z` for a native integer, bigint.hpp:2513-2590; `asg`: the compound assignment.
`x % uint32_t` stores through a null pointer (1785-1790, 1911, 450-452), or aborts for zero.  `%=` with a 64-bit operand calls
`div` (2571-2572).  `&` and `|` have no overload for signed operands (such a call is ambiguous and does not compile; reached by no
program that means something). -/
def BOp.runN (K : Kind) (fuel : Nat) (asg : Bool) (s : BigSt) (z x : Nat) : BOp → Native → Res BigSt
  | .add, .s32 v => s.addu1Go K z x (cabs32 v) (decide (v.toInt < 0))
  | .add, .u32 v => s.addu1Go K z x v false
  | .sub, .s32 v => s.addu1Go K z x (cabs32 v) (!decide (v.toInt < 0))
  | .sub, .u32 v => s.addu1Go K z x v true
  | .mul, .s32 v => s.muls1 K z x v
  | .mul, .u32 v => s.mulu1 K z x v
  | .div, .s32 v => s.divs1 K z x v
  | .div, .u32 v => s.divu1 K z x v
  | .mod, .s32 v => s.mods1 K z x v
  | .mod, .u32 v => .error (if v = 0 then .abort else .ub)
  | .mod, n => if asg then BOp.run64 K fuel s z x n .div else BOp.run64 K fuel s z x n .mod
  | .and, .u32 v => s.andBitu1 K z x v
  | .and, .u64 v => BOp.run64 K fuel s z x (.u64 v) .and
  | .and, _ => .error .ub
  | .or, .u32 v => s.orBitu1 K z x v
  | .or, .u64 v => BOp.run64 K fuel s z x (.u64 v) .or
  | .or, _ => .error .ub
  | o, n => BOp.run64 K fuel s z x n o

/-- Functions of two big integers that return a big integer. -/
inductive Fn
  | pow | modinv | gcd | lcm
deriving DecidableEq, Repr

/-- Expressions. -/
inductive Ex
  /-- a variable -/
  | var (x : Nat)
  /-- `bigint(n)` -/
  | lit (n : Native)
  /-- `a op b` -/
  | bin (o : BOp) (a b : Ex)
  /-- `a op n` for a native integer -/
  | binN (o : BOp) (a : Ex) (n : Native)
  /-- `-a`, `a.neg()` -/
  | neg (a : Ex)
  /-- `a.abs()` -/
  | abs (a : Ex)
  /-- `a << n` -/
  | shl (a : Ex) (n : Nat)
  /-- `a >> n` -/
  | shr (a : Ex) (n : Nat)
  /-- `a.pow(b)`, `a.modinv(b)`, `a.gcd(b)`, `a.lcm(b)` -/
  | call (f : Fn) (a b : Ex)
  /-- `a.modexp(b, m)` -/
  | modexp (a b m : Ex)
deriving DecidableEq, Repr

/-- The member functions `pow`, `modinv`, `gcd`, `lcm`, bigint.hpp:2114-2120, 2299-2305, 2331-2336, 2348-2353, on the result object. -/
def Fn.stmt (z x y : Nat) : Fn → NStmt
  | .pow => .pow z x y
  | .modinv => .modinv z x y
  | .gcd => .gcd z x y
  | .lcm => .lcm z x y

/-- Evaluation of an expression: the position of the object it denotes.  `vars` are the positions of the variables.
Operators with a result: `bigint c; f(c, a, b); return c;` (2513-2590, 2596); `<<` and `>>` copy first (2594-2595), and so does `abs`
(1998-2003, where `abs(y, x)` copies a second time). -/
def Ex.eval (K : Kind) (elide : Bool) (fuel : Nat) (vars : List Nat) : Ex → BigSt → Res (BigSt × Nat)
  | .var x, s =>
    match vars[x]? with
    | some p => .ok (s, p)
    | none => .error .ub
  | .lit n, s => do
    let p := s.mem.objs.length
    let s ← s.newN K n
    .ok (s, p)
  | .bin o a b, s => do
    let (s, p) ← a.eval K elide fuel vars s
    let (s, q) ← b.eval K elide fuel vars s
    let c := s.mem.objs.length
    let s ← s.create K 0
    let s ← o.run K fuel s c p q
    s.ret K elide c
  | .binN o a n, s => do
    let (s, p) ← a.eval K elide fuel vars s
    let c := s.mem.objs.length
    let s ← s.create K 0
    let s ← o.runN K fuel false s c p n
    s.ret K elide c
  | .neg a, s => do
    let (s, p) ← a.eval K elide fuel vars s
    let c := s.mem.objs.length
    let s ← s.create K 0
    let s ← s.negate K c p
    s.ret K elide c
  | .abs a, s => do
    let (s, p) ← a.eval K elide fuel vars s
    let c := s.mem.objs.length
    let s ← s.copyNew K p
    let s ← s.abs K c p
    s.ret K elide c
  | .shl a n, s => do
    let (s, p) ← a.eval K elide fuel vars s
    let c := s.mem.objs.length
    let s ← s.copyNew K p
    let s ← s.shl K c c n
    s.ret K elide c
  | .shr a n, s => do
    let (s, p) ← a.eval K elide fuel vars s
    let c := s.mem.objs.length
    let s ← s.copyNew K p
    let s ← s.shr K c c n
    s.ret K elide c
  | .call f a b, s => do
    let (s, p) ← a.eval K elide fuel vars s
    let (s, q) ← b.eval K elide fuel vars s
    let c := s.mem.objs.length
    let s ← s.create K 0
    let s ← (f.stmt c p q).exec K fuel s
    s.ret K elide c
  | .modexp a b m, s => do
    let (s, p) ← a.eval K elide fuel vars s
    let (s, q) ← b.eval K elide fuel vars s
    let (s, r) ← m.eval K elide fuel vars s
    let c := s.mem.objs.length
    let s ← s.create K 0
    let s ← (NStmt.modexp c p q r).exec K fuel s
    s.ret K elide c

/-- The truth value of `x op y` from the sign of the comparison of `x` with `y`, bigint.hpp:2453-2511: `!=` negates `==`, `<=`
negates `>`, `>=` negates `<`. -/
def _root_.Ack.Cmp.right (o : Cmp) (r : Int) : Bool :=
  match o with
  | .eq => r == 0 | .ne => !(r == 0) | .lt => decide (r < 0) | .le => !decide (r > 0) | .gt => decide (r > 0) | .ge => !decide (r < 0)

/-- The truth value of `n op x` from the sign of the comparison of `x` with `n`, bigint.hpp:2458-2511. -/
def _root_.Ack.Cmp.left (o : Cmp) (r : Int) : Bool :=
  match o with
  | .eq => r == 0 | .ne => !(r == 0) | .lt => decide (r > 0) | .le => !decide (r < 0) | .gt => decide (r < 0) | .ge => !decide (r > 0)

/-- The sign of the comparison with a native integer, bigint.hpp:2453-2511: `compares1`, `compareu1`, or `compare` with a temporary. -/
def BigSt.cmpNative (K : Kind) (s : BigSt) (x : Nat) : Native → Res (BigSt × Int)
  | .s32 v => do .ok (s, ← s.compares1 x v)
  | .u32 v => do .ok (s, ← s.compareu1 x v)
  | n => do
    let t := s.mem.objs.length
    let s ← s.newN K n
    .ok (s, ← s.compare x t)

/-- Conditions. -/
inductive Cond
  /-- `a op b` -/
  | cmp (o : Cmp) (a b : Ex)
  /-- `a op n` for a native integer -/
  | cmpR (o : Cmp) (a : Ex) (n : Native)
  /-- `n op a` for a native integer -/
  | cmpL (o : Cmp) (n : Native) (a : Ex)
  /-- `a.is_zero()` -/
  | isZero (a : Ex)
  /-- `a.is_one()` -/
  | isOne (a : Ex)
  /-- `a.is_negative()` -/
  | isNegative (a : Ex)
  /-- `a.is_odd()` -/
  | isOdd (a : Ex)
  /-- `a.test_bit(i)` -/
  | testBit (a : Ex) (i : Nat)
  /-- `!c` -/
  | not (c : Cond)
  /-- `c && d` -/
  | and (c d : Cond)
  /-- `c || d` -/
  | or (c d : Cond)
deriving DecidableEq, Repr

/-- Evaluation of a condition; `&&` and `||` evaluate the right operand only if needed. -/
def Cond.eval (K : Kind) (elide : Bool) (fuel : Nat) (vars : List Nat) : Cond → BigSt → Res (BigSt × Bool)
  | .cmp o a b, s => do
    let (s, p) ← a.eval K elide fuel vars s
    let (s, q) ← b.eval K elide fuel vars s
    let r ← s.compare p q
    .ok (s, o.right r)
  | .cmpR o a n, s => do
    let (s, p) ← a.eval K elide fuel vars s
    let (s, r) ← s.cmpNative K p n
    .ok (s, o.right r)
  | .cmpL o n a, s => do
    let (s, p) ← a.eval K elide fuel vars s
    let (s, r) ← s.cmpNative K p n
    .ok (s, o.left r)
  | .isZero a, s => do
    let (s, p) ← a.eval K elide fuel vars s
    .ok (s, ← s.isZero p)
  | .isOne a, s => do
    let (s, p) ← a.eval K elide fuel vars s
    .ok (s, ← s.isOne p)
  | .isNegative a, s => do
    let (s, p) ← a.eval K elide fuel vars s
    .ok (s, ← s.isNegative p)
  | .isOdd a, s => do
    let (s, p) ← a.eval K elide fuel vars s
    .ok (s, ← s.isOdd p)
  | .testBit a i, s => do
    let (s, p) ← a.eval K elide fuel vars s
    .ok (s, ← s.testBit p i)
  | .not c, s => do
    let (s, b) ← c.eval K elide fuel vars s
    .ok (s, !b)
  | .and c d, s => do
    let (s, b) ← c.eval K elide fuel vars s
    if b then d.eval K elide fuel vars s else .ok (s, false)
  | .or c d, s => do
    let (s, b) ← c.eval K elide fuel vars s
    if b then .ok (s, true) else d.eval K elide fuel vars s

/-- Commands.  Variables are numbered in the order of their declaration. -/
inductive Cmd
  | skip
  | seq (p q : Cmd)
  /-- `{ p }`: the variables declared in `p` go out of scope at its end -/
  | block (p : Cmd)
  /-- `if (c) { p } else { q }` -/
  | ite (c : Cond) (p q : Cmd)
  /-- `while (c) { p }` -/
  | loop (c : Cond) (p : Cmd)
  /-- `bigint v = e;` -/
  | decl (e : Ex)
  /-- `z = e;` -/
  | set (z : Nat) (e : Ex)
  /-- `z = n;` for a native integer -/
  | setN (z : Nat) (n : Native)
  /-- `z op= e;` -/
  | upd (o : BOp) (z : Nat) (e : Ex)
  /-- `z op= n;` for a native integer -/
  | updN (o : BOp) (z : Nat) (n : Native)
  /-- `z <<= n;` -/
  | shl (z n : Nat)
  /-- `z >>= n;` -/
  | shr (z n : Nat)
  /-- `++z;` or `--z;` -/
  | step (up : Bool) (z : Nat)
  /-- `bigint v = z++;` or `bigint v = z--;` -/
  | post (up : Bool) (z : Nat)
  /-- `x.swap(y);` -/
  | swap (x y : Nat)
deriving DecidableEq, Repr

/-- The positions of the variables, and memory. -/
structure Frame where
  vars : List Nat
  st : BigSt

/-- The position of a variable.  A program that compiles names only declared variables. -/
def Frame.pos (f : Frame) (z : Nat) : Res Nat :=
  match f.vars[z]? with
  | some p => .ok p
  | none => .error .ub

/-- `adds1(z, z, 1)` or `subs1(z, z, 1)`, bigint.hpp:2448-2451, 1792-1802. -/
def BigSt.bump (K : Kind) (s : BigSt) (up : Bool) (z : Nat) : Res BigSt := s.addu1Go K z z 1 (!up)

/-- Execution of a command.  `fuel` bounds the number of iterations. -/
def Cmd.exec (K : Kind) (elide : Bool) : Nat → Cmd → Frame → Res Frame
  | 0, _, _ => .error .fuel
  | _ + 1, .skip, f => .ok f
  | n + 1, .seq p q, f => do
    let f ← p.exec K elide n f
    q.exec K elide n f
  | n + 1, .block p, f => do
    let g ← p.exec K elide n f
    .ok ⟨g.vars.take f.vars.length, g.st⟩
  | n + 1, .ite c p q, f => do
    let (s, b) ← c.eval K elide n f.vars f.st
    (Cmd.block (if b then p else q)).exec K elide n ⟨f.vars, s⟩
  | n + 1, .loop c p, f => do
    let (s, b) ← c.eval K elide n f.vars f.st
    if b then
      let g ← (Cmd.block p).exec K elide n ⟨f.vars, s⟩
      (Cmd.loop c p).exec K elide n g
    else .ok ⟨f.vars, s⟩
  | _ + 1, .decl (.var x), f => do
    let p ← f.pos x
    let i := f.st.mem.objs.length
    let s ← f.st.copyNew K p
    .ok ⟨f.vars ++ [i], s⟩
  | n + 1, .decl e, f => do
    let (s, p) ← e.eval K elide n f.vars f.st
    .ok ⟨f.vars ++ [p], s⟩
  | _ + 1, .set z (.var x), f => do
    let p ← f.pos x
    let i ← f.pos z
    let s ← f.st.assign K i p
    .ok ⟨f.vars, s⟩
  | n + 1, .set z e, f => do
    let (s, p) ← e.eval K elide n f.vars f.st
    let i ← f.pos z
    let s ← s.moveAssign K i p
    .ok ⟨f.vars, s⟩
  | _ + 1, .setN z v, f => do
    let i ← f.pos z
    let s ← f.st.assignN K i v
    .ok ⟨f.vars, s⟩
  | n + 1, .upd o z e, f => do
    let (s, p) ← e.eval K elide n f.vars f.st
    let i ← f.pos z
    let s ← o.run K n s i i p
    .ok ⟨f.vars, s⟩
  | n + 1, .updN o z v, f => do
    let i ← f.pos z
    let s ← o.runN K n true f.st i i v
    .ok ⟨f.vars, s⟩
  | _ + 1, .shl z k, f => do
    let i ← f.pos z
    let s ← f.st.shl K i i k
    .ok ⟨f.vars, s⟩
  | _ + 1, .shr z k, f => do
    let i ← f.pos z
    let s ← f.st.shr K i i k
    .ok ⟨f.vars, s⟩
  | _ + 1, .step up z, f => do
    let i ← f.pos z
    let s ← f.st.bump K up i
    .ok ⟨f.vars, s⟩
  | _ + 1, .post up z, f => do
    let i ← f.pos z
    let c := f.st.mem.objs.length
    let s ← f.st.copyNew K i
    let s ← s.bump K up i
    let (s, p) ← s.ret K elide c
    .ok ⟨f.vars ++ [p], s⟩
  | _ + 1, .swap x y, f => do
    let i ← f.pos x
    let j ← f.pos y
    let s ← f.st.swap K i j
    .ok ⟨f.vars, s⟩

end Ack.Mem
