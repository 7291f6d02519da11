import Verif.Model.Utils
/-!
# Byte vectors, views of them and key comparison in memory (include/ack/types.hpp, utils.hpp, span_ext.hpp, public_key.hpp)

`Model/Utils.lean` takes views as lists.  Here they are what they are in the code: an address and a length, into storage that
belongs to vectors, moves when a vector grows and goes away when it is destroyed.  Memory is flat: an address holds a byte
object or nothing; reading where there is nothing is undefined behaviour.  Addresses are unbounded and memory does not run
out.  Where a new block is placed and how large it is, is the allocator's and the library's choice and a parameter (`Alloc`).
-/
namespace Ack.View
open Big (Byte)

/-- Memory: which addresses hold a byte. -/
abbrev Mem := Nat → Option Byte

/-- Reads `n` bytes. -/
def rd (m : Mem) (a : Nat) : (n : Nat) → Res (List Byte)
  | 0 => .ok []
  | n + 1 => match m a with
    | none => .error .ub
    | some b => do
      let t ← rd m (a + 1) n
      .ok (b :: t)

/-- Creates bytes, in storage that belongs to a vector. -/
def create (m : Mem) (a : Nat) (l : List Byte) : Mem := fun x => if a ≤ x ∧ x < a + l.length then l[x - a]? else m x

/-- Writes to existing bytes. -/
def store (m : Mem) (a : Nat) (l : List Byte) : Res Mem := do
  let _ ← rd m a l.length
  .ok (create m a l)

/-- Ends the life of `n` bytes. -/
def wipe (m : Mem) (a n : Nat) : Mem := fun x => if a ≤ x ∧ x < a + n then none else m x

/-- `std::vector<byte_t>` (types.hpp:16): where its bytes are, how many, how many there is room for. -/
structure Vec where
  addr : Nat
  size : Nat
  cap : Nat

/-- `std::span` of bytes (types.hpp:17).  Views of constant and of changing bytes are not told apart. -/
structure Spn where
  addr : Nat
  len : Nat

/-- The objects of a program: vectors (a destroyed one is `none`) and views, and what comparisons have answered. -/
structure St where
  mem : Mem
  vecs : List (Option Vec)
  views : List Spn
  outs : List Bool

/-- Where a block for at least so many bytes is placed and how many it has room for. -/
abbrev Alloc := St → Nat → Nat × Nat

/-- What a function on a view is called with: a vector (converted to a view of all its bytes), or a view. -/
inductive Opd
  | vec (i : Nat)
  | view (j : Nat)
deriving DecidableEq, Repr

namespace St

/-- The vector object `i`; using a destroyed one is undefined. -/
def vec (s : St) (i : Nat) : Res Vec := match s.vecs[i]? with
  | some (some v) => .ok v
  | _ => .error .ub

/-- Conversion to a view; making or copying a view does not read. -/
def span (s : St) : Opd → Res Spn
  | .vec i => do
    let v ← s.vec i
    .ok ⟨v.addr, v.size⟩
  | .view j => match s.views[j]? with
    | some p => .ok p
    | none => .error .ub

/-- A vector with the given bytes. -/
def make (A : Alloc) (s : St) (l : List Byte) : St :=
  let (a, c) := A s l.length
  { s with mem := create s.mem a l, vecs := s.vecs ++ [some ⟨a, l.length, c⟩] }

/-- `make_bytes`, types.hpp:32-34. -/
def makeBytes (A : Alloc) (s : St) (p : Spn) : Res St := do
  let l ← rd s.mem p.addr p.len
  .ok (s.make A l)

/-- Moves vector `i` to a block for at least `n` bytes (`reserve` and the growth of `std::vector`). -/
def grow (A : Alloc) (s : St) (i : Nat) (v : Vec) (n : Nat) : Res (St × Vec) := do
  let l ← rd s.mem v.addr v.size
  let (a, c) := A s n
  let v' : Vec := ⟨a, v.size, c⟩
  .ok ({ s with mem := create (wipe s.mem v.addr v.size) a l, vecs := s.vecs.set i (some v') }, v')

/-- Creates bytes at the end of vector `i`, which has room for them. -/
def extend (s : St) (i : Nat) (v : Vec) (l : List Byte) : St :=
  { s with mem := create s.mem (v.addr + v.size) l, vecs := s.vecs.set i (some ⟨v.addr, v.size + l.length, v.cap⟩) }

/-- `push_back`, through `std::back_inserter` (types.hpp:60-61). -/
def pushBack (A : Alloc) (s : St) (i : Nat) (b : Byte) : Res St := do
  let v ← s.vec i
  if v.size < v.cap then .ok (s.extend i v [b])
  else do
    let (s, v) ← s.grow A i v (v.size + 1)
    .ok (s.extend i v [b])

/-- `std::copy( first, first + n, std::back_inserter( c ) )`, types.hpp:60-61. -/
def copyBack (A : Alloc) (k : Nat) : (n a : Nat) → St → Res St
  | 0, _, s => .ok s
  | n + 1, a, s => match s.mem a with
    | none => .error .ub
    | some b => do
      let s ← s.pushBack A k b
      copyBack A k n (a + 1) s

/-- `operator+` on vectors, types.hpp:54-63: the sum is a new vector. -/
def cat (A : Alloc) (s : St) (i j : Nat) : Res St := do
  let a ← s.vec i
  let b ← s.vec j
  let (c, n) := A s (a.size + b.size)
  let k := s.vecs.length
  let s : St := { s with vecs := s.vecs ++ [some ⟨c, 0, n⟩] }
  let s ← copyBack A k a.size a.addr s
  copyBack A k b.size b.addr s

/-- `operator+=` on vectors, types.hpp:65-70: `a.insert( a.end(), b.begin(), b.end() )`.  The range must not be in the vector
itself: that is undefined (requirements of sequence containers). -/
def append (A : Alloc) (s : St) (i j : Nat) : Res St := do
  let a ← s.vec i
  let b ← s.vec j
  if i = j then .error .ub
  else do
    let l ← rd s.mem b.addr b.size
    if a.size + b.size ≤ a.cap then .ok (s.extend i a l)
    else do
      let (s, a) ← s.grow A i a (a.size + b.size)
      .ok (s.extend i a l)

/-- `subspan( off, len )`; outside of the view it is undefined. -/
def sub (p : Spn) (off len : Nat) : Res Spn := if off + len ≤ p.len then .ok ⟨p.addr + off, len⟩ else .error .ub

/-- Destroys vector `i`. -/
def drop (s : St) (i : Nat) : Res St := do
  let v ← s.vec i
  .ok { s with mem := wipe s.mem v.addr v.size, vecs := s.vecs.set i none }

end St

/-! ## memxor on views -/

/-- The block loop of `memxor`, utils.hpp:216-228. -/
def xorBlocks (d s nb : Nat) : (fuel i : Nat) → Mem → Res Mem
  | 0, _, _ => .error .fuel
  | f + 1, i, m =>
    if i = nb then .ok m
    else do
      let x ← rd m (d + i) 16
      let y ← rd m (s + i) 16
      let b ← xorBlock x y
      let m ← store m (d + i) b
      xorBlocks d s nb f (i + 16) m

/-- The tail loop of `memxor`, utils.hpp:231-233. -/
def xorTail (d s num : Nat) : (fuel i : Nat) → Mem → Res Mem
  | 0, _, _ => .error .fuel
  | f + 1, i, m =>
    if i = num then .ok m
    else do
      let x ← rd m (d + i) 1
      let y ← rd m (s + i) 1
      let m ← store m (d + i) (List.zipWith (· ^^^ ·) x y)
      xorTail d s num f (i + 1) m

/-- `memxor`, utils.hpp:207-234, on views that may overlap. -/
def memxor (m : Mem) (dst src : Spn) (num : Nat) : Res Mem := do
  let num := min (min num dst.len) src.len
  let nb := num - num % 16
  let m ← xorBlocks dst.addr src.addr nb (num + 1) 0 m
  xorTail dst.addr src.addr num (num + 1) nb m

/-! ## Comparison -/

/-- The comparison loop of `std::equal`: stops at the first difference. -/
def eqLoop (m : Mem) : (n a b : Nat) → Res Bool
  | 0, _, _ => .ok true
  | n + 1, a, b => match m a, m b with
    | some x, some y => if x = y then eqLoop m n (a + 1) (b + 1) else .ok false
    | _, _ => .error .ub

/-- `operator==` on views, span_ext.hpp:11-20; with a vector on one side (span_ext.hpp:22-30) it is converted first. -/
def Spn.eq (m : Mem) (a b : Spn) : Res Bool :=
  if a.addr = b.addr then .ok (a.len == b.len)
  else if a.len = b.len then eqLoop m a.len a.addr b.addr
  else .ok false

/-- `operator==( rsa_public_key_view, rsa_public_key_view )`, public_key.hpp:115-117. -/
def keyEq (m : Mem) (m1 e1 m2 e2 : Spn) : Res Bool := do
  let x ← e1.eq m e2
  if x then m1.eq m m2 else .ok false

/-- `operator==( rsa_pss_public_key_view, rsa_pss_public_key_view )`, public_key.hpp:119-121. -/
def pssEq (m : Mem) (m1 e1 : Spn) (s1 : Option (BitVec 32)) (m2 e2 : Spn) (s2 : Option (BitVec 32)) : Res Bool := do
  let x ← e1.eq m e2
  if x then do
    let y ← m1.eq m m2
    .ok (y && s1 == s2)
  else .ok false

/-! ## Programs -/

/-- Statements.  Every new vector and view gets the next number of its kind. -/
inductive Stmt
  /-- a vector with given bytes -/
  | make (l : List Byte)
  /-- `make_bytes( o )` -/
  | copy (o : Opd)
  /-- `a + b` -/
  | cat (i j : Nat)
  /-- `a += b` -/
  | append (i j : Nat)
  /-- a part of a vector or a view -/
  | view (o : Opd) (off len : Nat)
  /-- `memxor( dst, src, num )` -/
  | memxor (dst src : Opd) (num : Nat)
  /-- a vector goes out of scope -/
  | drop (i : Nat)
  /-- `a == b` -/
  | eq (a b : Opd)
  /-- `a != b` -/
  | ne (a b : Opd)
  /-- `==` on `rsa_public_key_view`s of the given modulus and exponent, also when made from keys that own their bytes -/
  | keyEq (m1 e1 m2 e2 : Opd)
  /-- `!=` on them -/
  | keyNe (m1 e1 m2 e2 : Opd)
  /-- `==` on `rsa_pss_public_key_view`s -/
  | pssEq (m1 e1 : Opd) (s1 : Option (BitVec 32)) (m2 e2 : Opd) (s2 : Option (BitVec 32))
  /-- `!=` on them -/
  | pssNe (m1 e1 : Opd) (s1 : Option (BitVec 32)) (m2 e2 : Opd) (s2 : Option (BitVec 32))
deriving DecidableEq, Repr

/-- One statement.  The negated comparisons are span_ext.hpp:32-45 and public_key.hpp:123-129; the key views are made from
their parts or from keys by the constructors public_key.hpp:59-71, 76-111, which only copy views and the salt length. -/
def Stmt.exec (A : Alloc) (s : St) : Stmt → Res St
  | .make l => .ok (s.make A l)
  | .copy o => do s.makeBytes A (← s.span o)
  | .cat i j => s.cat A i j
  | .append i j => s.append A i j
  | .view o off len => do
    let p ← St.sub (← s.span o) off len
    .ok { s with views := s.views ++ [p] }
  | .memxor d e n => do
    let m ← View.memxor s.mem (← s.span d) (← s.span e) n
    .ok { s with mem := m }
  | .drop i => s.drop i
  | .eq a b => do
    let r ← (← s.span a).eq s.mem (← s.span b)
    .ok { s with outs := s.outs ++ [r] }
  | .ne a b => do
    let r ← (← s.span a).eq s.mem (← s.span b)
    .ok { s with outs := s.outs ++ [!r] }
  | .keyEq m1 e1 m2 e2 => do
    let r ← View.keyEq s.mem (← s.span m1) (← s.span e1) (← s.span m2) (← s.span e2)
    .ok { s with outs := s.outs ++ [r] }
  | .keyNe m1 e1 m2 e2 => do
    let r ← View.keyEq s.mem (← s.span m1) (← s.span e1) (← s.span m2) (← s.span e2)
    .ok { s with outs := s.outs ++ [!r] }
  | .pssEq m1 e1 s1 m2 e2 s2 => do
    let r ← View.pssEq s.mem (← s.span m1) (← s.span e1) s1 (← s.span m2) (← s.span e2) s2
    .ok { s with outs := s.outs ++ [r] }
  | .pssNe m1 e1 s1 m2 e2 s2 => do
    let r ← View.pssEq s.mem (← s.span m1) (← s.span e1) s1 (← s.span m2) (← s.span e2) s2
    .ok { s with outs := s.outs ++ [!r] }

/-- A program from a state. -/
def exec (A : Alloc) : List Stmt → St → Res St
  | [], s => .ok s
  | c :: p, s => do
    let s ← c.exec A s
    exec A p s

/-- Nothing is there yet. -/
def St.empty : St := ⟨fun _ => none, [], [], []⟩

/-- The bytes of a vector, read from memory. -/
def St.read (s : St) : Option Vec → Res (Option (List Byte))
  | none => .ok none
  | some v => do
    let l ← rd s.mem v.addr v.size
    .ok (some l)

/-- What a program leaves: the bytes of its vectors and its answers. -/
def St.contents (s : St) : Res (List (Option (List Byte)) × List Bool) := do
  let l ← s.vecs.mapM s.read
  .ok (l, s.outs)

/-- A whole program. -/
def program (A : Alloc) (p : List Stmt) : Res (List (Option (List Byte)) × List Bool) := do
  let s ← exec A p St.empty
  s.contents

end Ack.View
