import Verif.Model.Words
/-!
# `fixed_buffer` and `flexbuffer` (include/ack/buffer.hpp) with their storage

Unlike `Model/Bigint.lean`, where a buffer is just a list of words, this file models the memory behind the buffers: the
inline array of every object, the heap blocks of `flexbuffer`, their allocation, release, and the fact that freshly
allocated words are indeterminate.

Not modelled: failure of `new`, `size_t` overflow of `dsize_ + max(N, n)`, the `std::is_constant_evaluated()` branches
(compile-time evaluation), the end of an object's life (neither class has a destructor, so it has no effect on memory).
-/
namespace Ack.Mem

/-- Change a function at one point. -/
def upd {α : Type} (f : Nat → α) (i : Nat) (a : α) : Nat → α := fun j => if j = i then a else f j

/-- Memory: blocks of words.  `len b = some n`: block `b` is live and has `n` words.  `cell b k = none`: the word is
indeterminate (never stored to).  `dyn b`: the block came from `new[]`.  Block numbers are never reused, so a pointer
to a released block stays invalid. -/
structure Heap where
  len : Nat → Option Nat
  cell : Nat → Nat → Option Word
  dyn : Nat → Bool
  next : Nat

/-- Memory before any object exists. -/
def Heap.empty : Heap := ⟨fun _ => none, fun _ _ => none, fun _ => false, 0⟩

/-- A `word_t*`: block and word offset. -/
structure Ptr where
  b : Nat
  off : Nat
deriving DecidableEq, Repr

/-- `p + n`. -/
def Ptr.add (p : Ptr) (n : Nat) : Ptr := ⟨p.b, p.off + n⟩

/-- `p[0 .. n)` lies in a live block. -/
def Heap.room (h : Heap) (p : Ptr) (n : Nat) : Bool :=
  match h.len p.b with
  | some L => decide (p.off + n ≤ L)
  | none => false

/-- `*p` as a value: undefined behaviour outside a live block and for an indeterminate word. -/
def Heap.read (h : Heap) (p : Ptr) : Res Word :=
  if h.room p 1 then
    match h.cell p.b p.off with
    | some w => .ok w
    | none => .error .ub
  else .error .ub

/-- The memory after `*p = w`. -/
def Heap.put (h : Heap) (p : Ptr) (w : Option Word) : Heap := { h with cell := upd h.cell p.b (upd (h.cell p.b) p.off w) }

/-- `*p = w`: undefined behaviour outside a live block. -/
def Heap.write (h : Heap) (p : Ptr) (w : Word) : Res Heap :=
  if h.room p 1 then .ok (h.put p (some w)) else .error .ub

/-- A new block of `n` words, every word `init` (`none`: `new T[n]`, default-initialised, hence indeterminate). -/
def Heap.alloc (h : Heap) (n : Nat) (dyn : Bool) (init : Option Word) : Heap × Nat :=
  (⟨upd h.len h.next (some n), upd h.cell h.next (fun _ => init), upd h.dyn h.next dyn, h.next + 1⟩, h.next)

/-- `delete[] p` for a `p` returned by `new[]`: undefined behaviour for a released block or one that is not from
`new[]`. -/
def Heap.free (h : Heap) (b : Nat) : Res Heap :=
  if h.len b ≠ none ∧ h.dyn b then .ok { h with len := upd h.len b none } else .error .ub

/-- `memcpy` of `n` words from the start of block `s` to the start of block `d` (also used for the copy of
`std::array`).  Copying indeterminate words is allowed; leaving a block, or source and target in one block, is not. -/
def Heap.copy (h : Heap) (d s n : Nat) : Res Heap :=
  if d ≠ s ∧ h.room ⟨d, 0⟩ n ∧ h.room ⟨s, 0⟩ n then
    .ok { h with cell := upd h.cell d (fun k => if k < n then h.cell s k else h.cell d k) }
  else .error .ub

/-- Which of the two classes, and its template argument `N`: `dyn = false` is `fixed_buffer<word_t, N>`
(buffer.hpp:68-134), `dyn = true` is `flexbuffer<word_t, N>` (buffer.hpp:144-316). -/
structure Kind where
  N : Nat
  dyn : Bool

/-- An object of one of the classes: `sb` is the block of the inline array (`data_`, buffer.hpp:132; `sdata_`, 312),
`db` is `ddata_` (313), then `size_` and `dsize_` (133; 314-315).  A `fixed_buffer` has no `ddata_`/`dsize_`; they stay
`none`/`0` here. -/
structure Flex where
  sb : Nat
  db : Option Nat
  size : Nat
  dsize : Nat
deriving DecidableEq, Repr

/-- `data()`, buffer.hpp:93-101 and 259-267. -/
def Flex.data (o : Flex) : Ptr := ⟨o.db.getD o.sb, 0⟩

/-- Memory and the buffer objects of the program, in order of construction. -/
structure State where
  heap : Heap
  objs : List Flex

/-- No objects yet. -/
def State.init : State := ⟨Heap.empty, []⟩

/-- `clear()`, buffer.hpp:88-91 and 247-257. -/
def clear (h : Heap) (o : Flex) : Res (Heap × Flex) :=
  match o.db with
  | some b => do
    let h ← h.free b
    .ok (h, ⟨o.sb, none, 0, 0⟩)
  | none => .ok (h, ⟨o.sb, none, 0, 0⟩)

/-- `resize(n)`, buffer.hpp:79-86 and 217-245 (run-time branch). -/
def resize (K : Kind) (h : Heap) (o : Flex) (n : Nat) : Res (Heap × Flex × Bool) :=
  if K.dyn then
    if n > K.N ∧ n > o.dsize then do
      let m := max K.N n
      let dsize := o.dsize + m
      let (h, nb) := h.alloc dsize true none
      match o.db with
      | none => do
        let h ← h.copy nb o.sb K.N
        .ok (h, ⟨o.sb, some nb, n, dsize⟩, true)
      | some pold => do
        let h ← h.copy nb pold (dsize - m)
        let h ← h.free pold
        .ok (h, ⟨o.sb, some nb, n, dsize⟩, true)
    else .ok (h, { o with size := n }, true)
  else if n > K.N then .ok (h, o, false)
  else .ok (h, { o with size := n }, true)

/-- The members copied by the copy constructor (buffer.hpp:74, 150-161) and, after `clear()`, by copy assignment
(76, 175-190) into the object whose inline array is block `sb`. -/
def copyInto (K : Kind) (h : Heap) (sb : Nat) (r : Flex) : Res (Heap × Flex) := do
  let h ← h.copy sb r.sb K.N
  match r.db with
  | none => .ok (h, ⟨sb, none, r.size, r.dsize⟩)
  | some b =>
    let (h, nb) := h.alloc r.dsize true none
    let h ← h.copy nb b r.dsize
    .ok (h, ⟨sb, some nb, r.size, r.dsize⟩)

/-- The members moved by the move constructor (buffer.hpp:75, 163-173) and, after `clear()`, by move assignment (77,
192-206): the target and the source afterwards.  The defaulted moves of `fixed_buffer` copy. -/
def moveInto (K : Kind) (h : Heap) (sb : Nat) (r : Flex) : Res (Heap × Flex × Flex) := do
  let h ← h.copy sb r.sb K.N
  .ok (h, ⟨sb, r.db, r.size, r.dsize⟩, if K.dyn then ⟨r.sb, none, 0, 0⟩ else r)

/-- A use of a buffer object.  Objects are named by their position in `State.objs`. -/
inductive Op
  /-- `flexbuffer z;` (149) -/
  | create
  /-- `flexbuffer z(x_i);` (150) -/
  | copyNew (i : Nat)
  /-- `flexbuffer z(std::move(x_i));` (163) -/
  | moveNew (i : Nat)
  /-- `x_i = x_j;` (175) -/
  | copyAssign (i j : Nat)
  /-- `x_i = std::move(x_j);` (192) -/
  | moveAssign (i j : Nat)
  /-- `x_i.resize(n)` (217) -/
  | resize (i n : Nat)
  /-- `x_i.clear()` (247) -/
  | clear (i : Nat)
  /-- `x_i.swap(x_j)` (279) -/
  | swap (i j : Nat)
  /-- `x_i[k] = v` (300) -/
  | write (i k : Nat) (v : Word)
  /-- the value `x_i[k]` (289) -/
  | read (i k : Nat)
deriving DecidableEq, Repr

/-- What a call returns. -/
inductive Out
  | none
  | flag (b : Bool)
  | word (w : Word)
deriving DecidableEq, Repr

/-- A new inline array `= {}` (buffer.hpp:132, 312). -/
def newInline (K : Kind) (h : Heap) : Heap × Nat := h.alloc K.N false (some 0)

/-- One call.  A position that names no object stands for no call at all. -/
def step (K : Kind) (s : State) : Op → Res (State × Out)
  | .create =>
    let (h, sb) := newInline K s.heap
    .ok (⟨h, s.objs ++ [⟨sb, none, 0, 0⟩]⟩, .none)
  | .copyNew i =>
    match s.objs[i]? with
    | some r => do
      let (h, sb) := newInline K s.heap
      let (h, o) ← copyInto K h sb r
      .ok (⟨h, s.objs ++ [o]⟩, .none)
    | none => .ok (s, .none)
  | .moveNew i =>
    match s.objs[i]? with
    | some r => do
      let (h, sb) := newInline K s.heap
      let (h, o, r) ← moveInto K h sb r
      .ok (⟨h, s.objs.set i r ++ [o]⟩, .none)
    | none => .ok (s, .none)
  | .copyAssign i j =>
    match s.objs[i]?, s.objs[j]? with
    | some o, some r =>
      if i = j then .ok (s, .none)
      else do
        let (h, o) ← Mem.clear s.heap o
        let (h, o) ← copyInto K h o.sb r
        .ok (⟨h, s.objs.set i o⟩, .none)
    | _, _ => .ok (s, .none)
  | .moveAssign i j =>
    match s.objs[i]?, s.objs[j]? with
    | some o, some r =>
      if i = j then .ok (s, .none)
      else do
        let (h, o) ← Mem.clear s.heap o
        let (h, o, r) ← moveInto K h o.sb r
        .ok (⟨h, (s.objs.set i o).set j r⟩, .none)
    | _, _ => .ok (s, .none)
  | .resize i n =>
    match s.objs[i]? with
    | some o => do
      let (h, o, f) ← Mem.resize K s.heap o n
      .ok (⟨h, s.objs.set i o⟩, .flag f)
    | none => .ok (s, .none)
  | .clear i =>
    match s.objs[i]? with
    | some o => do
      let (h, o) ← Mem.clear s.heap o
      .ok (⟨h, s.objs.set i o⟩, .none)
    | none => .ok (s, .none)
  | .swap i j =>
    match s.objs[i]?, s.objs[j]? with
    | some o, some r =>
      if i = j then .ok (s, .none)
      else do
        -- `std::swap` of the inline arrays through a temporary array
        let (h, t) := newInline K s.heap
        let h ← h.copy t o.sb K.N
        let h ← h.copy o.sb r.sb K.N
        let h ← h.copy r.sb t K.N
        .ok (⟨h, (s.objs.set i { r with sb := o.sb }).set j { o with sb := r.sb }⟩, .none)
    | _, _ => .ok (s, .none)
  | .write i k v =>
    match s.objs[i]? with
    | some o => do
      check (decide (k < o.size))
      let h ← s.heap.write (o.data.add k) v
      .ok (⟨h, s.objs⟩, .none)
    | none => .ok (s, .none)
  | .read i k =>
    match s.objs[i]? with
    | some o => do
      check (decide (k < o.size))
      let w ← s.heap.read (o.data.add k)
      .ok (s, .word w)
    | none => .ok (s, .none)

/-- A history of calls, with the returned values. -/
def run (K : Kind) : State → List Op → Res (State × List Out)
  | s, [] => .ok (s, [])
  | s, op :: ops => do
    let (s, r) ← step K s op
    let (s, rs) ← run K s ops
    .ok (s, r :: rs)

end Ack.Mem
