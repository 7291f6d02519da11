import Verif.Model.Views
/-!
# What a program on byte vectors and views computes

Independent of addresses, capacities and the allocator.  A vector is its bytes.  A view names a part of a vector and may be
used until the vector is appended to or destroyed; meanwhile it shows the vector's present bytes.  A program that breaks a rule
of use has no meaning here (`none`).
-/
namespace Ack.Spec.View
open Ack.View (Opd Stmt)

/-- The bytes of a vector and how often it has been appended to. -/
structure Vec where
  data : List (BitVec 8)
  age : Nat

/-- A part of vector `vec`, which had the given age when the view was made. -/
structure View where
  vec : Nat
  age : Nat
  off : Nat
  len : Nat

structure Env where
  vecs : List (Option Vec)
  views : List View
  outs : List Bool

/-- The part of a vector an operand stands for, if it may be used: vector number, offset and length. -/
def part (e : Env) : Opd → Option (Nat × Nat × Nat)
  | .vec i => match e.vecs[i]? with
    | some (some v) => some (i, 0, v.data.length)
    | _ => none
  | .view j => match e.views[j]? with
    | some w => match e.vecs[w.vec]? with
      | some (some v) => if v.age = w.age then some (w.vec, w.off, w.len) else none
      | _ => none
    | none => none

/-- The bytes of a vector. -/
def bytes (e : Env) (i : Nat) : Option (List (BitVec 8)) := match e.vecs[i]? with
  | some (some v) => some v.data
  | _ => none

/-- The bytes an operand shows. -/
def sees (e : Env) (o : Opd) : Option (List (BitVec 8)) := do
  let (i, off, len) ← part e o
  let l ← bytes e i
  some ((l.drop off).take len)

/-- `l` with `src` xored in from position `d`. -/
def xorAt (l : List (BitVec 8)) (d : Nat) (src : List (BitVec 8)) : List (BitVec 8) :=
  l.mapIdx fun k b => if d ≤ k ∧ k < d + src.length then b ^^^ src.getD (k - d) 0 else b

/-- A new vector. -/
def new (e : Env) (l : List (BitVec 8)) : Env := { e with vecs := e.vecs ++ [some ⟨l, 0⟩] }

/-- An answer. -/
def tell (e : Env) (b : Bool) : Env := { e with outs := e.outs ++ [b] }

/-- Views of the same bytes, from vector `i`: appending makes them unusable. -/
def grown (e : Env) (i : Nat) (v : Vec) (l : List (BitVec 8)) : Env := { e with vecs := e.vecs.set i (some ⟨v.data ++ l, v.age + 1⟩) }

/-- One statement.  A vector is not appended to itself.  The source of `memxor` may be the destination itself, may begin behind
its beginning, or may end before it begins. -/
def step (e : Env) : Stmt → Option Env
  | .make l => some (new e l)
  | .copy o => do some (new e (← sees e o))
  | .cat i j => do some (new e ((← bytes e i) ++ (← bytes e j)))
  | .append i j =>
    if i = j then none
    else match e.vecs[i]? with
      | some (some v) => do some (grown e i v (← bytes e j))
      | _ => none
  | .view o off len => do
    let (i, o', n) ← part e o
    match e.vecs[i]? with
    | some (some v) => if off + len ≤ n then some { e with views := e.views ++ [⟨i, v.age, o' + off, len⟩] } else none
    | _ => none
  | .memxor d s num => do
    let (i, a, n1) ← part e d
    let (j, b, n2) ← part e s
    let src ← bytes e j
    let n := min (min num n1) n2
    match e.vecs[i]? with
    | some (some v) =>
      if i = j ∧ b < a ∧ a < b + n then none
      else some { e with vecs := e.vecs.set i (some ⟨xorAt v.data a ((src.drop b).take n), v.age⟩) }
    | _ => none
  | .drop i => do
    let _ ← bytes e i
    some { e with vecs := e.vecs.set i none }
  | .eq a b => do some (tell e (decide ((← sees e a) = (← sees e b))))
  | .ne a b => do some (tell e (decide ((← sees e a) ≠ (← sees e b))))
  | .keyEq m1 e1 m2 e2 => do
    let x := decide ((← sees e m1) = (← sees e m2))
    let y := decide ((← sees e e1) = (← sees e e2))
    some (tell e (x && y))
  | .keyNe m1 e1 m2 e2 => do
    let x := decide ((← sees e m1) = (← sees e m2))
    let y := decide ((← sees e e1) = (← sees e e2))
    some (tell e (!(x && y)))
  | .pssEq m1 e1 s1 m2 e2 s2 => do
    let x := decide ((← sees e m1) = (← sees e m2))
    let y := decide ((← sees e e1) = (← sees e e2))
    some (tell e (x && y && decide (s1 = s2)))
  | .pssNe m1 e1 s1 m2 e2 s2 => do
    let x := decide ((← sees e m1) = (← sees e m2))
    let y := decide ((← sees e e1) = (← sees e e2))
    some (tell e (!(x && y && decide (s1 = s2))))

/-- A program. -/
def run : List Stmt → Env → Option Env
  | [], e => some e
  | c :: p, e => do run p (← step e c)

/-- The bytes of the vectors at the end, and the answers. -/
def means (p : List Stmt) : Option (List (Option (List (BitVec 8))) × List Bool) := do
  let e ← run p ⟨[], [], []⟩
  some (e.vecs.map (Option.map Vec.data), e.outs)

/-- An allocator that gives room enough, apart from the storage of the vectors that exist. -/
def Alloc.Ok (A : Ack.View.Alloc) : Prop := ∀ s n, n ≤ (A s n).2 ∧
  ∀ v, some v ∈ s.vecs → (A s n).1 + (A s n).2 ≤ v.addr ∨ v.addr + v.cap ≤ (A s n).1

end Ack.Spec.View
