import Verif.Model.Buffer
/-!
# Buffer objects that end (include/ack/buffer.hpp)

`Model/Buffer.lean` with the end of an object's life as an event of its own.  Neither class has a destructor (the one of `flexbuffer` is commented
out, buffer.hpp:208-215, as documented in 138-142), so the end changes no memory: what the object held on the heap stays allocated.
-/
namespace Ack.Mem

/-- The objects a call names. -/
def Op.uses : Op → List Nat
  | .create => []
  | .copyNew i | .moveNew i | .resize i _ | .clear i | .write i _ _ | .read i _ => [i]
  | .copyAssign i j | .moveAssign i j | .swap i j => [i, j]

/-- A call, or the end of the life of object `i`, in any order. -/
inductive EOp
  | call (op : Op)
  | fin (i : Nat)
deriving DecidableEq, Repr

/-- The state with the objects that have ended. -/
structure EState where
  s : State
  ended : List Nat

/-- No objects yet. -/
def EState.init : EState := ⟨State.init, []⟩

/-- One event; using an object after its end, or ending it twice, is undefined behaviour. -/
def EState.step (K : Kind) (e : EState) : EOp → Res EState
  | .call op =>
    if op.uses.any (e.ended.contains ·) then .error .ub
    else do
      let (s, _) ← Mem.step K e.s op
      .ok ⟨s, e.ended⟩
  | .fin i =>
    if e.ended.contains i then .error .ub
    -- the implicit destructor of buffer.hpp:68-134 and 144-316 releases nothing
    else if i < e.s.objs.length then .ok ⟨e.s, i :: e.ended⟩
    else .ok e

/-- A history. -/
def EState.run (K : Kind) : EState → List EOp → Res EState
  | e, [] => .ok e
  | e, op :: ops => do EState.run K (← e.step K op) ops

end Ack.Mem
