/-!
# Outcomes of a modelled call

`check(expr, msg)` (include/ack/utils.hpp:27-38) aborts the transaction when `expr` is false.
`assert` is compiled out (`NDEBUG`).  Undefined behaviour is its own outcome, and so is running out
of the fuel that bounds a `while` loop of the model: theorems that conclude `= .ok _` therefore also
say that the call does not abort, has no undefined behaviour and terminates.
-/
namespace Ack

/-- Why a modelled call does not return a value. -/
inductive Err
  /-- a failed `check` (include/ack/utils.hpp:27) -/
  | abort
  /-- undefined behaviour of the C++ code -/
  | ub
  /-- the model's loop fuel ran out (never happens in a terminating call) -/
  | fuel
deriving DecidableEq, Repr

/-- Result of a modelled call. -/
abbrev Res (α : Type) := Except Err α

/-- `ack::check` (include/ack/utils.hpp:27-38). -/
def check (b : Bool) : Res Unit := if b then .ok () else .error .abort

instance {α : Type} [DecidableEq α] : DecidableEq (Res α)
  | .ok a, .ok b => if h : a = b then isTrue (by rw [h]) else isFalse (by intro e; cases e; exact h rfl)
  | .error a, .error b => if h : a = b then isTrue (by rw [h]) else isFalse (by intro e; cases e; exact h rfl)
  | .ok _, .error _ => isFalse (by intro e; cases e)
  | .error _, .ok _ => isFalse (by intro e; cases e)

end Ack
