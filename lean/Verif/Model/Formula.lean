import Verif.Model.Fp
import Verif.Spec.Formula
/-!
# Expressions over field elements

A C++ expression written with the overloaded operators of include/ack/fe.hpp and the member functions of
include/ack/fp.hpp; each operator call is the function of `Model/Fp.lean`.
-/
namespace Ack
open Big Spec

/-- Evaluation of an expression: `operator +`, `-`, `*`, `/` (fe.hpp:296-299, 359-362, 422-425, 485-488), unary `-`
(fe.hpp:730-733), `sqr()` and `inv()` (fp.hpp:679-682, 802-808).  Operands are evaluated from left to right. -/
def Fe.eval (cap : Cap) (env : Nat → Fe) : Formula → Res Fe
  | .var i => .ok (env i)
  | .neg a => do (← Fe.eval cap env a).neg cap
  | .sqr a => do (← Fe.eval cap env a).sqr cap
  | .inv a => do (← Fe.eval cap env a).inv cap
  | .add a b => do
    let x ← Fe.eval cap env a
    let y ← Fe.eval cap env b
    x.add cap y
  | .sub a b => do
    let x ← Fe.eval cap env a
    let y ← Fe.eval cap env b
    x.sub cap y
  | .mul a b => do
    let x ← Fe.eval cap env a
    let y ← Fe.eval cap env b
    x.mul cap y
  | .div a b => do
    let x ← Fe.eval cap env a
    let y ← Fe.eval cap env b
    x.div cap y

end Ack
