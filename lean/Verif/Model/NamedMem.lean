import Verif.Model.KeyMem
import Verif.Model.Contract
/-!
# The named curves and the contract on memory (include/ack/ec_curve.hpp, examples/helloack/src/helloack.cpp)
-/
namespace Ack
open Mem
open Big (Byte)

/-- The storage of the integers of a named curve, ec_curve.hpp:28, ec.hpp:14-15 and bigint.hpp:2608-2612: `word_buffer` with room for the
field size inline in a wasm build for `bitsize >= 512`, else `fixed_word_buffer` of twice the field size. -/
def CurveParams.kind (q : CurveParams) (wasm : Bool) : Kind :=
  if wasm ∧ 512 ≤ q.bits then ⟨bitsizeToWordsize q.bits, true⟩ else ⟨bitsizeToWordsize (bitsizeToWordsize q.bits * 32 * 2), false⟩

/-- The bytes of the literals, ec_curve.hpp:25-35 and bigint.hpp:1209-1213. -/
def CurveParams.bytes (q : CurveParams) : Res DomBytes := do
  let p ← fromHexLit (chars q.p)
  let a ← fromHexLit (chars q.a)
  let b ← fromHexLit (chars q.b)
  let gx ← fromHexLit (chars q.gx)
  let gy ← fromHexLit (chars q.gy)
  let n ← fromHexLit (chars q.n)
  return ⟨p, a, b, gx, gy, n, q.h⟩

/-- A program on the curve of the name.  The curve is a global constant (ec_curve.hpp:27); here its integers and the curve are made
first, by the constructors that the compiler evaluates (C74 compares constant evaluation with these). -/
def Named.program (wasm : Bool) (fuel : Nat) (c : Named) (ts : List KStmt) : M KVars :=
  match c.params.bytes with
  | .ok d => kProgram (c.params.kind wasm) fuel d ts
  | .error e => halt e

/-- An ECDSA action, helloack.cpp:16-94: `make_point(qx, qy)` (ec.hpp:1650-1661: two integers of bytes, which here are copied instead of
moved), the integers of the signature, `assert_ecdsa` (ecdsa.hpp:113-118: verification and `check`).  The hashes are functions on
bytes. -/
def EcdsaAction.runR (wasm : Bool) (fuel : Nat) (host : HostHash) (a : EcdsaAction) (qx qy msg r s : List Byte) : M Unit :=
  match a.curve.params.bytes with
  | .ok d => do
    let v ← ecProgram (a.curve.params.kind wasm) fuel d
      [.int qx, .int qy, .point 0 1 false, .int r, .int s, .verify 0 (a.hash host msg) 2 3]
    checkM (v.bools == [true])
  | .error e => halt e

end Ack
