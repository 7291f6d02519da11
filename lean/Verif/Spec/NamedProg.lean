import Verif.Model.NamedMem
import Verif.Spec.KeyProg
import Verif.Spec.Curves
/-! # What a program on a named curve sees -/
namespace Ack.Spec.Key
open Ack.Mem Ack.Spec.Ec

/-- A program on a named curve that in the end reads all its variables. -/
def namedReport (wasm : Bool) (fuel : Nat) (c : Named) (ts : List KStmt) : M KSight := do
  let v ← c.program wasm fuel ts
  let q ← readPts (c.params.kind wasm) fuel v.ec.pts
  let x ← readInts v.ec.ints
  pure ⟨x, q, v.ec.bools, v.bytes⟩

/-- What it sees. -/
def namedSees (wasm : Bool) (fuel : Nat) (c : Named) (ts : List KStmt) : Res KSight := (namedReport wasm fuel c ts BigSt.init).map (·.1)

/-- The words of an integer of a curve over a field of `bits` bits: twice the size of the field, or any number on chain for the two
largest fields. -/
def room (wasm : Bool) (bits : ℕ) : Cap := if wasm = true ∧ 512 ≤ bits then none else some (2 * ((bits + 31) / 32))

end Ack.Spec.Key
