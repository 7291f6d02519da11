import Verif.Spec.FeProg
/-!
# Programs on field elements that decide by what they see

A client is any function from what it has seen so far to its next statement: with loops, branches, recursion and memory of its own.
Before every statement it sees the values of all its elements, its answers and its byte strings.
-/
namespace Ack.Spec.Fe
open Ack.Mem
open Big (Byte)

/-- What there is to see. -/
structure FeSight where
  els : List ℤ
  bools : List Bool
  strs : List (List Byte)
deriving DecidableEq

/-- A client: everything it has seen, the latest first, gives its next statement, or its end. -/
abbrev FeClient := List FeSight → Option FeStmt

/-! ## On memory -/

/-- All elements are read. -/
def feLook (v : FeVars) : M FeSight := do
  let x ← Ec.readInts (v.els.map (·.v))
  pure ⟨x, v.bools, v.strs⟩

/-- At most `n` statements of a client; everything it has seen in the end. -/
def fePlay (K : Kind) (fuel p : Nat) (F : FeClient) : Nat → List FeSight → FeVars → M (List FeSight)
  | 0, h, v => do
    let o ← feLook v
    pure (o :: h)
  | n + 1, h, v => do
    let o ← feLook v
    match F (o :: h) with
    | none => pure (o :: h)
    | some t => do
      let v ← feStep K fuel p v t
      fePlay K fuel p F n (o :: h) v

/-- A client makes a modulus of bytes and goes on. -/
def feClientSees (K : Kind) (fuel : Nat) (d : List Byte) (F : FeClient) (n : Nat) : Res (List FeSight) :=
  ((do
    let p ← newObj fun s => s.ofBytes K d
    fePlay K fuel p F n [] ⟨[], [], []⟩ : M _) BigSt.init).map (·.1)

/-! ## In the field -/

section
variable {P : ℕ} [Fact P.Prime]

/-- What there is to see of elements: the least non-negative representatives. -/
def feSight (e : FeEnv P) : FeSight := ⟨e.els.map fun x => (x.val : ℤ), e.bools, e.strs⟩

/-- At most `n` statements, each of which does what it says; everything that is seen in the end. -/
inductive FePlays (cap : Cap) (F : FeClient) : ℕ → List FeSight → FeEnv P → List FeSight → Prop
  | out (h : List FeSight) (e : FeEnv P) : FePlays cap F 0 h e (feSight e :: h)
  | done (n : ℕ) {h : List FeSight} {e : FeEnv P} : F (feSight e :: h) = none → FePlays cap F (n + 1) h e (feSight e :: h)
  | step {n : ℕ} {h h' : List FeSight} {e e1 : FeEnv P} {t : FeStmt} : F (feSight e :: h) = some t → FeDoes cap e t e1 →
      FePlays cap F n (feSight e :: h) e1 h' → FePlays cap F (n + 1) h e h'

/-- After fewer than `n` statements the client makes one that ends the program. -/
inductive FeHalts (cap : Cap) (F : FeClient) : ℕ → List FeSight → FeEnv P → Prop
  | stop (n : ℕ) {h : List FeSight} {e : FeEnv P} {t : FeStmt} : F (feSight e :: h) = some t → FeStops cap e t → FeHalts cap F (n + 1) h e
  | step {n : ℕ} {h : List FeSight} {e e1 : FeEnv P} {t : FeStmt} : F (feSight e :: h) = some t → FeDoes cap e t e1 →
      FeHalts cap F n (feSight e :: h) e1 → FeHalts cap F (n + 1) h e

end

/-- A client that, whatever it has seen, only names elements that it has. -/
def FeNames (P : ℕ) (F : FeClient) : Prop := ∀ o h t, F (o :: h) = some t → StForm P o.els.length t

end Ack.Spec.Fe
