import Verif.Proof.IntOwn
import Verif.Props.BufferEnd
/-!
# C108: heap memory of programs on big integers
-/
namespace Ack.Props
open Ack.Mem Ack.Mem.Spec

/-- **C108, programs on big integers.** After every program of the statements of C63 on growable storage that has no quotient, each block in use is held by one
of the integers: sums, products, shifts, remainders, assignments, moves and swaps lose none, whatever the arguments share.  (The quotient `div` has a local
remainder object which ends without clearing; it is not part of the memory model, and the statement leaves it out.) -/
theorem C108_int_programs (K : Kind) (hK : K.dyn = true) {fuel : Nat} {p : List Stmt} {s : BigSt}
    (hp : ∀ p1 c p2 s1, p = p1 ++ c :: p2 → exec K fuel BigSt.init p1 = .ok s1 → NoLocal s1 c) (e : exec K fuel BigSt.init p = .ok s) (b : Nat)
    (hb : InUse s.mem.heap b) : ∃ (i : Nat) (o : Flex), s.mem.objs[i]? = some o ∧ o.db = some b :=
  own_exec hK p hp own_init e b hb

open Ack.Spec.Prog in
/-- **C108, owners among big integers.** For the programs of C63 (all operands exist and have values, `set_bit` stays within the number) without a quotient: at the
end the blocks in use are exactly those the integers hold, no block is held by two. -/
theorem C108_int_owners (K : Kind) (hK : K.dyn = true) {fuel : Nat} {p : List Stmt} {e : Env} {s : BigSt} (he : evals [] p = some e)
    (room : Always (Room none) [] p) (hd : ∀ z x y, Stmt.div z x y ∉ p) (h : exec K fuel BigSt.init p = .ok s) :
    (∀ b, InUse s.mem.heap b ↔ ∃ (i : Nat) (o : Flex), s.mem.objs[i]? = some o ∧ o.db = some b) ∧
    (∀ (i j : Nat) (o r : Flex) (b : Nat), s.mem.objs[i]? = some o → s.mem.objs[j]? = some r → o.db = some b → r.db = some b → i = j) ∧
    s.mem.objs.length = e.length := by
  obtain ⟨I, H⟩ := own_evals hK p (holds_init K) he (by unfold Kind.lim; rw [hK]; exact room) hd own_init h
  refine ⟨fun b => ⟨I b, fun ⟨i, o, h1, h2⟩ => H.inv.inUse h1 h2⟩, ?_, H.len⟩
  intro i j o r b hi hj ho hr
  by_contra hne
  exact H.inv.ddist i j o r b hi hj hne ho hr

/-- **C108, one statement.** The same from any state in which each block in use is held by one of the integers. -/
theorem C108_int_statement (K : Kind) (hK : K.dyn = true) {fuel : Nat} {c : Stmt} {s s' : BigSt} (hc : NoLocal s c)
    (I : ∀ b, InUse s.mem.heap b → ∃ (i : Nat) (o : Flex), s.mem.objs[i]? = some o ∧ o.db = some b) (e : c.exec K fuel s = .ok s') (b : Nat)
    (hb : InUse s'.mem.heap b) : ∃ (i : Nat) (o : Flex), s'.mem.objs[i]? = some o ∧ o.db = some b :=
  own_exec1 hK hc I e b hb

/-- **C108, bit operations and division by a word.** Neither do `or_bit`, `and_bit`, their forms for one word, and `divu1` lose a block. -/
theorem C108_int_bits (K : Kind) {s s' : BigSt} {z x y : Nat} {w : Word}
    (I : ∀ b, InUse s.mem.heap b → ∃ (i : Nat) (o : Flex), s.mem.objs[i]? = some o ∧ o.db = some b)
    (e : s.orBit K z x y = .ok s' ∨ s.andBit K z x y = .ok s' ∨ s.orBitu1 K z x w = .ok s' ∨ s.andBitu1 K z x w = .ok s' ∨ s.divu1 K z x w = .ok s')
    (b : Nat) (hb : InUse s'.mem.heap b) : ∃ (i : Nat) (o : Flex), s'.mem.objs[i]? = some o ∧ o.db = some b := by
  rcases e with e | e | e | e | e
  · exact BigSt.own_orBit I e b hb
  · exact BigSt.own_andBit I e b hb
  · exact BigSt.own_orBitu1 I e b hb
  · exact BigSt.own_andBitu1 I e b hb
  · exact BigSt.own_divu1 I e b hb

/-- All five run on a number of two words on the heap, whose block is held by the first object. -/
example : (∀ b, InUse heapNumber.mem.heap b → ∃ (i : Nat) (o : Flex), heapNumber.mem.objs[i]? = some o ∧ o.db = some b) ∧
    (heapNumber.orBit ⟨1, true⟩ 1 0 1).map (fun s => s.mem.objs.map (·.db)) = .ok [some 1, some 3] ∧
    (heapNumber.andBit ⟨1, true⟩ 1 0 0).map (fun s => s.mem.objs.map (·.db)) = .ok [some 1, some 3] ∧
    (heapNumber.orBitu1 ⟨1, true⟩ 1 0 8).map (fun s => s.mem.objs.map (·.db)) = .ok [some 1, some 3] ∧
    (heapNumber.andBitu1 ⟨1, true⟩ 1 0 8).map (fun s => s.mem.objs.map (·.db)) = .ok [some 1, none] ∧
    (heapNumber.divu1 ⟨1, true⟩ 1 0 8).map (fun s => s.mem.objs.map (·.db)) = .ok [some 1, some 3] := by
  refine ⟨fun b hb => ⟨0, _, rfl, ?_⟩, by decide, by decide, by decide, by decide, by decide⟩
  have : b = 1 := by simpa [heapNumber] using hb.2
  rw [this]

/-- Two integers, a product that needs the heap, a swap, and a second product that does. -/
def heapProgram : List Stmt := [.create 0xFFFFFFFF, .create 2, .mul 0 0 0, .swap 0 1, .mul 0 1 1]

/-- `heapProgram` runs on storage with one inline word and ends with two blocks, one for each integer. -/
example : (exec ⟨1, true⟩ 0 BigSt.init heapProgram).map (fun s => (s.mem.objs.map (·.db), (List.range s.mem.heap.next).filter fun b => s.mem.heap.len b ≠ none && s.mem.heap.dyn b)) =
    .ok ([some 6, some 2], [2, 6]) := by decide

/-- It is one of the programs of `C108_int_owners`. -/
example : Ack.Spec.Prog.evals [] heapProgram = some [some 340282366604025813516997721482669850625, some 18446744065119617025] ∧
    Ack.Spec.Prog.Always (Ack.Spec.Prog.Room none) [] heapProgram ∧ ∀ z x y, Stmt.div z x y ∉ heapProgram := by
  refine ⟨by decide +kernel, by decide +kernel, fun z x y h => ?_⟩
  simp [heapProgram] at h

/-- It meets the condition of the theorem. -/
example : ∀ p1 c p2 s1, heapProgram = p1 ++ c :: p2 → exec ⟨1, true⟩ 0 BigSt.init p1 = .ok s1 → NoLocal s1 c := by
  intro p1 c p2 s1 h1 h2
  unfold heapProgram at h1
  rcases p1 with _ | ⟨a, _ | ⟨a2, _ | ⟨a3, _ | ⟨a4, _ | ⟨a5, t⟩⟩⟩⟩⟩ <;> simp only [List.nil_append, List.cons_append, List.cons.injEq] at h1
  · obtain ⟨rfl, -⟩ := h1; trivial
  · obtain ⟨-, rfl, -⟩ := h1; trivial
  · obtain ⟨-, -, rfl, -⟩ := h1; trivial
  · obtain ⟨rfl, rfl, rfl, rfl, -⟩ := h1
    have h : (exec ⟨1, true⟩ 0 BigSt.init [.create 0xFFFFFFFF, .create 2, .mul 0 0 0]).map (fun s => s.mem.objs.length) = .ok 2 := by decide
    rw [h2] at h
    have h : s1.mem.objs.length = 2 := Except.ok.inj h
    exact ⟨by omega, by omega⟩
  · obtain ⟨-, -, -, -, rfl, -⟩ := h1; trivial
  · simp at h1

/-- **C108, the quotient.** Why `div` is left out: its code declares a remainder, computes it as `mod` does and returns (bigint.hpp:1866-1870).  With that object
put into the memory (`.create 0, .mod 2 0 1` after two integers `0xFFFFFFFF²` and `2^32 + 4` on one inline word) it holds the block 7; its end gives
nothing back (`C108_lost`), so the block stays in use while the two integers hold the blocks 2 and 5. -/
theorem C108_int_div_loses :
    (do
      let s ← exec ⟨1, true⟩ 0 BigSt.init [.create 0xFFFFFFFF, .create 0xFFFFFFFD, .mul 0 0 0, .addWord 1 1 7 false]
      let t ← exec ⟨1, true⟩ 0 s [.create 0, .mod 2 0 1]
      pure (s.mem.objs.map (·.db), t.mem.objs.map (·.db), decide (t.mem.heap.len 7 ≠ none), t.mem.heap.dyn 7) : Res _) =
    .ok ([some 2, some 5], [some 2, some 5, some 7], true, true) := by decide

open Ack.Spec.Prog in
/-- **C108, the quotient, in general.** After any program `p` of C63 without a quotient, the body of `div(q, x, y)` with its remainder as the last object
(number `n`): when the remainder got a block, the block is in use and none of the other integers holds it, so with the end of the remainder it is lost
(`C108_lost`). -/
theorem C108_int_div_lost (K : Kind) (hK : K.dyn = true) {fuel : Nat} {p : List Stmt} {n x y : Nat} {e : Env} {s : BigSt}
    (he : evals [] (p ++ [.create 0, .mod n x y]) = some e) (room : Always (Room none) [] (p ++ [.create 0, .mod n x y]))
    (hd : ∀ z x y, Stmt.div z x y ∉ p) (h : exec K fuel BigSt.init (p ++ [.create 0, .mod n x y]) = .ok s) {o : Flex} {b : Nat}
    (ho : s.mem.objs[n]? = some o) (hb : o.db = some b) :
    InUse s.mem.heap b ∧ ∀ (i : Nat) (r : Flex), i ≠ n → s.mem.objs[i]? = some r → r.db ≠ some b := by
  have hd' : ∀ z x' y', Stmt.div z x' y' ∉ p ++ [.create 0, .mod n x y] := by
    intro z x' y' hm
    rcases List.mem_append.1 hm with hm | hm
    · exact hd _ _ _ hm
    · simp at hm
  obtain ⟨h1, h2, -⟩ := C108_int_owners K hK he room hd' h
  exact ⟨(h1 b).2 ⟨n, o, ho, hb⟩, fun i r hne hi hr => hne (h2 i n r o b hi ho hr hb)⟩

/-- The case of `C108_int_div_loses` meets the conditions. -/
example : Ack.Spec.Prog.evals [] ([.create 0xFFFFFFFF, .create 0xFFFFFFFD, .mul 0 0 0, .addWord 1 1 7 false] ++ [.create 0, .mod 2 0 1]) =
      some [some 18446744065119617025, some 4294967300, some 25] ∧
    Ack.Spec.Prog.Always (Ack.Spec.Prog.Room none) [] ([.create 0xFFFFFFFF, .create 0xFFFFFFFD, .mul 0 0 0, .addWord 1 1 7 false] ++ [.create 0, .mod 2 0 1]) ∧
    (exec ⟨1, true⟩ 0 BigSt.init ([.create 0xFFFFFFFF, .create 0xFFFFFFFD, .mul 0 0 0, .addWord 1 1 7 false] ++ [.create 0, .mod 2 0 1])).map
      (fun s => s.mem.objs[2]?.map (·.db)) = .ok (some (some 7)) := by
  decide +kernel

end Ack.Props
