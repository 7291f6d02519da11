import Verif.Proof.Buffer
/-!
# C21: buffers

The statement quantifies over every history of constructions, copies, moves, assignments, swaps, resizes, clears,
writes and reads of any number of `fixed_buffer` or `flexbuffer` objects.
-/
namespace Ack.Props
open Ack.Mem Ack.Mem.Spec

/-- **C21.**  Every history of buffer operations either succeeds, with all returned values (flags of `resize`, values
read) as the memory-free specification `Spec/Buffer.lean` allows, or fails at one call as the specification demands:
an abort exactly for an index not below the size, undefined behaviour only for reading an element that never got a
value.  In particular copies are independent, resizing keeps the common prefix, a fixed buffer refuses to grow beyond
`N`, no block is used after its release or released twice. -/
theorem C21_histories (K : Kind) (ops : List Op) :
    (∃ s outs bufs, run K State.init ops = .ok (s, outs) ∧
      Runs (if K.dyn then none else some K.N) K.dyn [] ops bufs outs) ∨
    (∃ e, run K State.init ops = .error e ∧ Fails (if K.dyn then none else some K.N) K.dyn [] ops e) := by
  rcases run_spec ops (init_inv K) with ⟨s, outs, e, _, r⟩ | ⟨e, h, f⟩
  · exact Or.inl ⟨s, outs, _, e, r⟩
  · exact Or.inr ⟨e, h, f⟩

/-- A history with copies, growth onto the heap, a move and a swap. -/
example : (run ⟨1, true⟩ State.init
    [.create, .resize 0 1, .write 0 0 7, .resize 0 3, .write 0 2 9, .copyNew 0, .write 1 0 8, .resize 1 9,
     .read 0 0, .read 1 0, .read 1 2, .moveNew 1, .read 2 0, .swap 0 2, .read 0 0, .copyAssign 1 0, .read 1 2]).map (·.2) =
    .ok [.none, .flag true, .none, .flag true, .none, .none, .none, .flag true,
     .word 7, .word 8, .word 9, .none, .word 8, .none, .word 8, .none, .word 9] := by decide
/-- A fixed buffer refuses to grow and checks its indices. -/
example : (run ⟨2, false⟩ State.init [.create, .resize 0 3, .resize 0 2, .write 0 1 5, .read 0 1]).map (·.2) =
    .ok [.none, .flag false, .flag true, .none, .word 5] := by decide
example : (run ⟨2, false⟩ State.init [.create, .resize 0 2, .read 0 2]).map (·.2) = .error .abort := by decide

/-- **C21, memory safety.**  A history without reads has no undefined behaviour. -/
theorem C21_no_ub (K : Kind) (ops : List Op) (hr : ∀ i k, Op.read i k ∉ ops) :
    run K State.init ops ≠ .error .ub := by
  intro h
  rcases run_spec ops (init_inv K) with ⟨s, outs, e, _⟩ | ⟨e, h2, f⟩
  · rw [e] at h; cases h
  · rw [h] at h2
    cases h2
    clear h
    generalize hs : Mem.abs State.init = s at f
    clear hs
    generalize he : Err.ub = e at f
    induction f with
    | @here s op ops e b =>
      subst he
      cases op with
      | read i k => exact hr i k (List.mem_cons_self ..)
      | write i k v => obtain ⟨_, _, _, h⟩ := b; cases h
      | _ => exact b
    | later g _ ih => exact ih (fun i k hm => hr i k (List.mem_cons_of_mem _ hm)) he

example : (run ⟨1, true⟩ State.init [.create, .resize 0 2, .resize 0 40, .clear 0, .copyNew 0, .swap 0 1]).isOk = true := by
  decide

/-- **C21, independence.**  A successful operation that names only other objects leaves the elements of object `i`
alone: stated on the specification that every history obeys. -/
theorem C21_independent (lim : Option Nat) (mv : Bool) (s s' : List Buf) (op : Op) (out : Out) (i : Nat)
    (hi : i < s.length) (hg : Good lim mv s op s' out)
    (hop : match op with
      | .copyAssign a _ | .resize a _ | .clear a | .write a _ _ | .moveNew a => a ≠ i
      | .moveAssign a b | .swap a b => a ≠ i ∧ b ≠ i
      | _ => True) : s'[i]? = s[i]? := by
  have hset : ∀ (l : List Buf) (a : Nat) (x : Buf), a ≠ i → (l.set a x)[i]? = l[i]? := by
    intro l a x h
    rw [List.getElem?_set, if_neg h]
  have happ : ∀ (l : List Buf) (x : Buf), i < l.length → (l ++ [x])[i]? = l[i]? := by
    intro l x h
    rw [List.getElem?_append_left h]
  cases op with
  | create => rw [hg.1, happ _ _ hi]
  | copyNew a =>
    cases ha : s[a]? with
    | none => rw [hg.2.1 ha]
    | some x => rw [hg.1 x ha, happ _ _ hi]
  | moveNew a =>
    cases ha : s[a]? with
    | none => rw [hg.2.1 ha]
    | some x =>
      rw [hg.1 x ha]
      cases mv
      · exact happ _ _ hi
      · simp only [if_true]
        rw [happ _ _ (by rw [List.length_set]; exact hi), hset _ _ _ hop]
  | copyAssign a b =>
    rcases Nat.lt_or_ge b s.length with hb | hb
    · rw [hg.1 s[b] hb (List.getElem?_eq_getElem hb), hset _ _ _ hop]
    · rw [hg.2.1 hb]
  | moveAssign a b =>
    by_cases h : s.length ≤ a ∨ s.length ≤ b ∨ a = b
    · rw [hg.2.1 h]
    · have hb : b < s.length := by omega
      rw [hg.1 s[b] (by omega) (List.getElem?_eq_getElem hb) (by omega)]
      cases mv
      · exact hset _ _ _ hop.1
      · simp only [if_true]
        rw [hset _ _ _ hop.2, hset _ _ _ hop.1]
  | resize a n =>
    cases ha : s[a]? with
    | none => rw [(hg.2.2 ha).1]
    | some x =>
      by_cases hf : fits lim n
      · obtain ⟨_, x', h, _⟩ := hg.1 x ha hf
        rw [h, hset _ _ _ hop]
      · rw [(hg.2.1 x ha hf).2]
  | clear a => rw [hg.1, hset _ _ _ hop]
  | swap a b =>
    by_cases h : s.length ≤ a ∨ s.length ≤ b
    · rw [hg.2.1 h]
    · have ha : a < s.length := by omega
      have hb : b < s.length := by omega
      rw [hg.1 _ _ (List.getElem?_eq_getElem ha) (List.getElem?_eq_getElem hb), hset _ _ _ hop.2, hset _ _ _ hop.1]
  | write a k v =>
    cases ha : s[a]? with
    | none => rw [hg.2.1 ha]
    | some x => rw [(hg.1 x ha).2, hset _ _ _ hop]
  | read a k => rw [hg.1]

/-- Finding: elements gained by growing are not zeroed.  On the heap they are indeterminate (reading one is undefined
behaviour), in the inline array they hold stale values. -/
theorem C21_grown_elements_unset :
    (run ⟨1, true⟩ State.init [.create, .resize 0 3, .read 0 2]).map (·.2) = .error .ub ∧
    (run ⟨2, true⟩ State.init [.create, .resize 0 2, .write 0 1 7, .resize 0 1, .resize 0 2, .read 0 1]).map (·.2) =
      .ok [.none, .flag true, .none, .flag true, .flag true, .word 7] := by
  constructor <;> decide

end Ack.Props
