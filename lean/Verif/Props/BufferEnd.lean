import Verif.Proof.BufferEnd
import Verif.Model.AliasOps
/-!
# C108: heap memory of growable buffers

`InUse h b` (Spec/BufferEnd.lean): block `b` came from `new[]` and was not given back.
-/
namespace Ack.Props
open Ack.Mem Ack.Mem.Spec

/-- **C108, owners.** After every history of calls the blocks in use are those the objects hold, one object one block at most, no two objects the same
block: growing, assigning, moving, swapping and clearing lose none. -/
theorem C108_owners (K : Kind) {ops : List Op} {s : State} {outs : List Out} (e : run K State.init ops = .ok (s, outs)) :
    (∀ b, InUse s.heap b ↔ ∃ (i : Nat) (o : Flex), s.objs[i]? = some o ∧ o.db = some b) ∧
    (∀ (i j : Nat) (o r : Flex) (b : Nat), s.objs[i]? = some o → s.objs[j]? = some r → o.db = some b → r.db = some b → i = j) ∧
    (s.objs.filterMap (·.db)).Nodup ∧ ∀ b, b ∈ s.objs.filterMap (·.db) ↔ InUse s.heap b := by
  obtain ⟨J, I, -⟩ := own_run (M := (ops.map fun op => match op with | .resize _ n => n | _ => 0).sum)
    (fun i n h => le_sum (List.mem_map.2 ⟨_, h, rfl⟩)) (init_inv K) own_init (small_init K _) e
  have own : ∀ b, InUse s.heap b ↔ ∃ (i : Nat) (o : Flex), s.objs[i]? = some o ∧ o.db = some b := fun b => ⟨I b, fun ⟨i, o, h1, h2⟩ => J.inUse h1 h2⟩
  have one : ∀ (i j : Nat) (o r : Flex) (b : Nat), s.objs[i]? = some o → s.objs[j]? = some r → o.db = some b → r.db = some b → i = j := by
    intro i j o r b hi hj ho hr
    by_contra hne
    exact J.ddist i j o r b hi hj hne ho hr
  refine ⟨own, one, ?_, fun b => ?_⟩
  · have : s.objs.Pairwise fun o r => ∀ b, o.db = some b → r.db ≠ some b := by
      rw [List.pairwise_iff_getElem]
      intro i j hi hj hij b h1 h2
      have := one i j _ _ b (List.getElem?_eq_getElem hi) (List.getElem?_eq_getElem hj) h1 h2
      omega
    rw [List.Nodup, List.pairwise_filterMap]
    refine this.imp ?_
    rintro o r h b hb c hc rfl
    exact h b hb hc
  · rw [own b, List.mem_filterMap]
    constructor
    · rintro ⟨o, h1, h2⟩
      obtain ⟨i, hi⟩ := List.mem_iff_getElem?.1 h1
      exact ⟨i, o, hi, h2⟩
    · rintro ⟨i, o, h1, h2⟩
      exact ⟨o, List.mem_of_getElem? h1, h2⟩

/-- **C108, amount.** When no size above `M` was asked for, every block in use has more than `N` and fewer than `2 * M` words, and there are at most as many
blocks as objects; buffers that stay within their inline words use no heap at all, and neither do fixed buffers. -/
theorem C108_amount (K : Kind) {ops : List Op} {s : State} {outs : List Out} (e : run K State.init ops = .ok (s, outs)) {M : Nat} (hM : Asks M ops) :
    (∀ b, InUse s.heap b → ∃ n, s.heap.len b = some n ∧ K.N < n ∧ n < 2 * M) ∧
    (∃ L : List Nat, L.Nodup ∧ L.length ≤ s.objs.length ∧ ∀ b, b ∈ L ↔ InUse s.heap b) ∧
    ((M ≤ K.N ∨ K.dyn = false) → ∀ b, ¬ InUse s.heap b) := by
  obtain ⟨J, I, S⟩ := own_run hM (init_inv K) own_init (small_init K _) e
  obtain ⟨-, -, h1, h2⟩ := C108_owners K e
  refine ⟨fun b hb => ?_, ⟨_, h1, List.length_filterMap_le .., h2⟩, fun h b hb => ?_⟩
  · obtain ⟨i, o, hi, ho⟩ := I b hb
    obtain ⟨_, h3, _, _, h4⟩ := (J.obj i o hi).hd b ho
    exact ⟨_, h3, h4, (S i o hi (by rw [ho]; nofun)).2⟩
  · obtain ⟨i, o, hi, ho⟩ := I b hb
    have h3 := (S i o hi (by rw [ho]; nofun)).1
    have h4 := ((J.obj i o hi).hd b ho).1
    rcases h with h | h
    · omega
    · rw [h] at h4; cases h4

/-- Three objects, one inline word; sizes up to 5 asked for; two blocks of 3 + 5 and 3 words remain in use. -/
example : (run ⟨1, true⟩ State.init [.create, .resize 0 3, .copyNew 0, .resize 0 5, .create, .swap 0 2, .moveAssign 0 2]).map
      (fun x => (x.1.objs.filterMap (·.db), (x.1.objs.filterMap (·.db)).map x.1.heap.len)) = .ok ([4, 3], [some 8, some 3]) ∧
    Asks 5 [.create, .resize 0 3, .copyNew 0, .resize 0 5, .create, .swap 0 2, .moveAssign 0 2] := by
  refine ⟨by decide, fun i n h => ?_⟩
  simp at h
  omega

/-- Clearing the objects one after the other. -/
theorem clears {K : Kind} : ∀ (n : Nat) {s : State}, Inv K s → Own s → n ≤ s.objs.length → (∀ (i : Nat) o, n ≤ i → s.objs[i]? = some o → o.db = none) →
    ∃ s' outs, run K s ((List.range n).reverse.map .clear) = .ok (s', outs) ∧ ∀ b, ¬ InUse s'.heap b := by
  intro n
  induction n with
  | zero =>
    intro s J I _ h
    refine ⟨s, [], rfl, fun b hb => ?_⟩
    obtain ⟨i, o, hi, ho⟩ := I b hb
    rw [h i o (Nat.zero_le _) hi] at ho; cases ho
  | succ n ih =>
    intro s J I hn h
    have hg := List.getElem?_eq_getElem (l := s.objs) (i := n) (by omega)
    rcases step_spec J (.clear n) with ⟨s1, out, e1, J1, _⟩ | ⟨x, _, hb⟩
    · have I1 := own_any I e1
      have e0 := e1
      simp only [step, hg] at e1
      obtain ⟨⟨h', o'⟩, c1, c2⟩ := bind_ok e1
      cases c2
      obtain ⟨s2, outs, e2, h2⟩ := ih J1 I1 (by simp only [List.length_set]; omega) (by
        intro i o hi ho
        rcases get_set ho with ⟨_, e⟩ | ⟨e, ho⟩
        · rw [e]; exact (inUse_clear c1).1
        · exact h i o (by omega) ho)
      refine ⟨s2, .none :: outs, ?_, h2⟩
      rw [List.range_succ, List.reverse_append, List.reverse_cons, List.reverse_nil, List.nil_append, List.singleton_append, List.map_cons]
      simp only [run, e0, ok_bind, e2]
    · exact hb.elim

/-- **C108, given back.** After every history: clearing all objects, here the last first, succeeds and leaves no block in use. -/
theorem C108_clear (K : Kind) {ops : List Op} {s : State} {outs : List Out} (e : run K State.init ops = .ok (s, outs)) :
    ∃ s' outs', run K State.init (ops ++ (List.range s.objs.length).reverse.map .clear) = .ok (s', outs') ∧ ∀ b, ¬ InUse s'.heap b := by
  obtain ⟨J, I, -⟩ := own_run (M := (ops.map fun op => match op with | .resize _ n => n | _ => 0).sum)
    (fun i n h => le_sum (List.mem_map.2 ⟨_, h, rfl⟩)) (init_inv K) own_init (small_init K _) e
  obtain ⟨s', outs', e2, h⟩ := clears s.objs.length J I (Nat.le_refl _) (fun i o hi ho => absurd (lt_of_get ho) (by omega))
  exact ⟨s', outs ++ outs', by rw [Mem.run_append, e, ok_bind]; simp only [e2, ok_bind], h⟩

example : ∃ s outs, run ⟨1, true⟩ State.init [.create, .resize 0 3, .copyNew 0, .resize 0 5] = .ok (s, outs) ∧ s.objs.length = 2 :=
  ⟨_, _, rfl, rfl⟩

/-- **C108, ends.** In every history in which each buffer is cleared just before it ends, every block in use is held by an object that has not ended; when all
have ended, none is in use.  Without clearing this is false (`C108_leak`). -/
theorem C108_tidy (K : Kind) {t : List EOp} (h : Tidy t) {e : EState} (he : EState.init.run K t = .ok e) :
    (∀ b, InUse e.s.heap b → ∃ (i : Nat) (o : Flex), i ∉ e.ended ∧ e.s.objs[i]? = some o ∧ o.db = some b) ∧
    ((∀ i < e.s.objs.length, i ∈ e.ended) → ∀ b, ¬ InUse e.s.heap b) := by
  have I := einv_run (einv_init K) he
  have key : ∀ b, InUse e.s.heap b → ∃ (i : Nat) (o : Flex), i ∉ e.ended ∧ e.s.objs[i]? = some o ∧ o.db = some b := by
    intro b hb
    obtain ⟨i, o, hi, ho⟩ := I.own b hb
    refine ⟨i, o, fun hm => ?_, hi, ho⟩
    rw [tidy_ended h he i hm o hi] at ho; cases ho
  refine ⟨key, fun hall b hb => ?_⟩
  obtain ⟨i, o, hi, ho, _⟩ := key b hb
  exact hi (hall i (lt_of_get ho))

/-- Two buffers on the heap, both cleared before their end. -/
example : Tidy [.call .create, .call (.resize 0 3), .call (.copyNew 0), .call (.clear 0), .fin 0, .call (.resize 1 9), .call (.clear 1), .fin 1] ∧
    (EState.init.run ⟨1, true⟩ [.call .create, .call (.resize 0 3), .call (.copyNew 0), .call (.clear 0), .fin 0, .call (.resize 1 9), .call (.clear 1), .fin 1]).map
      (fun e => (e.ended, e.s.objs.map (·.db))) = .ok ([1, 0], [none, none]) :=
  ⟨.fin 1 (t := [.call .create, .call (.resize 0 3), .call (.copyNew 0), .call (.clear 0), .fin 0, .call (.resize 1 9)]) <|
    .call (t := [.call .create, .call (.resize 0 3), .call (.copyNew 0), .call (.clear 0), .fin 0]) _ <|
    .fin 0 (t := [.call .create, .call (.resize 0 3), .call (.copyNew 0)]) <| .call (t := [.call .create, .call (.resize 0 3)]) _ <|
    .call (t := [.call .create]) _ <| .call (t := []) _ .nil, by decide⟩

/-- **C108, lost.** A block an object holds when it ends is in use for ever: whatever the program does afterwards. -/
theorem C108_lost (K : Kind) {t u : List EOp} {e e' : EState} (he : EState.init.run K t = .ok e) {i b : Nat} {o : Flex} (hi : i ∈ e.ended) (ho : e.s.objs[i]? = some o)
    (hb : o.db = some b) (hu : EState.init.run K (t ++ u) = .ok e') : InUse e'.s.heap b := by
  rw [erun_append, he, ok_bind] at hu
  have I := einv_run (einv_run (einv_init K) he) hu
  exact I.inv.inUse (erun_frame hu hi ho).2 hb

example : ∃ e o, EState.init.run ⟨1, true⟩ [.call .create, .call (.resize 0 3), .fin 0] = .ok e ∧ 0 ∈ e.ended ∧ e.s.objs[0]? = some o ∧ o.db = some 1 :=
  ⟨_, _, rfl, by decide, rfl, rfl⟩

/-- **C108, after the end.** Once an object has ended, every history that goes on with a call naming it, or ends it again, has undefined behaviour: what it held
cannot be given back any more. -/
theorem C108_after_end (K : Kind) {t : List EOp} {e : EState} (he : EState.init.run K t = .ok e) {i : Nat} (hi : i ∈ e.ended) (u : List EOp) :
    EState.init.run K (t ++ .fin i :: u) = .error .ub ∧ ∀ op : Op, i ∈ op.uses → EState.init.run K (t ++ .call op :: u) = .error .ub := by
  refine ⟨?_, fun op ho => ?_⟩
  · rw [erun_append, he, ok_bind]
    simp only [EState.run, EState.step]
    rw [if_pos (by simpa using hi)]; rfl
  · rw [erun_append, he, ok_bind]
    simp only [EState.run, EState.step]
    rw [if_pos (List.any_eq_true.2 ⟨i, ho, by simpa using hi⟩)]; rfl

example : ∃ e, EState.init.run ⟨1, true⟩ [.call .create, .call (.resize 0 3), .fin 0] = .ok e ∧ 0 ∈ e.ended ∧ 0 ∈ (Op.clear 0).uses := ⟨_, rfl, by decide, by decide⟩

/-- The program `for (k = 0; k < n; k++) { flexbuffer z; z.resize(m); }`. -/
def leakLoop (m : Nat) : Nat → List EOp
  | 0 => []
  | n + 1 => leakLoop m n ++ [.call .create, .call (.resize n m), .fin n]

theorem resize_size {K : Kind} (hK : K.dyn = true) {h h' : Heap} {o o' : Flex} {n : Nat} {f : Bool} (e : Mem.resize K h o n = .ok (h', o', f)) : o'.size = n := by
  unfold Mem.resize at e
  rw [if_pos hK] at e
  split at e
  · cases hd : o.db with
    | none =>
      simp only [hd] at e
      obtain ⟨h1, e1, e2⟩ := bind_ok e
      cases e2; rfl
    | some c =>
      simp only [hd] at e
      obtain ⟨h1, e1, e2⟩ := bind_ok e
      obtain ⟨h2, e3, e4⟩ := bind_ok e2
      cases e4; rfl
  · cases e; rfl

/-- **C108, the leak.** `flexbuffer` has no destructor: a loop that makes a buffer of more than `N` words in each of its `n` rounds has no undefined
behaviour, ends all its buffers, and leaves `n` blocks of at least `m` words each in use, for every `n`. -/
theorem C108_leak (N m : Nat) (hm : N < m) (n : Nat) :
    ∃ e, EState.init.run ⟨N, true⟩ (leakLoop m n) = .ok e ∧ e.s.objs.length = n ∧ (∀ i < n, i ∈ e.ended) ∧
      ∃ L : List Nat, L.Nodup ∧ L.length = n ∧ ∀ b ∈ L, InUse e.s.heap b ∧ ∃ k, e.s.heap.len b = some k ∧ m ≤ k := by
  have key : ∃ e, EState.init.run ⟨N, true⟩ (leakLoop m n) = .ok e ∧ e.s.objs.length = n ∧ (∀ i, i ∈ e.ended ↔ i < n) ∧
      ∀ (i : Nat) o, e.s.objs[i]? = some o → o.size = m := by
    induction n with
    | zero => exact ⟨_, rfl, rfl, fun i => by simp [EState.init], fun i o h => nomatch h⟩
    | succ n ih =>
      obtain ⟨e, h1, h2, h3, h4⟩ := ih
      have I := einv_run (einv_init _) h1
      obtain ⟨⟨h, objs⟩, ended⟩ := e
      simp only at h2 h3 h4
      -- the new object
      have c1 : EState.step ⟨N, true⟩ ⟨⟨h, objs⟩, ended⟩ (.call .create) = .ok ⟨⟨(newInline ⟨N, true⟩ h).1, objs ++ [⟨(newInline ⟨N, true⟩ h).2, none, 0, 0⟩]⟩, ended⟩ := rfl
      have I1 := einv_step I c1
      rcases step_spec I1.inv (.resize n m) with ⟨s2, out, c2, J2, _⟩ | ⟨x, _, hb⟩
      · have hn : n ∉ ended := fun h => by have := (h3 n).1 h; omega
        have c3 : EState.step ⟨N, true⟩ ⟨⟨(newInline ⟨N, true⟩ h).1, objs ++ [⟨(newInline ⟨N, true⟩ h).2, none, 0, 0⟩]⟩, ended⟩ (.call (.resize n m)) = .ok ⟨s2, ended⟩ := by
          simp only [EState.step]
          rw [if_neg (by simpa [Op.uses] using hn), c2]; rfl
        have hg : (objs ++ [(⟨(newInline ⟨N, true⟩ h).2, none, 0, 0⟩ : Flex)])[n]? = some ⟨(newInline ⟨N, true⟩ h).2, none, 0, 0⟩ := by rw [← h2]; simp
        simp only [step, hg] at c2
        obtain ⟨⟨h', o', f⟩, c4, c5⟩ := bind_ok c2
        cases c5
        have c6 : EState.step ⟨N, true⟩ ⟨⟨h', (objs ++ [(⟨(newInline ⟨N, true⟩ h).2, none, 0, 0⟩ : Flex)]).set n o'⟩, ended⟩ (.fin n) =
            .ok ⟨⟨h', (objs ++ [(⟨(newInline ⟨N, true⟩ h).2, none, 0, 0⟩ : Flex)]).set n o'⟩, n :: ended⟩ := by
          simp only [EState.step]
          rw [if_neg (by simpa using hn), if_pos (by simp [h2])]
        refine ⟨⟨⟨h', (objs ++ [(⟨(newInline ⟨N, true⟩ h).2, none, 0, 0⟩ : Flex)]).set n o'⟩, n :: ended⟩, ?_, ?_, ?_, ?_⟩
        · rw [leakLoop, erun_append, h1, ok_bind]
          simp only [EState.run, c1, ok_bind, c3, c6]
        · simp [h2]
        · intro i
          rw [List.mem_cons, h3 i]; omega
        · intro i o ho
          rcases get_set ho with ⟨_, e⟩ | ⟨e, ho⟩
          · rw [e]; exact resize_size rfl c4
          · rcases get_push ho with ho | ⟨e2, _⟩
            · exact h4 i o ho
            · exact absurd (e2.trans h2) e
      · exact hb.elim
  obtain ⟨e, h1, h2, h3, h4⟩ := key
  have I := einv_run (einv_init _) h1
  have hold : ∀ (i : Nat) o, e.s.objs[i]? = some o → ∃ b, o.db = some b := by
    intro i o hi
    cases hd : o.db with
    | some b => exact ⟨b, rfl⟩
    | none =>
      have := ((I.inv.obj i o hi).hn hd).1
      rw [h4 i o hi] at this
      simp only at this
      omega
  have pw : e.s.objs.Pairwise fun o r => ∀ b, o.db = some b → r.db ≠ some b := by
    rw [List.pairwise_iff_getElem]
    intro i j hi hj hij b ha hb
    exact I.inv.ddist i j _ _ b (List.getElem?_eq_getElem hi) (List.getElem?_eq_getElem hj) (by omega) ha hb
  refine ⟨e, h1, h2, fun i hi => (h3 i).2 hi, e.s.objs.filterMap (·.db), ?_, ?_, ?_⟩
  · rw [List.Nodup, List.pairwise_filterMap]
    refine pw.imp ?_
    rintro o r h b hb c hc rfl
    exact h b hb hc
  · rw [← h2, List.filterMap_length_eq_length]
    intro o ho
    obtain ⟨i, hi⟩ := List.mem_iff_getElem?.1 ho
    obtain ⟨b, hb⟩ := hold i o hi
    rw [hb]; rfl
  · intro b hb
    obtain ⟨o, ho, hb⟩ := List.mem_filterMap.1 hb
    obtain ⟨i, hi⟩ := List.mem_iff_getElem?.1 ho
    obtain ⟨_, g1, _, g2, _⟩ := (I.inv.obj i o hi).hd b hb
    exact ⟨I.inv.inUse hi hb, _, g1, by rw [← h4 i o hi]; exact g2⟩

/-! ## Big integers -/

/-- **C108, `clear` of a big integer.** `bigint::clear()` is not `flexbuffer::clear()`: it sets the number to zero and keeps the heap block, so that a big
integer cleared before its end still loses it. -/
theorem C108_int_clear_keeps (K : Kind) {s s' : BigSt} {i b : Nat} {o : Flex} (ho : s.mem.objs[i]? = some o) (hb : o.db = some b) (hd : 1 ≤ o.dsize)
    (hu : InUse s.mem.heap b) (e : s.clear K i = .ok s') :
    InUse s'.mem.heap b ∧ ∃ o' : Flex, s'.mem.objs[i]? = some o' ∧ o'.db = some b ∧ o'.dsize = o.dsize := by
  unfold BigSt.clear BigSt.assignWord at e
  obtain ⟨s1, e1, e2⟩ := bind_ok e
  obtain ⟨⟨s2, f⟩, e3, e4⟩ := bind_ok e1
  obtain ⟨s3, e5, e6⟩ := bind_ok e4
  cases e2
  cases e6
  have hr : s2.mem.heap = s.mem.heap ∧ ∃ o' : Flex, s2.mem.objs[i]? = some o' ∧ o'.db = some b ∧ o'.dsize = o.dsize := by
    unfold BigSt.resize BigSt.buf at e3
    simp only [BigSt.setNeg, ho] at e3
    obtain ⟨o1, c1, c2⟩ := bind_ok e3
    cases c1
    obtain ⟨⟨h', o', f'⟩, c3, c4⟩ := bind_ok c2
    cases c4
    unfold Mem.resize at c3
    split at c3
    · rw [if_neg (by omega)] at c3
      cases c3
      exact ⟨rfl, _, set_get ho, hb, rfl⟩
    · split at c3 <;> cases c3 <;> exact ⟨rfl, _, set_get ho, hb, rfl⟩
  unfold BigSt.store at e5
  obtain ⟨p, d1, d2⟩ := bind_ok e5
  obtain ⟨h', d3, d4⟩ := bind_ok d2
  cases d4
  unfold Heap.write at d3
  split at d3
  · cases d3
    refine ⟨?_, hr.2⟩
    show InUse s2.mem.heap b
    rw [hr.1]; exact hu
  · cases d3

/-- **C108, assigning to a big integer.** Move assignment, as in `x = bigint()`, does give the block of the left side back. -/
theorem C108_int_move_releases (K : Kind) {s s' : BigSt} {z x b : Nat} {o r : Flex} (hz : s.mem.objs[z]? = some o) (hx : s.mem.objs[x]? = some r) (hne : z ≠ x)
    (hb : o.db = some b) (e : s.moveAssign K z x = .ok s') : ¬ InUse s'.mem.heap b := by
  unfold BigSt.moveAssign at e
  rw [if_neg hne] at e
  obtain ⟨⟨m, out⟩, e1, e2⟩ := bind_ok e
  cases e2
  simp only [step, hz, hx, if_neg hne] at e1
  obtain ⟨⟨h1, o1⟩, c1, c2⟩ := bind_ok e1
  obtain ⟨⟨h2, o2, r2⟩, c3, c4⟩ := bind_ok c2
  cases c4
  intro h
  exact ((inUse_clear c1).2.2 b ((inUse_moveInto c3).2.2.2 b h)).2 hb

/-- Two numbers on storage with one inline word, the first one on the heap with two words. -/
def heapNumber : BigSt :=
  ⟨⟨⟨fun b => if b = 0 then some 1 else if b = 1 then some 2 else if b = 2 then some 1 else none, fun _ _ => some 7, fun b => b == 1, 3⟩,
    [⟨0, some 1, 2, 2⟩, ⟨2, none, 1, 0⟩]⟩, fun i => if i = 0 then 2 else 1, fun _ => false⟩

/-- The block stays after `clear`, and goes with `x = bigint()`. -/
example : (∃ o : Flex, heapNumber.mem.objs[0]? = some o ∧ o.db = some 1 ∧ 1 ≤ o.dsize) ∧ InUse heapNumber.mem.heap 1 ∧
    (heapNumber.clear ⟨1, true⟩ 0).map (fun s => (s.mem.heap.len 1, s.size 0, s.mem.heap.cell 1 0)) = .ok (some 2, 1, some 0) ∧
    (heapNumber.moveAssign ⟨1, true⟩ 0 1).map (fun s => s.mem.heap.len 1) = .ok none :=
  ⟨⟨_, rfl, rfl, by decide⟩, ⟨by decide, by decide⟩, by decide, by decide⟩

end Ack.Props
