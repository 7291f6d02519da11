import Verif.Props.Alias
/-!
# C80: copying, moving and swapping big integers

In the state after any program (`C63` covers the program itself, which may also copy, move and swap).
-/
namespace Ack.Props
open Ack.Mem Ack.Spec.Prog

/-- `s` is a state that a program reaches, where it computes the integers `e` (`none`: moved from). -/
def Reached (K : Kind) (s : BigSt) (e : Env) : Prop :=
  ∃ fuel p, evals [] p = some e ∧ Always (Room (if K.dyn then none else some K.N)) [] p ∧ Always DivSafe [] p ∧
    exec K fuel BigSt.init p = .ok s

theorem Reached.holds {K s e} (R : Reached K s e) : Holds K s e := by
  obtain ⟨fuel, p, he, room, ds, hs⟩ := R
  rcases exec_spec fuel p BigSt.init [] e (holds_init K) he room ds with ⟨s1, h, H⟩ | ⟨_, _, h⟩
  · rw [hs] at h; cases h; exact H
  · rw [hs] at h; cases h

/-- The program of the examples: two objects of several words, one of them moved to a third, then assigned again. -/
def moveProg : List Stmt :=
  [.create 7, .shl 0 0 70, .create 5, .neg 1 1, .moveNew 0, .assign 0 1, .shl 1 1 100, .swap 1 2, .mul 0 1 2, .moveAssign 1 0]

example : evals [] moveProg = some [none, some (-5 * 2 ^ 170 * 7), some (-5 * 2 ^ 100)] ∧
    Always (Room (some 9)) [] moveProg ∧ Always DivSafe [] moveProg ∧
    (exec ⟨9, false⟩ 0 BigSt.init moveProg).bind (·.value 1) = .ok (-5 * 2 ^ 170 * 7) ∧
    Always (Room none) [] moveProg ∧
    (exec ⟨2, true⟩ 0 BigSt.init moveProg).bind (·.value 1) = .ok (-5 * 2 ^ 170 * 7) ∧
    (exec ⟨2, true⟩ 0 BigSt.init moveProg).bind (·.value 2) = .ok (-5 * 2 ^ 100) := by decide +kernel

/-- **C80, copy construction.**  The new object has the integer of its source; the source and every other object keep
theirs. -/
theorem C80_copy (K : Kind) (s : BigSt) (e : Env) (R : Reached K s e) (x : Nat) (a : Int) (hx : e[x]? = some (some a)) :
    ∃ s', s.copyNew K x = .ok s' ∧ s'.value e.length = .ok a ∧ ∀ i b, e[i]? = some (some b) → s'.value i = .ok b := by
  obtain ⟨s', e1, H⟩ := copyNew_spec R.holds hx
  refine ⟨s', e1, holds_value H _ _ (by simp), fun i b hi => holds_value H _ _ ?_⟩
  rw [List.getElem?_append_left (lt_of_get hi)]; exact hi

/-- **C80, move construction.**  The new object has the integer of its source; every object other than the source keeps
its own. -/
theorem C80_move (K : Kind) (s : BigSt) (e : Env) (R : Reached K s e) (x : Nat) (a : Int) (hx : e[x]? = some (some a)) :
    ∃ s', s.moveNew K x = .ok s' ∧ s'.value e.length = .ok a ∧
      ∀ i b, i ≠ x → e[i]? = some (some b) → s'.value i = .ok b := by
  obtain ⟨s', e1, H⟩ := moveNew_spec R.holds hx
  refine ⟨s', e1, holds_value H _ _ (by simp), fun i b hne hi => holds_value H _ _ ?_⟩
  rw [List.getElem?_append_left (by rw [List.length_set]; exact lt_of_get hi), List.getElem?_set, if_neg (Ne.symm hne)]
  exact hi

/-- **C80, move assignment**, also to an object that was moved from: the target has the integer of its source, every third
object keeps its own; moving an object to itself changes nothing. -/
theorem C80_move_assign (K : Kind) (s : BigSt) (e : Env) (R : Reached K s e) (z x : Nat) (a : Int)
    (hx : e[x]? = some (some a)) (hz : z < e.length) :
    ∃ s', s.moveAssign K z x = .ok s' ∧ s'.value z = .ok a ∧
      (∀ i b, i ≠ x → i ≠ z → e[i]? = some (some b) → s'.value i = .ok b) ∧ (z = x → s' = s) := by
  obtain ⟨s', e1, H⟩ := moveAssign_spec R.holds hx hz
  by_cases hzx : z = x
  · subst hzx
    rw [if_pos rfl] at H
    refine ⟨s', e1, holds_value H _ _ hx, fun i b _ _ hi => holds_value H _ _ hi, fun _ => ?_⟩
    unfold BigSt.moveAssign at e1
    rw [if_pos rfl] at e1
    cases e1; rfl
  · rw [if_neg hzx] at H
    refine ⟨s', e1, holds_value H _ _ ?_, fun i b h1 h2 hi => holds_value H _ _ ?_, fun h => absurd h hzx⟩
    · unfold put
      rw [List.getElem?_set, if_neg (Ne.symm hzx), List.getElem?_set, if_pos rfl, if_pos hz]
    · unfold put
      rw [List.getElem?_set, if_neg (Ne.symm h1), List.getElem?_set, if_neg (Ne.symm h2)]; exact hi

/-- **C80, swap** (also of an object with itself): the two integers change places, every third object keeps its own. -/
theorem C80_swap (K : Kind) (s : BigSt) (e : Env) (R : Reached K s e) (x y : Nat) (a b : Int)
    (hx : e[x]? = some (some a)) (hy : e[y]? = some (some b)) :
    ∃ s', s.swap K x y = .ok s' ∧ s'.value x = .ok b ∧ s'.value y = .ok a ∧
      ∀ i c, i ≠ x → i ≠ y → e[i]? = some (some c) → s'.value i = .ok c := by
  obtain ⟨s', e1, H⟩ := swap_spec R.holds hx hy
  refine ⟨s', e1, holds_value H _ _ ?_, holds_value H _ _ ?_, fun i c h1 h2 hi => holds_value H _ _ ?_⟩
  · unfold put
    rw [List.getElem?_set]
    by_cases hxy : y = x
    · subst hxy
      rw [hx] at hy
      cases hy
      rw [if_pos rfl, if_pos (by rw [List.length_set]; exact lt_of_get hx)]
    · rw [if_neg hxy, List.getElem?_set, if_pos rfl, if_pos (lt_of_get hx)]
  · unfold put
    rw [List.getElem?_set, if_pos rfl, if_pos (by rw [List.length_set]; exact lt_of_get hy)]
  · unfold put
    rw [List.getElem?_set, if_neg (Ne.symm h2), List.getElem?_set, if_neg (Ne.symm h1)]; exact hi

/-- The value of an object whose buffer is empty cannot be read: the element access aborts. -/
private theorem value_empty {K : Kind} {s : BigSt} {i : Nat} (I : Inv K s.mem) (h : (Mem.abs s.mem)[i]? = some []) :
    s.value i = .error .abort := by
  rw [abs_get] at h
  cases ho : s.mem.objs[i]? with
  | none => rw [ho] at h; cases h
  | some o =>
    rw [ho, Option.map_some] at h
    have h0 : o.size = 0 := by
      have := congrArg List.length (Option.some.inj h)
      unfold contents at this
      rwa [List.length_map, List.length_range, List.length_nil] at this
    have e : s.elem i 0 = .error .abort := by
      unfold BigSt.elem
      simp [BigSt.buf, ho, h0, check, bind, Except.bind]
    unfold BigSt.value
    rw [e]; rfl

/-- **C80, the source of a move.**  On a fixed buffer a move copies: the source keeps its integer.  On a growable buffer the
source has no value afterwards: reading it aborts, until it is assigned again (`C80_reuse`). -/
theorem C80_source (K : Kind) (s : BigSt) (e : Env) (R : Reached K s e) (x : Nat) (a : Int) (hx : e[x]? = some (some a)) :
    ∃ s', s.moveNew K x = .ok s' ∧ s'.value x = if K.dyn then .error .abort else .ok a := by
  have H := R.holds
  obtain ⟨buf, hb⟩ := abs_some H hx
  rcases step_spec H.inv (.moveNew x) with ⟨m, out, e1, I', g⟩ | ⟨_, _, b⟩
  swap
  · exact b.elim
  have ha := g.1 buf hb
  have hlt := H.lt hx
  refine ⟨_, by unfold BigSt.moveNew; dsimp only; rw [e1, ok_bind], ?_⟩
  cases hK : K.dyn with
  | true =>
    rw [if_pos rfl]
    rw [hK, if_pos rfl] at ha
    refine value_empty I' ?_
    show (Mem.abs m)[x]? = _
    rw [ha, List.getElem?_append_left (by rw [List.length_set, abs_length]; exact hlt), List.getElem?_set, if_pos rfl,
      if_pos (by rw [abs_length]; exact hlt)]
  | false =>
    rw [if_neg (by simp)]
    rw [hK, if_neg (by simp)] at ha
    obtain ⟨X, h1, _, h3⟩ := H.get x a hx
    rw [← h3]
    refine value_of (rep_of H.inv I' h1 (upd_ne _ _ _ _ (by omega)) (upd_ne _ _ _ _ (by omega)) ?_)
    show (Mem.abs m)[x]? = _
    rw [ha, List.getElem?_append_left (by rw [abs_length]; exact hlt)]

/-- **C80, assigning to a moved-from object** gives it a value again, and disturbs no other. -/
theorem C80_reuse (K : Kind) (s : BigSt) (e : Env) (R : Reached K s e) (z x : Nat) (a : Int)
    (hx : e[x]? = some (some a)) (hz : e[z]? = some none) :
    ∃ s', s.assign K z x = .ok s' ∧ s'.value z = .ok a ∧ ∀ i b, e[i]? = some (some b) → s'.value i = .ok b := by
  have H := R.holds
  obtain ⟨X, h1, h2, h3⟩ := H.get x a hx
  obtain ⟨s', e1, P⟩ := assign_new H.inv h1 (H.lt hz)
  have H' := H.post P h2 h3
  refine ⟨s', e1, holds_value H' _ _ ?_, fun i b hi => holds_value H' _ _ ?_⟩
  · unfold put
    rw [List.getElem?_set, if_pos rfl, if_pos (lt_of_get hz)]
  · unfold put
    rw [List.getElem?_set, if_neg (by rintro rfl; rw [hz] at hi; cases hi)]
    exact hi

/-- The hypotheses are met by the state after the program of the examples, on both kinds of buffer. -/
example : ∃ s, Reached ⟨2, true⟩ s [none, some (-5 * 2 ^ 170 * 7), some (-5 * 2 ^ 100)] := by
  have h : (exec ⟨2, true⟩ 0 BigSt.init moveProg).isOk = true := by decide +kernel
  cases hs : exec ⟨2, true⟩ 0 BigSt.init moveProg with
  | error e => rw [hs] at h; cases h
  | ok s => exact ⟨s, 0, moveProg, by decide +kernel, by decide +kernel, by decide +kernel, hs⟩

/-- **C80, where the source of a move is not safe.**  `word_length()` (bigint.hpp:1689) of a moved-from growable integer still
returns the old number of words, while `data()` (1308) is now the inline array.  Here that array has `N` = 2 words and the
number had three: reading `word_length()` words from `data()` leaves the array. -/
theorem C80_stale_wrong :
    ((exec ⟨2, true⟩ 0 BigSt.init [.create 1, .shl 0 0 64, .moveNew 0]).bind fun s =>
      match s.mem.objs[0]? with
      | some o => .ok (s.size 0, o.size, (readN s.mem.heap o.data (s.size 0)).map (fun _ => ()))
      | none => .error .fuel) = .ok (3, 0, .error .ub) := by decide +kernel

end Ack.Props
