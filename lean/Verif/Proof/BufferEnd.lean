import Verif.Proof.Buffer
import Verif.Spec.BufferEnd
/-!
# Which blocks are in use: lemmas
-/
namespace Ack.Mem
open Spec

theorem inUse_alloc {h : Heap} {n : Nat} {d : Bool} {v : Option Word} {b : Nat} (H : InUse (h.alloc n d v).1 b) :
    InUse h b ∨ (d = true ∧ b = h.next) := by
  obtain ⟨h1, h2⟩ := H
  simp only [Heap.alloc, upd] at h1 h2
  by_cases e : b = h.next
  · rw [if_pos e] at h2; exact Or.inr ⟨h2, e⟩
  · rw [if_neg e] at h1 h2; exact Or.inl ⟨h1, h2⟩

theorem inUse_copy {h h' : Heap} {d s n : Nat} (e : h.copy d s n = .ok h') {b : Nat} (H : InUse h' b) : InUse h b := by
  unfold Heap.copy at e
  split at e
  · cases e; exact H
  · cases e

theorem inUse_free {h h' : Heap} {c : Nat} (e : h.free c = .ok h') {b : Nat} (H : InUse h' b) : InUse h b ∧ b ≠ c := by
  unfold Heap.free at e
  split at e
  · cases e
    obtain ⟨h1, h2⟩ := H
    simp only [upd] at h1
    by_cases hb : b = c
    · rw [if_pos hb] at h1; exact absurd rfl h1
    · rw [if_neg hb] at h1; exact ⟨⟨h1, h2⟩, hb⟩
  · cases e

theorem inUse_write {h h' : Heap} {p : Ptr} {w : Word} (e : h.write p w = .ok h') {b : Nat} (H : InUse h' b) : InUse h b := by
  unfold Heap.write at e
  split at e
  · cases e; exact H
  · cases e

theorem inUse_inline {K : Kind} {h : Heap} {b : Nat} (H : InUse (newInline K h).1 b) : InUse h b := by
  rcases inUse_alloc H with h | ⟨h, _⟩
  · exact h
  · cases h

/-- Success of a bind. -/
theorem bind_ok {α β : Type} {x : Res α} {f : α → Res β} {b : β} (h : (x >>= f) = .ok b) : ∃ a, x = .ok a ∧ f a = .ok b := by
  cases x with
  | error e => cases h
  | ok a => exact ⟨a, rfl, h⟩

theorem inUse_clear {h h' : Heap} {o o' : Flex} (e : Mem.clear h o = .ok (h', o')) :
    o'.db = none ∧ o'.dsize = 0 ∧ ∀ b, InUse h' b → InUse h b ∧ o.db ≠ some b := by
  unfold Mem.clear at e
  cases hd : o.db with
  | none => simp only [hd] at e; cases e; exact ⟨rfl, rfl, fun b H => ⟨H, nofun⟩⟩
  | some c =>
    simp only [hd] at e
    obtain ⟨h1, e1, e2⟩ := bind_ok e
    cases e2
    exact ⟨rfl, rfl, fun b H => ⟨(inUse_free e1 H).1, fun hb => (inUse_free e1 H).2 (Option.some.inj hb).symm⟩⟩

theorem inUse_resize {K : Kind} {h h' : Heap} {o o' : Flex} {n : Nat} {f : Bool} (e : Mem.resize K h o n = .ok (h', o', f)) :
    ((o'.db = o.db ∧ o'.dsize = o.dsize) ∨ (K.N < n ∧ o.dsize < n ∧ o'.dsize = o.dsize + n)) ∧
    ∀ b, InUse h' b → o'.db = some b ∨ (InUse h b ∧ o.db ≠ some b) ∨ (InUse h b ∧ o'.db = o.db) := by
  unfold Mem.resize at e
  split at e
  · split at e
    · rename_i hn
      cases hd : o.db with
      | none =>
        simp only [hd] at e
        obtain ⟨h1, e1, e2⟩ := bind_ok e
        cases e2
        refine ⟨Or.inr ⟨hn.1, hn.2, by simp only; omega⟩, fun b H => ?_⟩
        rcases inUse_alloc (inUse_copy e1 H) with H | ⟨_, H⟩
        · exact Or.inr (Or.inl ⟨H, nofun⟩)
        · exact Or.inl (by rw [H]; rfl)
      | some c =>
        simp only [hd] at e
        obtain ⟨h1, e1, e2⟩ := bind_ok e
        obtain ⟨h2, e3, e4⟩ := bind_ok e2
        cases e4
        refine ⟨Or.inr ⟨hn.1, hn.2, by simp only; omega⟩, fun b H => ?_⟩
        obtain ⟨H, hb⟩ := inUse_free e3 H
        rcases inUse_alloc (inUse_copy e1 H) with H | ⟨_, H⟩
        · exact Or.inr (Or.inl ⟨H, fun h => hb (Option.some.inj h).symm⟩)
        · exact Or.inl (by rw [H]; rfl)
    · cases e; exact ⟨Or.inl ⟨rfl, rfl⟩, fun b H => Or.inr (Or.inr ⟨H, rfl⟩)⟩
  · split at e <;> cases e <;> exact ⟨Or.inl ⟨rfl, rfl⟩, fun b H => Or.inr (Or.inr ⟨H, rfl⟩)⟩

theorem inUse_copyInto {K : Kind} {h h' : Heap} {sb : Nat} {r o' : Flex} (e : copyInto K h sb r = .ok (h', o')) :
    (o'.db ≠ none → r.db ≠ none) ∧ o'.dsize = r.dsize ∧ ∀ b, InUse h' b → o'.db = some b ∨ InUse h b := by
  unfold copyInto at e
  obtain ⟨h1, e1, e2⟩ := bind_ok e
  cases hd : r.db with
  | none => simp only [hd] at e2; cases e2; exact ⟨id, rfl, fun b H => Or.inr (inUse_copy e1 H)⟩
  | some c =>
    simp only [hd] at e2
    obtain ⟨h2, e3, e4⟩ := bind_ok e2
    cases e4
    refine ⟨fun _ => nofun, rfl, fun b H => ?_⟩
    rcases inUse_alloc (inUse_copy e3 H) with H | ⟨_, H⟩
    · exact Or.inr (inUse_copy e1 H)
    · exact Or.inl (by rw [H]; rfl)

theorem inUse_moveInto {K : Kind} {h h' : Heap} {sb : Nat} {r o' r' : Flex} (e : moveInto K h sb r = .ok (h', o', r')) :
    o'.db = r.db ∧ o'.dsize = r.dsize ∧ (r' = r ∨ (r'.db = none ∧ r'.dsize = 0)) ∧ ∀ b, InUse h' b → InUse h b := by
  unfold moveInto at e
  obtain ⟨h1, e1, e2⟩ := bind_ok e
  cases e2
  refine ⟨rfl, rfl, ?_, fun b H => inUse_copy e1 H⟩
  split
  · exact Or.inr ⟨rfl, rfl⟩
  · exact Or.inl rfl

/-- Every block in use belongs to an object. -/
def Own (s : State) : Prop := ∀ b, InUse s.heap b → ∃ (i : Nat) (o : Flex), s.objs[i]? = some o ∧ o.db = some b

/-- How much an object holds when no size above `M` was asked for. -/
def Small (K : Kind) (M : Nat) (s : State) : Prop := ∀ (i : Nat) o, s.objs[i]? = some o → o.db ≠ none → K.N < M ∧ o.dsize < 2 * M

theorem get_set {α : Type} {l : List α} {i j : Nat} {a x : α} (h : (l.set i a)[j]? = some x) : (j = i ∧ x = a) ∨ (j ≠ i ∧ l[j]? = some x) := by
  rw [List.getElem?_set] at h
  split at h
  · rename_i e
    split at h
    · cases h; exact Or.inl ⟨e.symm, rfl⟩
    · cases h
  · rename_i e; exact Or.inr ⟨fun h => e h.symm, h⟩

theorem set_get {α : Type} {l : List α} {i : Nat} {a x : α} (h : l[i]? = some x) : (l.set i a)[i]? = some a := by
  rw [List.getElem?_set, if_pos rfl, if_pos (lt_of_get h)]

theorem set_get_ne {α : Type} {l : List α} {i j : Nat} {a : α} (h : j ≠ i) : (l.set i a)[j]? = l[j]? := by
  rw [List.getElem?_set, if_neg (fun e => h e.symm)]

theorem Own.set {h h' : Heap} {objs : List Flex} {i : Nat} {o o' : Flex} (I : Own ⟨h, objs⟩) (hi : objs[i]? = some o)
    (H : ∀ b, InUse h' b → o'.db = some b ∨ (InUse h b ∧ o.db ≠ some b) ∨ (InUse h b ∧ o'.db = o.db)) : Own ⟨h', objs.set i o'⟩ := by
  intro b hb
  have key : InUse h b → (o.db ≠ some b ∨ o'.db = o.db) → ∃ (i' : Nat) (o'' : Flex), (objs.set i o')[i']? = some o'' ∧ o''.db = some b := by
    intro hu hc
    obtain ⟨j, r, hj, hr⟩ := I b hu
    by_cases e : j = i
    · subst e
      rw [hi] at hj; cases hj
      rcases hc with hc | hc
      · exact absurd hr hc
      · exact ⟨j, o', set_get hi, hc.trans hr⟩
    · exact ⟨j, r, by rw [set_get_ne e]; exact hj, hr⟩
  rcases H b hb with h1 | ⟨h1, h2⟩ | ⟨h1, h2⟩
  · exact ⟨i, o', set_get hi, h1⟩
  · exact key h1 (Or.inl h2)
  · exact key h1 (Or.inr h2)

theorem Own.push {h h' : Heap} {objs : List Flex} {o' : Flex} (I : Own ⟨h, objs⟩) (H : ∀ b, InUse h' b → o'.db = some b ∨ InUse h b) :
    Own ⟨h', objs ++ [o']⟩ := by
  intro b hb
  rcases H b hb with h1 | h1
  · exact ⟨objs.length, o', by simp, h1⟩
  · obtain ⟨j, r, hj, hr⟩ := I b h1
    exact ⟨j, r, by simp only; rw [List.getElem?_append_left (lt_of_get hj)]; exact hj, hr⟩

theorem get_push {α : Type} {l : List α} {j : Nat} {a x : α} (h : (l ++ [a])[j]? = some x) : l[j]? = some x ∨ (j = l.length ∧ x = a) := by
  rcases Nat.lt_trichotomy j l.length with h1 | h1 | h1
  · rw [List.getElem?_append_left h1] at h; exact Or.inl h
  · subst h1; simp at h; exact Or.inr ⟨rfl, h.symm⟩
  · rw [List.getElem?_eq_none (by simp; omega)] at h; cases h

theorem Small.set {K : Kind} {M : Nat} {h h' : Heap} {objs : List Flex} {i : Nat} {o' : Flex} (I : Small K M ⟨h, objs⟩)
    (H : o'.db ≠ none → K.N < M ∧ o'.dsize < 2 * M) : Small K M ⟨h', objs.set i o'⟩ := by
  intro j r hj hr
  rcases get_set hj with ⟨_, e⟩ | ⟨_, e⟩
  · subst e; exact H hr
  · exact I j r e hr

theorem Small.push {K : Kind} {M : Nat} {h h' : Heap} {objs : List Flex} {o' : Flex} (I : Small K M ⟨h, objs⟩)
    (H : o'.db ≠ none → K.N < M ∧ o'.dsize < 2 * M) : Small K M ⟨h', objs ++ [o']⟩ := by
  intro j r hj hr
  rcases get_push hj with e | ⟨_, e⟩
  · exact I j r e hr
  · subst e; exact H hr

/-- One call. -/
theorem own_step {K : Kind} {M : Nat} {s s' : State} {op : Op} {out : Out} (hM : ∀ i n, op = .resize i n → n ≤ M) (I : Own s) (S : Small K M s)
    (e : step K s op = .ok (s', out)) : Own s' ∧ Small K M s' := by
  obtain ⟨h, objs⟩ := s
  cases op with
  | create =>
    cases e
    exact ⟨I.push fun b H => Or.inr (inUse_inline H), S.push fun h => absurd rfl h⟩
  | copyNew i =>
    simp only [step] at e
    cases hi : objs[i]? with
    | none => simp only [hi] at e; cases e; exact ⟨I, S⟩
    | some r =>
      simp only [hi] at e
      obtain ⟨⟨h1, o1⟩, e1, e2⟩ := bind_ok e
      cases e2
      obtain ⟨c1, c2, c3⟩ := inUse_copyInto e1
      exact ⟨I.push fun b H => (c3 b H).imp id inUse_inline, S.push fun hn => c2 ▸ S i r hi (c1 hn)⟩
  | moveNew i =>
    simp only [step] at e
    cases hi : objs[i]? with
    | none => simp only [hi] at e; cases e; exact ⟨I, S⟩
    | some r =>
      simp only [hi] at e
      obtain ⟨⟨h1, o1, r1⟩, e1, e2⟩ := bind_ok e
      cases e2
      obtain ⟨c1, c2, c3, c4⟩ := inUse_moveInto e1
      refine ⟨?_, ?_⟩
      · intro b hb
        obtain ⟨j, q, hj, hq⟩ := I b (inUse_inline (c4 b hb))
        by_cases ej : j = i
        · subst ej
          rw [hi] at hj; cases hj
          exact ⟨(objs.set j r1).length, o1, by simp, c1.trans hq⟩
        · refine ⟨j, q, ?_, hq⟩
          simp only
          rw [List.getElem?_append_left (by rw [List.length_set]; exact lt_of_get hj), set_get_ne ej]
          exact hj
      · refine Small.push (h := h) (Small.set (h := h) S ?_) fun hn => c2 ▸ S i r hi (c1 ▸ hn)
        intro hn
        rcases c3 with c3 | ⟨c3, _⟩
        · subst c3; exact S i _ hi hn
        · exact absurd c3 hn
  | copyAssign i j =>
    simp only [step] at e
    cases hi : objs[i]? with
    | none => simp only [hi] at e; cases e; exact ⟨I, S⟩
    | some o =>
      cases hj : objs[j]? with
      | none => simp only [hi, hj] at e; cases e; exact ⟨I, S⟩
      | some r =>
        simp only [hi, hj] at e
        split at e
        · cases e; exact ⟨I, S⟩
        · obtain ⟨⟨h1, o1⟩, e1, e2⟩ := bind_ok e
          obtain ⟨⟨h2, o2⟩, e3, e4⟩ := bind_ok e2
          cases e4
          obtain ⟨a1, _, a2⟩ := inUse_clear e1
          obtain ⟨c1, c2, c3⟩ := inUse_copyInto e3
          refine ⟨I.set hi fun b H => (c3 b H).imp id fun H => Or.inl (a2 b H), Small.set (h := h) S fun hn => c2 ▸ S j r hj (c1 hn)⟩
  | moveAssign i j =>
    simp only [step] at e
    cases hi : objs[i]? with
    | none => simp only [hi] at e; cases e; exact ⟨I, S⟩
    | some o =>
      cases hj : objs[j]? with
      | none => simp only [hi, hj] at e; cases e; exact ⟨I, S⟩
      | some r =>
        simp only [hi, hj] at e
        split at e
        · cases e; exact ⟨I, S⟩
        · rename_i hij
          obtain ⟨⟨h1, o1⟩, e1, e2⟩ := bind_ok e
          obtain ⟨⟨h2, o2, r2⟩, e3, e4⟩ := bind_ok e2
          cases e4
          obtain ⟨a1, _, a2⟩ := inUse_clear e1
          obtain ⟨c1, c2, c3, c4⟩ := inUse_moveInto e3
          refine ⟨?_, ?_⟩
          · intro b hb
            obtain ⟨hu, hno⟩ := a2 b (c4 b hb)
            obtain ⟨k, q, hk, hq⟩ := I b hu
            by_cases ek : k = j
            · subst ek
              rw [hj] at hk; cases hk
              exact ⟨i, o2, by simp only; rw [set_get_ne hij]; exact set_get hi, c1.trans hq⟩
            · by_cases ei : k = i
              · subst ei
                rw [hi] at hk; cases hk
                exact absurd hq hno
              · exact ⟨k, q, by simp only; rw [set_get_ne ek, set_get_ne ei]; exact hk, hq⟩
          · refine Small.set (h := h) (Small.set (h := h) S fun hn => c2 ▸ S j r hj (c1 ▸ hn)) ?_
            intro hn
            rcases c3 with c3 | ⟨c3, _⟩
            · subst c3; exact S j _ hj hn
            · exact absurd c3 hn
  | resize i n =>
    simp only [step] at e
    cases hi : objs[i]? with
    | none => simp only [hi] at e; cases e; exact ⟨I, S⟩
    | some o =>
      simp only [hi] at e
      obtain ⟨⟨h1, o1, f1⟩, e1, e2⟩ := bind_ok e
      cases e2
      obtain ⟨c1, c2⟩ := inUse_resize e1
      refine ⟨I.set hi c2, Small.set (h := h) S fun hn => ?_⟩
      have := hM i n rfl
      rcases c1 with ⟨c3, c4⟩ | ⟨c3, c4, c5⟩
      · exact c4 ▸ S i o hi (c3 ▸ hn)
      · show K.N < M ∧ o1.dsize < 2 * M
        omega
  | clear i =>
    simp only [step] at e
    cases hi : objs[i]? with
    | none => simp only [hi] at e; cases e; exact ⟨I, S⟩
    | some o =>
      simp only [hi] at e
      obtain ⟨⟨h1, o1⟩, e1, e2⟩ := bind_ok e
      cases e2
      obtain ⟨a1, _, a2⟩ := inUse_clear e1
      exact ⟨I.set hi fun b H => Or.inr (Or.inl (a2 b H)), Small.set (h := h) S fun hn => absurd a1 hn⟩
  | swap i j =>
    simp only [step] at e
    cases hi : objs[i]? with
    | none => simp only [hi] at e; cases e; exact ⟨I, S⟩
    | some o =>
      cases hj : objs[j]? with
      | none => simp only [hi, hj] at e; cases e; exact ⟨I, S⟩
      | some r =>
        simp only [hi, hj] at e
        split at e
        · cases e; exact ⟨I, S⟩
        · rename_i hij
          obtain ⟨h1, e1, e2⟩ := bind_ok e
          obtain ⟨h2, e3, e4⟩ := bind_ok e2
          obtain ⟨h3, e5, e6⟩ := bind_ok e4
          cases e6
          refine ⟨?_, ?_⟩
          · intro b hb
            obtain ⟨k, q, hk, hq⟩ := I b (inUse_inline (inUse_copy e1 (inUse_copy e3 (inUse_copy e5 hb))))
            by_cases ek : k = j
            · subst ek
              rw [hj] at hk; cases hk
              exact ⟨i, { r with sb := o.sb }, by simp only; rw [set_get_ne hij]; exact set_get hi, hq⟩
            · by_cases ei : k = i
              · subst ei
                rw [hi] at hk; cases hk
                exact ⟨j, { o with sb := r.sb }, by simp only; rw [← set_get_ne (fun e => ek e.symm) (a := { r with sb := o.sb })] at hj; exact set_get hj, hq⟩
              · exact ⟨k, q, by simp only; rw [set_get_ne ek, set_get_ne ei]; exact hk, hq⟩
          · exact Small.set (h := h) (Small.set (h := h) S fun hn => S j r hj hn) fun hn => S i o hi hn
  | write i k v =>
    simp only [step] at e
    cases hi : objs[i]? with
    | none => simp only [hi] at e; cases e; exact ⟨I, S⟩
    | some o =>
      simp only [hi] at e
      obtain ⟨_, e1, e2⟩ := bind_ok e
      obtain ⟨h1, e3, e4⟩ := bind_ok e2
      cases e4
      exact ⟨fun b H => I b (inUse_write e3 H), S⟩
  | read i k =>
    simp only [step] at e
    cases hi : objs[i]? with
    | none => simp only [hi] at e; cases e; exact ⟨I, S⟩
    | some o =>
      simp only [hi] at e
      obtain ⟨_, e1, e2⟩ := bind_ok e
      obtain ⟨w, e3, e4⟩ := bind_ok e2
      cases e4
      exact ⟨I, S⟩

theorem inv_step {K : Kind} {s s' : State} {op : Op} {out : Out} (J : Inv K s) (e : step K s op = .ok (s', out)) : Inv K s' := by
  rcases step_spec J op with ⟨s1, o1, e1, J1, _⟩ | ⟨x, e1, _⟩
  · rw [e] at e1; cases e1; exact J1
  · rw [e] at e1; cases e1

theorem own_init : Own State.init := fun _ h => absurd rfl h.1

theorem small_init (K : Kind) (M : Nat) : Small K M State.init := fun _ _ h => nomatch h

theorem own_run {K : Kind} {M : Nat} {ops : List Op} : ∀ {s s' : State} {outs : List Out}, Asks M ops → Inv K s → Own s → Small K M s →
    run K s ops = .ok (s', outs) → Inv K s' ∧ Own s' ∧ Small K M s' := by
  induction ops with
  | nil => intro s s' outs _ J I S e; cases e; exact ⟨J, I, S⟩
  | cons op t ih =>
    intro s s' outs hM J I S e
    simp only [run] at e
    obtain ⟨⟨s1, o1⟩, e1, e2⟩ := bind_ok e
    obtain ⟨⟨s2, o2⟩, e3, e4⟩ := bind_ok e2
    cases e4
    obtain ⟨I1, S1⟩ := own_step (fun i n h => hM i n (h ▸ List.mem_cons_self ..)) I S e1
    exact ih (fun i n h => hM i n (List.mem_cons_of_mem _ h)) (inv_step J e1) I1 S1 e3

theorem run_append (K : Kind) (s : State) (t u : List Op) :
    run K s (t ++ u) = (do let (s, a) ← run K s t; let (s, b) ← run K s u; .ok (s, a ++ b)) := by
  induction t generalizing s with
  | nil =>
    simp only [List.nil_append, run, ok_bind]
    cases run K s u with
    | error e => rfl
    | ok x => rfl
  | cons op t ih =>
    simp only [List.cons_append, run]
    cases step K s op with
    | error e => rfl
    | ok x =>
      simp only [ok_bind, ih]
      cases run K x.1 t with
      | error e => rfl
      | ok y =>
        simp only [ok_bind]
        cases run K y.1 u with
        | error e => rfl
        | ok z => rfl

/-- What an object holds is in use. -/
theorem Inv.inUse {K : Kind} {s : State} (J : Inv K s) {i b : Nat} {o : Flex} (h : s.objs[i]? = some o) (hb : o.db = some b) : InUse s.heap b := by
  obtain ⟨_, h1, h2, _⟩ := (J.obj i o h).hd b hb
  exact ⟨by rw [h1]; simp, h2⟩

/-- Objects that a call does not name stay as they are. -/
theorem step_frame {K : Kind} {s s' : State} {op : Op} {out : Out} (e : step K s op = .ok (s', out)) {k : Nat} {q : Flex} (hk : s.objs[k]? = some q)
    (hu : k ∉ op.uses) : s'.objs[k]? = some q := by
  obtain ⟨h, objs⟩ := s
  have hl := lt_of_get hk
  cases op with
  | create => cases e; simp only; rw [List.getElem?_append_left hl]; exact hk
  | copyNew i =>
    simp only [step] at e
    cases hi : objs[i]? with
    | none => simp only [hi] at e; cases e; exact hk
    | some r =>
      simp only [hi] at e
      obtain ⟨⟨h1, o1⟩, e1, e2⟩ := bind_ok e
      cases e2
      simp only; rw [List.getElem?_append_left hl]; exact hk
  | moveNew i =>
    simp only [step] at e
    have hne : k ≠ i := fun h => hu (by simp [Op.uses, h])
    cases hi : objs[i]? with
    | none => simp only [hi] at e; cases e; exact hk
    | some r =>
      simp only [hi] at e
      obtain ⟨⟨h1, o1, r1⟩, e1, e2⟩ := bind_ok e
      cases e2
      simp only; rw [List.getElem?_append_left (by rw [List.length_set]; exact hl), set_get_ne hne]; exact hk
  | copyAssign i j =>
    simp only [step] at e
    have hne : k ≠ i := fun h => hu (by simp [Op.uses, h])
    cases hi : objs[i]? with
    | none => simp only [hi] at e; cases e; exact hk
    | some o =>
      cases hj : objs[j]? with
      | none => simp only [hi, hj] at e; cases e; exact hk
      | some r =>
        simp only [hi, hj] at e
        split at e
        · cases e; exact hk
        · obtain ⟨⟨h1, o1⟩, e1, e2⟩ := bind_ok e
          obtain ⟨⟨h2, o2⟩, e3, e4⟩ := bind_ok e2
          cases e4
          simp only; rw [set_get_ne hne]; exact hk
  | moveAssign i j =>
    simp only [step] at e
    have hne : k ≠ i := fun h => hu (by simp [Op.uses, h])
    have hnj : k ≠ j := fun h => hu (by simp [Op.uses, h])
    cases hi : objs[i]? with
    | none => simp only [hi] at e; cases e; exact hk
    | some o =>
      cases hj : objs[j]? with
      | none => simp only [hi, hj] at e; cases e; exact hk
      | some r =>
        simp only [hi, hj] at e
        split at e
        · cases e; exact hk
        · obtain ⟨⟨h1, o1⟩, e1, e2⟩ := bind_ok e
          obtain ⟨⟨h2, o2, r2⟩, e3, e4⟩ := bind_ok e2
          cases e4
          simp only; rw [set_get_ne hnj, set_get_ne hne]; exact hk
  | resize i n =>
    simp only [step] at e
    have hne : k ≠ i := fun h => hu (by simp [Op.uses, h])
    cases hi : objs[i]? with
    | none => simp only [hi] at e; cases e; exact hk
    | some o =>
      simp only [hi] at e
      obtain ⟨⟨h1, o1, f1⟩, e1, e2⟩ := bind_ok e
      cases e2
      simp only; rw [set_get_ne hne]; exact hk
  | clear i =>
    simp only [step] at e
    have hne : k ≠ i := fun h => hu (by simp [Op.uses, h])
    cases hi : objs[i]? with
    | none => simp only [hi] at e; cases e; exact hk
    | some o =>
      simp only [hi] at e
      obtain ⟨⟨h1, o1⟩, e1, e2⟩ := bind_ok e
      cases e2
      simp only; rw [set_get_ne hne]; exact hk
  | swap i j =>
    simp only [step] at e
    have hne : k ≠ i := fun h => hu (by simp [Op.uses, h])
    have hnj : k ≠ j := fun h => hu (by simp [Op.uses, h])
    cases hi : objs[i]? with
    | none => simp only [hi] at e; cases e; exact hk
    | some o =>
      cases hj : objs[j]? with
      | none => simp only [hi, hj] at e; cases e; exact hk
      | some r =>
        simp only [hi, hj] at e
        split at e
        · cases e; exact hk
        · obtain ⟨h1, e1, e2⟩ := bind_ok e
          obtain ⟨h2, e3, e4⟩ := bind_ok e2
          obtain ⟨h3, e5, e6⟩ := bind_ok e4
          cases e6
          simp only; rw [set_get_ne hnj, set_get_ne hne]; exact hk
  | write i k v =>
    simp only [step] at e
    cases hi : objs[i]? with
    | none => simp only [hi] at e; cases e; exact hk
    | some o =>
      simp only [hi] at e
      obtain ⟨_, e1, e2⟩ := bind_ok e
      obtain ⟨h1, e3, e4⟩ := bind_ok e2
      cases e4
      exact hk
  | read i k =>
    simp only [step] at e
    cases hi : objs[i]? with
    | none => simp only [hi] at e; cases e; exact hk
    | some o =>
      simp only [hi] at e
      obtain ⟨_, e1, e2⟩ := bind_ok e
      obtain ⟨w, e3, e4⟩ := bind_ok e2
      cases e4
      exact hk

/-! ## Ends of objects -/

/-- The invariant of histories with ends. -/
structure EInv (K : Kind) (e : EState) : Prop where
  inv : Inv K e.s
  own : Own e.s
  lt : ∀ i ∈ e.ended, i < e.s.objs.length

theorem einv_init (K : Kind) : EInv K EState.init := ⟨init_inv K, own_init, fun _ h => nomatch h⟩

theorem call_ok {K : Kind} {e e' : EState} {op : Op} (h : e.step K (.call op) = .ok e') :
    (∀ i ∈ op.uses, i ∉ e.ended) ∧ e'.ended = e.ended ∧ ∃ out, step K e.s op = .ok (e'.s, out) := by
  simp only [EState.step] at h
  split at h
  · cases h
  · rename_i hu
    obtain ⟨⟨s, out⟩, e1, e2⟩ := bind_ok h
    cases e2
    refine ⟨fun i hi hd => hu (List.any_eq_true.2 ⟨i, hi, by simpa using hd⟩), rfl, out, e1⟩

theorem estep_frame {K : Kind} {e e' : EState} {op : EOp} (h : e.step K op = .ok e') {i : Nat} {o : Flex} (hi : i ∈ e.ended) (ho : e.s.objs[i]? = some o) :
    i ∈ e'.ended ∧ e'.s.objs[i]? = some o := by
  cases op with
  | call op =>
    obtain ⟨h1, h2, out, h3⟩ := call_ok h
    exact ⟨h2 ▸ hi, step_frame h3 ho fun hu => h1 i hu hi⟩
  | fin j =>
    simp only [EState.step] at h
    split at h
    · cases h
    · split at h <;> cases h
      · exact ⟨List.mem_cons_of_mem _ hi, ho⟩
      · exact ⟨hi, ho⟩

theorem le_sum {n : Nat} {l : List Nat} (h : n ∈ l) : n ≤ l.sum := by
  induction l with
  | nil => cases h
  | cons a l ih =>
    rw [List.sum_cons]
    rcases List.mem_cons.1 h with e | h
    · omega
    · have := ih h; omega

theorem own_any {K : Kind} {s s' : State} {op : Op} {out : Out} (I : Own s) (e : step K s op = .ok (s', out)) : Own s' := by
  -- the bound of `own_step` is not needed here: take one that is large enough
  have S : Small K (K.N + 1 + (s.objs.map (·.dsize)).sum + (match op with | .resize _ n => n | _ => 0)) s := by
    intro i o hi _
    have : o.dsize ≤ (s.objs.map (·.dsize)).sum := le_sum (List.mem_map.2 ⟨o, List.mem_of_getElem? hi, rfl⟩)
    omega
  exact (own_step (fun i n ho => by subst ho; simp only; omega) I S e).1

theorem einv_step {K : Kind} {e e' : EState} {op : EOp} (I : EInv K e) (h : e.step K op = .ok e') : EInv K e' := by
  have key : ∀ i, i ∈ e.ended → i < e'.s.objs.length := by
    intro i hi
    obtain ⟨_, ho⟩ := estep_frame h hi (List.getElem?_eq_getElem (I.lt i hi))
    exact lt_of_get ho
  cases op with
  | call op =>
    obtain ⟨h1, h2, out, h3⟩ := call_ok h
    refine ⟨inv_step I.inv h3, ?_, fun i hi => key i (h2 ▸ hi)⟩
    exact own_any I.own h3
  | fin j =>
    simp only [EState.step] at h
    split at h
    · cases h
    · split at h <;> cases h
      · rename_i hj
        exact ⟨I.inv, I.own, fun i hi => (List.mem_cons.1 hi).elim (fun e => e ▸ hj) (I.lt i)⟩
      · exact I

theorem erun_append (K : Kind) (e : EState) (t u : List EOp) : e.run K (t ++ u) = (do (← e.run K t).run K u) := by
  induction t generalizing e with
  | nil => rfl
  | cons op t ih =>
    simp only [List.cons_append, EState.run]
    cases e.step K op with
    | error x => rfl
    | ok x => simp only [ok_bind]; exact ih x

theorem einv_run {K : Kind} {t : List EOp} : ∀ {e e' : EState}, EInv K e → e.run K t = .ok e' → EInv K e' := by
  induction t with
  | nil => intro e e' I h; cases h; exact I
  | cons op t ih =>
    intro e e' I h
    obtain ⟨e1, h1, h2⟩ := bind_ok h
    exact ih (einv_step I h1) h2

theorem erun_frame {K : Kind} {t : List EOp} : ∀ {e e' : EState} {i : Nat} {o : Flex}, e.run K t = .ok e' → i ∈ e.ended → e.s.objs[i]? = some o →
    i ∈ e'.ended ∧ e'.s.objs[i]? = some o := by
  induction t with
  | nil => intro e e' i o h hi ho; cases h; exact ⟨hi, ho⟩
  | cons op t ih =>
    intro e e' i o h hi ho
    obtain ⟨e1, h1, h2⟩ := bind_ok h
    obtain ⟨hi, ho⟩ := estep_frame h1 hi ho
    exact ih h2 hi ho

/-- After a tidy history the ended objects hold nothing. -/
theorem tidy_ended {K : Kind} {t : List EOp} (h : Tidy t) : ∀ {e : EState}, EState.init.run K t = .ok e →
    ∀ i ∈ e.ended, ∀ o, e.s.objs[i]? = some o → o.db = none := by
  induction h with
  | nil => intro e h; cases h; intro i hi; cases hi
  | @call t op _ ih =>
    intro e' h
    rw [erun_append] at h
    obtain ⟨e, h1, h2⟩ := bind_ok h
    obtain ⟨e1, h3, h4⟩ := bind_ok h2
    cases h4
    have I := einv_run (einv_init K) h1
    obtain ⟨_, g2, _⟩ := call_ok h3
    intro i hi o ho
    rw [g2] at hi
    have hl := List.getElem?_eq_getElem (I.lt i hi)
    have := (estep_frame h3 hi hl).2
    rw [ho] at this; cases this
    exact ih h1 i hi _ hl
  | @fin t j _ ih =>
    intro e' h
    rw [erun_append] at h
    obtain ⟨e, h1, h2⟩ := bind_ok h
    obtain ⟨e1, h3, h4⟩ := bind_ok h2
    obtain ⟨e2, h5, h6⟩ := bind_ok h4
    cases h6
    have I := einv_run (einv_init K) h1
    obtain ⟨g1, g2, out, g3⟩ := call_ok h3
    -- the objects ended before
    have old : ∀ i ∈ e.ended, ∀ o, e1.s.objs[i]? = some o → o.db = none := by
      intro i hi o ho
      have hl := List.getElem?_eq_getElem (I.lt i hi)
      have := (estep_frame h3 hi hl).2
      rw [ho] at this; cases this
      exact ih h1 i hi _ hl
    -- the cleared one
    have new : ∀ o, e1.s.objs[j]? = some o → o.db = none := by
      intro o ho
      simp only [step] at g3
      cases hj : e.s.objs[j]? with
      | none =>
        simp only [hj] at g3
        have := (Prod.mk.inj (Except.ok.inj g3)).1
        rw [← this, hj] at ho; cases ho
      | some q =>
        simp only [hj] at g3
        obtain ⟨⟨h1', o1⟩, c1, c2⟩ := bind_ok g3
        have := (Prod.mk.inj (Except.ok.inj c2)).1
        rw [← this] at ho
        simp only [set_get hj] at ho
        cases ho
        exact (inUse_clear c1).1
    simp only [EState.step] at h5
    split at h5
    · cases h5
    · split at h5 <;> cases h5
      · intro i hi o ho
        rcases List.mem_cons.1 hi with hi | hi
        · subst hi; exact new o ho
        · exact old i (g2 ▸ hi) o ho
      · intro i hi o ho
        exact old i (g2 ▸ hi) o ho

end Ack.Mem
