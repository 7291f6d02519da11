import Verif.Spec.Prog
import Verif.Proof.AliasOps
import Verif.Proof.BigNative
/-! # Programs on memory compute integers -/
namespace Ack.Mem
open Spec.Prog

theorem words_eq {X : Big} (hc : X.Canon) : X.ws.length = words X.toInt := by
  unfold words
  rw [Big.natAbs_toInt]
  have hp := List.length_pos_iff.2 hc.1
  have hB : ∀ n, B n = 2 ^ (32 * n) := by intro n; unfold B; rw [Nat.pow_mul]
  have h1 : (val X.ws).size ≤ 32 * X.ws.length := by
    rw [Nat.size_le, ← hB]; exact val_lt _
  by_cases h : 1 < X.ws.length
  · have h2 : 32 * (X.ws.length - 1) < (val X.ws).size := by
      rw [Nat.lt_size, ← hB]; exact Big.CanonW.ge hc.w h
    omega
  · omega

theorem lim_fits' (K : Kind) (n : Nat) : Spec.Prog.fits K.lim n → Cap.fits K.lim n = true := by
  intro h
  unfold Cap.fits
  cases hk : K.lim with
  | none => rfl
  | some N => simpa using h N hk

/-- The objects hold the integers of the list. -/
structure Holds (K : Kind) (s : BigSt) (e : Env) : Prop where
  inv : Inv K s.mem
  len : s.mem.objs.length = e.length
  get : ∀ i a, e[i]? = some (some a) → ∃ X, Rep s i X ∧ X.Canon ∧ X.toInt = a

theorem Holds.post {K s e s' z R} (H : Holds K s e) (P : Post K s s' z R) (hc : R.Canon) {a : Int} (ha : R.toInt = a) :
    Holds K s' (put e z a) := by
  unfold put
  refine ⟨P.inv, by rw [P.len, H.len, List.length_set], ?_⟩
  intro i b hb
  by_cases hi : i = z
  · subst hi
    rw [List.getElem?_set, if_pos rfl] at hb
    split at hb
    · cases hb; exact ⟨R, P.res, hc, ha⟩
    · cases hb
  · rw [List.getElem?_set, if_neg (Ne.symm hi)] at hb
    obtain ⟨X, h1, h2, h3⟩ := H.get i b hb
    exact ⟨X, P.frame i X hi h1, h2, h3⟩

theorem Holds.fitsX {K s e} (H : Holds K s e) {i : Nat} {X : Big} (h : Rep s i X) : Big.Fits K.lim X := by
  have := h.fits H.inv (Nat.le_refl _)
  intro N hN
  rw [hN] at this
  unfold Cap.fits at this
  simpa using this

theorem look_some {e : Env} {x : Nat} {a : Int} : look e x = some a ↔ e[x]? = some (some a) := by
  unfold look; exact Option.join_eq_some_iff

theorem Holds.target {K s e} (H : Holds K s e) {z : Nat} (hz : live e z) : ∃ Z, Rep s z Z ∧ Z.Canon := by
  obtain ⟨a, ha⟩ := Option.isSome_iff_exists.1 hz
  obtain ⟨Z, h1, h2, _⟩ := H.get z _ (look_some.1 ha)
  exact ⟨Z, h1, h2⟩

theorem Same.canon {A B : Big} (h : Same A B) (hB : B.Canon) : A.Canon := by
  unfold Big.Canon; rw [h.1]; exact hB

theorem Same.toInt {A B : Big} (h : Same A B) : A.toInt = B.toInt := by
  obtain ⟨h1, h2⟩ := h
  rcases h2 with h2 | h2
  · unfold Big.toInt; rw [h1, h2]
  · have ha : val A.ws = 0 := by rw [h2]; rfl
    have hb : val B.ws = 0 := by rw [← h1]; exact ha
    rw [(Big.toInt_zero_iff A).2 ha, (Big.toInt_zero_iff B).2 hb]

theorem assignWord_new {K : Kind} {s : BigSt} {z : Nat} {o : Flex} (I : Inv K s.mem) (ho : s.mem.objs[z]? = some o)
    (hf : Cap.fits K.lim 1 = true) (w : Word) : ∃ s', s.assignWord K z w = .ok s' ∧ Post K s s' z ⟨false, [w]⟩ := by
  rcases big_resize (s := s.setNeg z false) (z := z) (o := o) I ho 1 with ⟨h1, h2⟩ | ⟨_, s1, o1, h1, R⟩
  · rw [hf] at h1; cases h1
  · have e : s.assignWord K z w = .ok ((s1.withHeap (s1.mem.heap.put o1.data (some w))).setSize z 1) := by
      unfold BigSt.assignWord
      dsimp only
      rw [h1, ok_bind]
      dsimp only
      unfold BigSt.store
      rw [elem_ok (s := s1) (i := z) R.obj (by rw [R.osize]; omega), ok_bind, add_zero,
        write_ok R.room (by omega), ok_bind]
      rfl
    have hpost := R.post (s1.mem.heap.store o1.data [w]) (Inv.store (h := s1.mem.heap) R.inv _ _) (by
      intro i r hi hr
      exact store_agree _ _ _ _ (data_ne R.inv hr R.obj hi)) ⟨false, [w]⟩ (by simp) (by simp)
        (has_store _ _ _ (by simpa using R.room))
    refine ⟨_, e, ?_⟩
    rw [store_one]
    have e2 : (s1.withHeap (s1.mem.heap.store o1.data [w])).setSize z 1 =
        (s1.withHeap (s1.mem.heap.store o1.data [w])).set z ⟨false, [w]⟩ := by
      unfold BigSt.set BigSt.setSize BigSt.withHeap
      congr 1
      rw [R.sneg]
      show upd s.neg z false = upd (upd s.neg z false) z false
      rw [upd_upd]
    rw [e2]
    exact hpost.pre_setNeg false

theorem create_spec {K : Kind} {s : BigSt} {e : Env} (H : Holds K s e) (hf : Cap.fits K.lim 1 = true) (w : Word) :
    ∃ s', s.create K w = .ok s' ∧ Holds K s' (e ++ [some (w.toNat : Int)]) := by
  rcases step_spec H.inv .create with ⟨m, out, e1, I', g⟩ | ⟨_, _, b⟩
  · have ha : Mem.abs m = Mem.abs s.mem ++ [[]] := g.1
    have hlen : m.objs.length = s.mem.objs.length + 1 := by
      rw [← abs_length, ha, List.length_append, abs_length]; rfl
    obtain ⟨o, ho⟩ : ∃ o, m.objs[s.mem.objs.length]? = some o := ⟨_, List.getElem?_eq_getElem (by omega)⟩
    obtain ⟨s', e2, P⟩ := assignWord_new (s := { s with mem := m }) I' ho hf w
    refine ⟨s', ?_, P.inv, ?_, ?_⟩
    · unfold BigSt.create; dsimp only; rw [e1, ok_bind]; exact e2
    · rw [P.len]
      show m.objs.length = _
      rw [hlen, H.len, List.length_append]; rfl
    · intro i a hi
      by_cases hn : i = s.mem.objs.length
      · subst hn
        rw [H.len, List.getElem?_append_right (Nat.le_refl _), Nat.sub_self] at hi
        cases hi
        exact ⟨_, P.res, Big.canonW_single _, by simp [Big.toInt, val]⟩
      · have hlt : i < e.length := by
          have := lt_of_get hi
          rw [List.length_append, List.length_singleton] at this
          have := H.len
          omega
        rw [List.getElem?_append_left hlt] at hi
        obtain ⟨X, h1, h2, h3⟩ := H.get i a hi
        refine ⟨X, P.frame i X hn ?_, h2, h3⟩
        obtain ⟨w1, w2, w3, wb, w4, w5, w6⟩ := (rep_abs H.inv i X).1 h1
        refine (rep_abs (s := { s with mem := m }) I' i X).2 ⟨w1, w2, w3, wb, ?_, w5, w6⟩
        show (Mem.abs m)[i]? = _
        rw [ha, List.getElem?_append_left (lt_of_get w4)]; exact w4
  · exact b.elim

theorem neg_of_opp {X Y : Big} (h : OppSigns X.toInt Y.toInt) : X.neg ≠ Y.neg := by
  unfold OppSigns at h
  intro e
  rcases h with ⟨a, b⟩ | ⟨a, b⟩
  · rw [Big.neg_of_toInt_neg a, Big.neg_of_toInt_pos b] at e; cases e
  · rw [Big.neg_of_toInt_pos a, Big.neg_of_toInt_neg b] at e; cases e

theorem uadd_total {K : Kind} {s : BigSt} {z x y : Nat} {X Y : Big} (I : Inv K s.mem) (hx : Rep s x X) (hy : Rep s y Y)
    (hz : z = x ∨ z = y) : Roomy s z (max X.ws.length Y.ws.length + 1) ∨ (K.dyn = true ∧ s.uadd K z x y = .error .ub) := by
  by_cases h : Roomy s z (max X.ws.length Y.ws.length + 1)
  · exact Or.inl h
  · right
    unfold Roomy at h
    push Not at h
    obtain ⟨o, b, ho, hb, hlt⟩ := h
    exact ⟨((I.obj z o ho).hd b hb).1, uadd_dangling I hx hy hz ho hb hlt⟩

/-! ### Copies, moves and swaps -/

theorem rep_of {K : Kind} {s s' : BigSt} {i j : Nat} {X : Big} (I : Inv K s.mem) (I' : Inv K s'.mem) (h : Rep s i X)
    (hs : s'.size j = s.size i) (hn : s'.neg j = s.neg i) (ha : (Mem.abs s'.mem)[j]? = (Mem.abs s.mem)[i]?) : Rep s' j X := by
  obtain ⟨w1, w2, w3, wb, w4, w5, w6⟩ := (rep_abs I i X).1 h
  exact (rep_abs I' j X).2 ⟨w1, by rw [hs]; exact w2, by rw [hn]; exact w3, wb, by rw [ha]; exact w4, w5, w6⟩

theorem Holds.lt {K s e} (H : Holds K s e) {i : Nat} {a : Option Int} (h : e[i]? = some a) : i < s.mem.objs.length := by
  rw [H.len]; exact lt_of_get h

/-- A new object that holds what object `x` held; objects other than `x` are unchanged, `x` too if it is not given up. -/
theorem Holds.push {K : Kind} {s s' : BigSt} {e e1 : Env} {x : Nat} {a : Int} (H : Holds K s e) (hx : e[x]? = some (some a))
    (I' : Inv K s'.mem) (hlen : s'.mem.objs.length = s.mem.objs.length + 1) (hl1 : e1.length = e.length)
    (hs : s'.size = upd s.size s.mem.objs.length (s.size x)) (hn : s'.neg = upd s.neg s.mem.objs.length (s.neg x))
    (hnew : (Mem.abs s'.mem)[s.mem.objs.length]? = (Mem.abs s.mem)[x]?)
    (hold : ∀ (i : Nat) b, e1[i]? = some (some b) → e[i]? = some (some b) ∧ (Mem.abs s'.mem)[i]? = (Mem.abs s.mem)[i]?) :
    Holds K s' (e1 ++ [some a]) := by
  refine ⟨I', by rw [hlen, H.len, List.length_append, hl1]; rfl, ?_⟩
  intro i b hi
  by_cases hn' : i = s.mem.objs.length
  · subst hn'
    rw [H.len, ← hl1, List.getElem?_append_right (Nat.le_refl _), Nat.sub_self] at hi
    cases hi
    obtain ⟨X, h1, h2, h3⟩ := H.get x a hx
    exact ⟨X, rep_of H.inv I' h1 (by rw [hs, upd_same]) (by rw [hn, upd_same]) hnew, h2, h3⟩
  · have hlt : i < e1.length := by
      have := lt_of_get hi
      rw [List.length_append, List.length_singleton] at this
      have := H.len
      omega
    rw [List.getElem?_append_left hlt] at hi
    obtain ⟨g1, g2⟩ := hold i b hi
    obtain ⟨X, h1, h2, h3⟩ := H.get i b g1
    exact ⟨X, rep_of H.inv I' h1 (by rw [hs, upd_ne _ _ _ _ hn']) (by rw [hn, upd_ne _ _ _ _ hn']) g2, h2, h3⟩

theorem abs_some {K : Kind} {s : BigSt} {e : Env} {x : Nat} {a : Int} (H : Holds K s e) (hx : e[x]? = some (some a)) :
    ∃ buf, (Mem.abs s.mem)[x]? = some buf :=
  ⟨_, List.getElem?_eq_getElem (by rw [abs_length]; exact H.lt hx)⟩

theorem copyNew_spec {K : Kind} {s : BigSt} {e : Env} {x : Nat} {a : Int} (H : Holds K s e) (hx : e[x]? = some (some a)) :
    ∃ s', s.copyNew K x = .ok s' ∧ Holds K s' (e ++ [some a]) := by
  obtain ⟨buf, hb⟩ := abs_some H hx
  rcases step_spec H.inv (.copyNew x) with ⟨m, out, e1, I', g⟩ | ⟨_, _, b⟩
  · have ha := g.1 buf hb
    refine ⟨_, by unfold BigSt.copyNew; dsimp only; rw [e1, ok_bind], ?_⟩
    refine H.push hx I' ?_ rfl rfl rfl ?_ ?_
    · show m.objs.length = _
      rw [← abs_length, ha, List.length_append, abs_length]; rfl
    · show (Mem.abs m)[_]? = _
      rw [ha, ← abs_length, List.getElem?_append_right (Nat.le_refl _), Nat.sub_self, hb]; rfl
    · intro i b hi
      refine ⟨hi, ?_⟩
      show (Mem.abs m)[_]? = _
      rw [ha, List.getElem?_append_left (by rw [abs_length]; exact H.lt hi)]
  · exact b.elim

theorem set_none_get {e : Env} {x i : Nat} {b : Int} (h : (e.set x none)[i]? = some (some b)) : i ≠ x ∧ e[i]? = some (some b) := by
  rw [List.getElem?_set] at h
  by_cases hi : x = i
  · rw [if_pos hi] at h
    split at h <;> cases h
  · rw [if_neg hi] at h
    exact ⟨Ne.symm hi, h⟩

theorem moveNew_spec {K : Kind} {s : BigSt} {e : Env} {x : Nat} {a : Int} (H : Holds K s e) (hx : e[x]? = some (some a)) :
    ∃ s', s.moveNew K x = .ok s' ∧ Holds K s' (e.set x none ++ [some a]) := by
  obtain ⟨buf, hb⟩ := abs_some H hx
  rcases step_spec H.inv (.moveNew x) with ⟨m, out, e1, I', g⟩ | ⟨_, _, b⟩
  · have ha := g.1 buf hb
    have hl : (if K.dyn then (Mem.abs s.mem).set x [] else Mem.abs s.mem).length = s.mem.objs.length := by
      split
      · rw [List.length_set, abs_length]
      · rw [abs_length]
    refine ⟨_, by unfold BigSt.moveNew; dsimp only; rw [e1, ok_bind], ?_⟩
    refine H.push hx I' ?_ (List.length_set ..) rfl rfl ?_ ?_
    · show m.objs.length = _
      rw [← abs_length, ha, List.length_append, hl]; rfl
    · show (Mem.abs m)[_]? = _
      rw [ha, List.getElem?_append_right (by omega), hl, Nat.sub_self, hb]; rfl
    · intro i b hi
      obtain ⟨h1, h2⟩ := set_none_get hi
      refine ⟨h2, ?_⟩
      show (Mem.abs m)[_]? = _
      rw [ha, List.getElem?_append_left (by have := H.lt h2; omega)]
      split
      · rw [List.getElem?_set, if_neg (Ne.symm h1)]
      · rfl
  · exact b.elim

theorem moveAssign_spec {K : Kind} {s : BigSt} {e : Env} {z x : Nat} {a : Int} (H : Holds K s e) (hx : e[x]? = some (some a))
    (hz : z < e.length) : ∃ s', s.moveAssign K z x = .ok s' ∧ Holds K s' (if z = x then e else (put e z a).set x none) := by
  unfold BigSt.moveAssign
  by_cases hzx : z = x
  · rw [if_pos hzx, if_pos hzx]; exact ⟨s, rfl, H⟩
  · rw [if_neg hzx, if_neg hzx]
    obtain ⟨buf, hb⟩ := abs_some H hx
    have hzo : z < (Mem.abs s.mem).length := by rw [abs_length, H.len]; exact hz
    rcases step_spec H.inv (.moveAssign z x) with ⟨m, out, e1, I', g⟩ | ⟨_, _, b⟩
    · have ha := g.1 buf hzo hb hzx
      have hne : ∀ i, i ≠ x → (Mem.abs m)[i]? = ((Mem.abs s.mem).set z buf)[i]? := by
        intro i hi
        rw [ha]
        split
        · rw [List.getElem?_set, if_neg (Ne.symm hi)]
        · rfl
      refine ⟨_, by rw [e1, ok_bind], I', ?_, ?_⟩
      · show m.objs.length = _
        rw [← abs_length, ha]
        unfold put
        rw [List.length_set, List.length_set]
        split
        · rw [List.length_set, List.length_set, abs_length, H.len]
        · rw [List.length_set, abs_length, H.len]
      · intro i b hi
        obtain ⟨h1, h2⟩ := set_none_get hi
        unfold put at h2
        rw [List.getElem?_set] at h2
        by_cases hiz : z = i
        · subst hiz
          rw [if_pos rfl, if_pos hz] at h2
          cases h2
          obtain ⟨X, x1, x2, x3⟩ := H.get x a hx
          refine ⟨X, rep_of H.inv I' x1 (upd_same _ _ _) (upd_same _ _ _) ?_, x2, x3⟩
          show (Mem.abs m)[_]? = _
          rw [hne _ h1, List.getElem?_set, if_pos rfl, if_pos hzo, hb]
        · rw [if_neg hiz] at h2
          obtain ⟨X, x1, x2, x3⟩ := H.get i b h2
          refine ⟨X, rep_of H.inv I' x1 (upd_ne _ _ _ _ (Ne.symm hiz)) (upd_ne _ _ _ _ (Ne.symm hiz)) ?_, x2, x3⟩
          show (Mem.abs m)[_]? = _
          rw [hne _ h1, List.getElem?_set, if_neg hiz]
    · exact b.elim

theorem Inv.take {K : Kind} {s : State} (I : Inv K s) (n : Nat) : Inv K ⟨s.heap, s.objs.take n⟩ := by
  have h : ∀ (i : Nat) o, (s.objs.take n)[i]? = some o → s.objs[i]? = some o := by
    intro i o hi
    rw [List.getElem?_take] at hi
    split at hi
    · exact hi
    · cases hi
  exact ⟨fun i o ho => I.obj i o (h i o ho), I.fresh, fun i j o r ho hr hne => I.sdist i j o r (h i o ho) (h j r hr) hne,
    fun i j o r b ho hr hne => I.ddist i j o r b (h i o ho) (h j r hr) hne⟩

theorem abs_take (s : State) (n : Nat) : Mem.abs ⟨s.heap, s.objs.take n⟩ = (Mem.abs s).take n := by
  unfold Mem.abs; rw [List.map_take]

theorem swapBuf_spec {K : Kind} {m : State} {x y : Nat} {bx by' : Spec.Buf} (I : Inv K m) (hx : (Mem.abs m)[x]? = some bx)
    (hy : (Mem.abs m)[y]? = some by') :
    ∃ m', BigSt.swapBuf K m x y = .ok m' ∧ Inv K m' ∧ Mem.abs m' = ((Mem.abs m).set x by').set y bx := by
  obtain ⟨A, hA⟩ : ∃ A, A = Mem.abs m := ⟨_, rfl⟩
  have hl : m.objs.length = A.length := by rw [hA, abs_length]
  have lx : x < A.length := by rw [hA]; exact lt_of_get hx
  have ly : y < A.length := by rw [hA]; exact lt_of_get hy
  unfold BigSt.swapBuf
  rcases step_spec I (.moveNew x) with ⟨m1, o1, e1, I1, g1⟩ | ⟨_, _, b⟩
  swap
  · exact b.elim
  have a1 := g1.1 bx hx
  rw [← hA] at a1 hx hy
  have l1 : (Mem.abs m1).length = A.length + 1 := by
    rw [a1, List.length_append]; split <;> simp
  have c1 : ∀ i, i ≠ x → i < A.length → (Mem.abs m1)[i]? = A[i]? := by
    intro i hi hlt
    rw [a1, List.getElem?_append_left (by split <;> simp [hlt])]
    split
    · rw [List.getElem?_set, if_neg (Ne.symm hi)]
    · rfl
  have t1 : (Mem.abs m1)[A.length]? = some bx := by
    rw [a1]
    cases K.dyn <;> simp
  rw [e1, ok_bind]
  dsimp only
  rcases step_spec I1 (.moveAssign x y) with ⟨m2, o2, e2, I2, g2⟩ | ⟨_, _, b⟩
  swap
  · exact b.elim
  have l2c : (Mem.abs m2).length = A.length + 1 ∧ (Mem.abs m2)[A.length]? = some bx ∧
      ∀ i, i < A.length → i ≠ y → (Mem.abs m2)[i]? = if i = x then some by' else A[i]? := by
    by_cases hxy : x = y
    · have := g2.2.1 (Or.inr (Or.inr hxy))
      rw [this]
      refine ⟨l1, t1, ?_⟩
      intro i hi hiy
      rw [if_neg (by rw [hxy]; exact hiy), c1 i (by rw [hxy]; exact hiy) hi]
    · have hy1 : (Mem.abs m1)[y]? = some by' := by rw [c1 y (Ne.symm hxy) ly]; exact hy
      have a2 := g2.1 by' (by omega) hy1 hxy
      have hne : ∀ i, i ≠ y → (Mem.abs m2)[i]? = ((Mem.abs m1).set x by')[i]? := by
        intro i hi
        rw [a2]
        split
        · rw [List.getElem?_set, if_neg (Ne.symm hi)]
        · rfl
      refine ⟨by rw [a2]; split <;> simp [l1], ?_, ?_⟩
      · rw [hne _ (by omega), List.getElem?_set, if_neg (by omega)]; exact t1
      · intro i hi hiy
        rw [hne _ hiy, List.getElem?_set]
        by_cases hix : x = i
        · rw [if_pos hix, if_pos (by omega), if_pos hix.symm]
        · rw [if_neg hix, if_neg (Ne.symm hix)]; exact c1 i (Ne.symm hix) hi
  obtain ⟨l2, t2, c2⟩ := l2c
  rw [e2, ok_bind]
  dsimp only
  rw [hl]
  rcases step_spec I2 (.moveAssign y A.length) with ⟨m3, o3, e3, I3, g3⟩ | ⟨_, _, b⟩
  swap
  · exact b.elim
  have a3 := g3.1 bx (by omega) t2 (by omega)
  rw [e3, ok_bind]
  refine ⟨_, rfl, I3.take _, ?_⟩
  rw [abs_take]
  refine List.ext_getElem? fun i => ?_
  rw [List.getElem?_take]
  by_cases hi : i < A.length
  · rw [if_pos hi]
    have : (Mem.abs m3)[i]? = ((Mem.abs m2).set y bx)[i]? := by
      rw [a3]
      split
      · rw [List.getElem?_set, if_neg (by omega)]
      · rfl
    rw [this, List.getElem?_set, List.getElem?_set, List.getElem?_set, List.length_set, ← hA]
    by_cases hiy : y = i
    · rw [if_pos hiy, if_pos hiy, if_pos (by omega), if_pos (by omega)]
    · rw [if_neg hiy, if_neg hiy, c2 i hi (Ne.symm hiy)]
      by_cases hix : x = i
      · rw [if_pos hix.symm, if_pos hix, if_pos (by omega)]
      · rw [if_neg (Ne.symm hix), if_neg hix]
  · rw [if_neg hi, List.getElem?_eq_none]
    rw [List.length_set, List.length_set, ← hA]; omega

theorem swap_spec {K : Kind} {s : BigSt} {e : Env} {x y : Nat} {a b : Int} (H : Holds K s e) (hx : e[x]? = some (some a))
    (hy : e[y]? = some (some b)) : ∃ s', s.swap K x y = .ok s' ∧ Holds K s' (put (put e x b) y a) := by
  obtain ⟨bx, h1⟩ := abs_some H hx
  obtain ⟨by', h2⟩ := abs_some H hy
  obtain ⟨m, e1, I', ha⟩ := swapBuf_spec H.inv h1 h2
  have lx : x < (Mem.abs s.mem).length := lt_of_get h1
  have ly : y < (Mem.abs s.mem).length := lt_of_get h2
  refine ⟨_, by unfold BigSt.swap; rw [e1, ok_bind], I', ?_, ?_⟩
  · show m.objs.length = _
    rw [← abs_length, ha]
    unfold put
    rw [List.length_set, List.length_set, List.length_set, List.length_set, abs_length, H.len]
  · intro i c hi
    unfold put at hi
    rw [List.getElem?_set] at hi
    by_cases hiy : y = i
    · subst hiy
      rw [if_pos rfl, if_pos (by rw [List.length_set]; exact lt_of_get hy)] at hi
      cases hi
      obtain ⟨X, x1, x2, x3⟩ := H.get x a hx
      refine ⟨X, rep_of H.inv I' x1 (upd_same _ _ _) (upd_same _ _ _) ?_, x2, x3⟩
      show (Mem.abs m)[_]? = _
      rw [ha, List.getElem?_set, if_pos rfl, List.length_set, if_pos ly, h1]
    · rw [if_neg hiy, List.getElem?_set] at hi
      by_cases hix : x = i
      · subst hix
        rw [if_pos rfl, if_pos (lt_of_get hx)] at hi
        cases hi
        obtain ⟨X, x1, x2, x3⟩ := H.get y b hy
        refine ⟨X, rep_of H.inv I' x1 ?_ ?_ ?_, x2, x3⟩
        · show upd (upd _ _ _) _ _ _ = _
          rw [upd_ne _ _ _ _ (Ne.symm hiy), upd_same]
        · show upd (upd _ _ _) _ _ _ = _
          rw [upd_ne _ _ _ _ (Ne.symm hiy), upd_same]
        · show (Mem.abs m)[_]? = _
          rw [ha, List.getElem?_set, if_neg hiy, List.getElem?_set, if_pos rfl, if_pos lx, h2]
      · rw [if_neg hix] at hi
        obtain ⟨X, x1, x2, x3⟩ := H.get i c hi
        refine ⟨X, rep_of H.inv I' x1 ?_ ?_ ?_, x2, x3⟩
        · show upd (upd _ _ _) _ _ _ = _
          rw [upd_ne _ _ _ _ (Ne.symm hiy), upd_ne _ _ _ _ (Ne.symm hix)]
        · show upd (upd _ _ _) _ _ _ = _
          rw [upd_ne _ _ _ _ (Ne.symm hiy), upd_ne _ _ _ _ (Ne.symm hix)]
        · show (Mem.abs m)[_]? = _
          rw [ha, List.getElem?_set, if_neg hiy, List.getElem?_set, if_neg hix]

/-- On a fixed buffer, or if the sum stays within the inline words, an addition into an operand is safe. -/
theorem roomy_of {K : Kind} {s : BigSt} (I : Inv K s.mem) {n : Nat} (h : K.dyn = true → n ≤ K.N + 1) (z : Nat) : Roomy s z n := by
  intro o b ho hb
  obtain ⟨h1, h2⟩ := (I.obj z o ho).hd b hb
  have := h h1
  omega

/-- One statement: the integers it should compute, or undefined behaviour when a growable integer is added to itself. -/
theorem exec_one {K : Kind} {s : BigSt} {e e' : Env} (fuel : Nat) (H : Holds K s e) (c : Stmt) (he : eval e c = some e')
    (hr : Room K.lim e c) (hd : DivSafe e c) :
    (∃ s', c.exec K fuel s = .ok s' ∧ Holds K s' e') ∨ (K.dyn = true ∧ AddsInto K.N e c ∧ c.exec K fuel s = .error .ub) := by
  have un : ∀ (z x : Nat) (P : Prop) [Decidable P] (f : Int → Int),
      (do let a ← look e x; if live e z ∧ P then some (put e z (f a)) else none) = some e' →
      ∃ a X Z, look e x = some a ∧ Rep s x X ∧ X.Canon ∧ X.toInt = a ∧ Rep s z Z ∧ Z.Canon ∧ P ∧ e' = put e z (f a) := by
    intro z x P _ f h
    cases ha : look e x with
    | none => rw [ha] at h; cases h
    | some a =>
      rw [ha] at h
      change (if live e z ∧ P then some (put e z (f a)) else none) = some e' at h
      split at h
      · rename_i hz
        obtain ⟨X, h1, h2, h3⟩ := H.get x a (look_some.1 ha)
        obtain ⟨Z, z1, z2⟩ := H.target hz.1
        exact ⟨a, X, Z, rfl, h1, h2, h3, z1, z2, hz.2, (Option.some.inj h).symm⟩
      · cases h
  have un' : ∀ (z x : Nat) (f : Int → Int), (do let a ← look e x; if live e z then some (put e z (f a)) else none) = some e' →
      ∃ a X Z, look e x = some a ∧ Rep s x X ∧ X.Canon ∧ X.toInt = a ∧ Rep s z Z ∧ Z.Canon ∧ e' = put e z (f a) := by
    intro z x f h
    obtain ⟨a, X, Z, h1, h2, h3, h4, h5, h6, -, h7⟩ := un z x True f (by simpa using h)
    exact ⟨a, X, Z, h1, h2, h3, h4, h5, h6, h7⟩
  have bin : ∀ (z x y : Nat) (P : Int → Prop) [DecidablePred P] (f : Int → Int → Int),
      (do let a ← look e x; let b ← look e y; if live e z ∧ P b then some (put e z (f a b)) else none) = some e' →
      ∃ a b X Y Z, look e x = some a ∧ look e y = some b ∧ Rep s x X ∧ X.Canon ∧ X.toInt = a ∧ Rep s y Y ∧ Y.Canon ∧ Y.toInt = b ∧
        Rep s z Z ∧ Z.Canon ∧ P b ∧ e' = put e z (f a b) := by
    intro z x y P _ f h
    cases ha : look e x with
    | none => rw [ha] at h; cases h
    | some a =>
      cases hb : look e y with
      | none => rw [ha, hb] at h; cases h
      | some b =>
        rw [ha, hb] at h
        change (if live e z ∧ P b then some (put e z (f a b)) else none) = some e' at h
        split at h
        · rename_i hz
          obtain ⟨X, h1, h2, h3⟩ := H.get x a (look_some.1 ha)
          obtain ⟨Y, y1, y2, y3⟩ := H.get y b (look_some.1 hb)
          obtain ⟨Z, z1, z2⟩ := H.target hz.1
          exact ⟨a, b, X, Y, Z, rfl, rfl, h1, h2, h3, y1, y2, y3, z1, z2, hz.2, (Option.some.inj h).symm⟩
        · cases h
  have bin' : ∀ (z x y : Nat) (f : Int → Int → Int),
      (do let a ← look e x; let b ← look e y; if live e z then some (put e z (f a b)) else none) = some e' →
      ∃ a b X Y Z, look e x = some a ∧ look e y = some b ∧ Rep s x X ∧ X.Canon ∧ X.toInt = a ∧ Rep s y Y ∧ Y.Canon ∧ Y.toInt = b ∧
        Rep s z Z ∧ Z.Canon ∧ e' = put e z (f a b) := by
    intro z x y f h
    obtain ⟨a, b, X, Y, Z, h1, h2, h3, h4, h5, h6, h7, h8, h9, h10, -, h11⟩ := bin z x y (fun _ => True) f (by simpa using h)
    exact ⟨a, b, X, Y, Z, h1, h2, h3, h4, h5, h6, h7, h8, h9, h10, h11⟩
  cases c with
  | create w =>
    left
    cases he
    exact create_spec H (lim_fits' _ _ hr) w
  | set z w =>
    left
    change (if z < e.length then some (put e z (w.toNat : Int)) else none) = some e' at he
    split at he
    · rename_i hz
      rw [← H.len] at hz
      obtain ⟨s', e1, P⟩ := assignWord_new H.inv (List.getElem?_eq_getElem hz) (lim_fits' _ _ hr) w
      cases he
      exact ⟨s', e1, H.post P (Big.canonW_single _) (by simp [Big.toInt, val])⟩
    · cases he
  | assign z x =>
    left
    cases ha : look e x with
    | none => dsimp only [eval] at he; rw [ha] at he; cases he
    | some a =>
      dsimp only [eval] at he
      rw [ha] at he
      change (if z < e.length then some (put e z a) else none) = some e' at he
      split at he
      · rename_i hz
        rw [← H.len] at hz
        obtain ⟨X, h1, h2, h3⟩ := H.get x a (look_some.1 ha)
        obtain ⟨s', e1, P⟩ := assign_new H.inv h1 hz
        cases he
        exact ⟨s', e1, H.post P h2 h3⟩
      · cases he
  | copyNew x =>
    left
    cases ha : look e x with
    | none => dsimp only [eval] at he; rw [ha] at he; cases he
    | some a =>
      dsimp only [eval] at he
      rw [ha] at he
      cases he
      exact copyNew_spec H (look_some.1 ha)
  | moveNew x =>
    left
    cases ha : look e x with
    | none => dsimp only [eval] at he; rw [ha] at he; cases he
    | some a =>
      dsimp only [eval] at he
      rw [ha] at he
      cases he
      exact moveNew_spec H (look_some.1 ha)
  | moveAssign z x =>
    left
    cases ha : look e x with
    | none => dsimp only [eval] at he; rw [ha] at he; cases he
    | some a =>
      dsimp only [eval] at he
      rw [ha] at he
      change (if z < e.length then some (if z = x then e else (put e z a).set x none) else none) = some e' at he
      split at he
      · rename_i hz
        obtain ⟨s', e1, h⟩ := moveAssign_spec H (look_some.1 ha) hz
        cases he
        exact ⟨s', e1, h⟩
      · cases he
  | swap x y =>
    left
    cases ha : look e x with
    | none => dsimp only [eval] at he; rw [ha] at he; cases he
    | some a =>
      cases hb : look e y with
      | none => dsimp only [eval] at he; rw [ha, hb] at he; cases he
      | some b =>
        dsimp only [eval] at he
        rw [ha, hb] at he
        cases he
        exact swap_spec H (look_some.1 ha) (look_some.1 hb)
  | neg z x =>
    left
    obtain ⟨a, X, Z, h1, h2, h3, h4, h5, h6, rfl⟩ := un' z x (fun a => -a) he
    obtain ⟨s', e1, P⟩ := negate_spec H.inv h2 h5
    refine ⟨s', e1, H.post P h3 ?_⟩
    rw [← h4]
    unfold Big.negate Big.toInt; cases X.neg <;> simp
  | abs z x =>
    left
    obtain ⟨a, X, Z, h1, h2, h3, h4, h5, h6, rfl⟩ := un' z x (fun a => (a.natAbs : Int)) he
    obtain ⟨s', e1, P⟩ := abs_spec H.inv h2 h5
    refine ⟨s', e1, H.post P h3 ?_⟩
    rw [← h4]
    unfold Big.abs Big.toInt; cases X.neg <;> simp
  | add z x y =>
    obtain ⟨a, b, X, Y, Z, ha, hb, h2, h3, h4, h5, h6, h7, h8, h9, rfl⟩ := bin' z x y (fun a b => a + b) he
    have val : (Big.add K.lim X Y).Canon ∧ (Big.add K.lim X Y).toInt = a + b := by
      obtain ⟨c1, -, c3⟩ := Big.add_spec K.lim X Y h3 h6 (H.fitsX h2) (H.fitsX h5)
      refine ⟨c1, ?_⟩
      rcases c3 with c3 | ⟨-, c4, c5⟩
      · rw [c3, h4, h7]
      · exfalso
        rcases hr a b ha hb with hh | hh
        · rw [← h4, ← h7] at hh; exact neg_of_opp hh c4
        · rw [← h4, ← h7, ← words_eq h3, ← words_eq h6] at hh
          rw [lim_fits' _ _ hh] at c5; cases c5
    by_cases hs : (X.neg = Y.neg ∧ K.N < max X.ws.length Y.ws.length) ∧ (z = x ∨ z = y)
    · rcases uadd_total H.inv h2 h5 hs.2 with hR | ⟨hdyn, hub⟩
      · left
        obtain ⟨s', e1, P⟩ := add_spec H.inv h2 h5 h8 (fun _ _ => hR)
        exact ⟨s', e1, H.post P val.1 val.2⟩
      · right
        refine ⟨hdyn, ⟨hs.2, ?_⟩, ?_⟩
        · intro a' b' ha' hb'
          rw [ha] at ha'; rw [hb] at hb'
          cases ha'; cases hb'
          refine ⟨fun hop => ?_, by rw [← h4, ← h7, ← words_eq h3, ← words_eq h6]; exact hs.1.2⟩
          rw [← h4, ← h7] at hop
          exact neg_of_opp hop hs.1.1
        · show s.add K z x y = _
          unfold BigSt.add BigSt.addSigned
          rw [h2.neg_eq, h5.neg_eq, hs.1.1, if_pos (by simp), hub]
          rfl
    · left
      obtain ⟨s', e1, P⟩ := add_spec H.inv h2 h5 h8 (fun p q => roomy_of H.inv (fun _ => by
        have : ¬ K.N < max X.ws.length Y.ws.length := fun h => hs ⟨⟨p, h⟩, q⟩
        omega) z)
      exact ⟨s', e1, H.post P val.1 val.2⟩
  | sub z x y =>
    obtain ⟨a, b, X, Y, Z, ha, hb, h2, h3, h4, h5, h6, h7, h8, h9, rfl⟩ := bin' z x y (fun a b => a - b) he
    have opp : OppSigns a (-b) → X.neg = Y.neg := by
      intro hop
      rw [← h4, ← h7] at hop
      unfold OppSigns at hop
      rcases hop with ⟨u, v⟩ | ⟨u, v⟩
      · rw [Big.neg_of_toInt_neg u, Big.neg_of_toInt_neg (by omega)]
      · rw [Big.neg_of_toInt_pos u, Big.neg_of_toInt_pos (by omega)]
    have val : (Big.sub K.lim X Y).Canon ∧ (Big.sub K.lim X Y).toInt = a - b := by
      obtain ⟨c1, -, c3⟩ := Big.sub_spec K.lim X Y h3 h6 (H.fitsX h2) (H.fitsX h5)
      refine ⟨c1, ?_⟩
      rcases c3 with c3 | ⟨-, c4, c5⟩
      · rw [c3, h4, h7]
      · exfalso
        rcases hr a b ha hb with hh | hh
        · rw [opp hh] at c4; cases hy : Y.neg <;> rw [hy] at c4 <;> cases c4
        · rw [← h4, ← h7, ← words_eq h3, ← words_eq h6] at hh
          rw [lim_fits' _ _ hh] at c5; cases c5
    by_cases hs : (X.neg ≠ Y.neg ∧ K.N < max X.ws.length Y.ws.length) ∧ (z = x ∨ z = y)
    · rcases uadd_total H.inv h2 h5 hs.2 with hR | ⟨hdyn, hub⟩
      · left
        obtain ⟨s', e1, P⟩ := sub_spec H.inv h2 h5 h8 (fun _ _ => hR)
        exact ⟨s', e1, H.post P val.1 val.2⟩
      · right
        refine ⟨hdyn, ⟨hs.2, ?_⟩, ?_⟩
        · intro a' b' ha' hb'
          rw [ha] at ha'; rw [hb] at hb'
          cases ha'; cases hb'
          exact ⟨fun hop => hs.1.1 (opp hop), by rw [← h4, ← h7, ← words_eq h3, ← words_eq h6]; exact hs.1.2⟩
        · show s.sub K z x y = _
          unfold BigSt.sub BigSt.addSigned
          rw [h2.neg_eq, h5.neg_eq, if_pos (by cases hX : X.neg <;> cases hY : Y.neg <;> simp_all), hub]
          rfl
    · left
      obtain ⟨s', e1, P⟩ := sub_spec H.inv h2 h5 h8 (fun p q => roomy_of H.inv (fun _ => by
        have : ¬ K.N < max X.ws.length Y.ws.length := fun h => hs ⟨⟨p, h⟩, q⟩
        omega) z)
      exact ⟨s', e1, H.post P val.1 val.2⟩
  | addWord z x w n =>
    left
    obtain ⟨a, X, Z, h1, h2, h3, h4, h5, h6, rfl⟩ := un' z x (fun a => if n then a - w.toNat else a + w.toNat) he
    obtain ⟨s', R, e1, P, hS⟩ := addu1Go_spec H.inv h2 h5 w n
    obtain ⟨c1, -, c3⟩ := Big.addu1Go_spec K.lim X w n h3 (H.fitsX h2)
    refine ⟨s', e1, H.post P (hS.canon c1) ?_⟩
    rw [hS.toInt]
    rcases c3 with c3 | ⟨-, -, c5⟩
    · rw [c3, h4]; cases n <;> simp [sub_eq_add_neg]
    · have hh := hr a h1
      rw [← h4, ← words_eq h3] at hh
      rw [lim_fits' _ _ hh] at c5; cases c5
  | mul z x y =>
    left
    obtain ⟨a, b, X, Y, Z, ha, hb, h2, h3, h4, h5, h6, h7, h8, h9, rfl⟩ := bin' z x y (fun a b => a * b) he
    have hm := mul_spec H.inv h2 h5 h8
    rcases Big.mul?_spec K.lim X Y h3 h6 with ⟨V, ev, cv, -, vv, -⟩ | ⟨-, c5⟩
    · rw [ev] at hm
      obtain ⟨s', R, e1, P, hS⟩ := hm
      refine ⟨s', ?_, H.post P (hS.canon cv) (by rw [hS.toInt, vv, h4, h7])⟩
      show (s.mul K z x y).map _ = _
      rw [e1]; rfl
    · have hh := hr a b ha hb
      rw [← h4, ← h7, ← words_eq h3, ← words_eq h6] at hh
      rw [lim_fits' _ _ hh] at c5; cases c5
  | mulu1 z x w =>
    left
    obtain ⟨a, X, Z, h1, h2, h3, h4, h5, h6, rfl⟩ := un' z x (fun a => a * w.toNat) he
    obtain ⟨s', e1, P⟩ := mulu1_spec H.inv h2 h5 w
    obtain ⟨c1, -, c3⟩ := Big.mulu1_spec K.lim X w h3 (H.fitsX h2)
    refine ⟨s', e1, H.post P c1 ?_⟩
    rcases c3 with c3 | ⟨-, c5⟩
    · rw [c3, h4]
    · have hh := hr a h1
      rw [← h4, ← words_eq h3] at hh
      rw [lim_fits' _ _ hh] at c5; cases c5
  | muls1 z x w =>
    left
    obtain ⟨a, X, Z, h1, h2, h3, h4, h5, h6, rfl⟩ := un' z x (fun a => a * w.toInt) he
    obtain ⟨s', e1, P⟩ := muls1_spec H.inv h2 h5 w
    obtain ⟨c1, -, c3⟩ := Big.muls1_spec K.lim X w h3 (H.fitsX h2)
    refine ⟨s', e1, H.post P c1 ?_⟩
    rcases c3 with c3 | ⟨-, c5⟩
    · rw [c3, h4]
    · have hh := hr a h1
      rw [← h4, ← words_eq h3] at hh
      rw [lim_fits' _ _ hh] at c5; cases c5
  | shl z x n =>
    left
    obtain ⟨a, X, Z, h1, h2, h3, h4, h5, h6, rfl⟩ := un' z x (fun a => a * 2 ^ n) he
    have hm := shl_spec H.inv h2 h5 n
    have hh := hr a h1
    rw [← h4, ← words_eq h3] at hh
    obtain ⟨V, ev, cv, -, vv⟩ := Big.shl_spec K.lim X n h3 (lim_fits' _ _ hh)
    rw [ev] at hm
    obtain ⟨s', e1, P⟩ := hm
    exact ⟨s', e1, H.post P cv (by rw [vv, h4])⟩
  | shr z x n =>
    left
    obtain ⟨a, X, Z, h1, h2, h3, h4, h5, h6, rfl⟩ := un' z x (fun a => a.tdiv (2 ^ n)) he
    obtain ⟨s', e1, P⟩ := shr_spec H.inv h2 h5 n
    obtain ⟨c1, c2, -⟩ := Big.shr_spec X n h3
    exact ⟨s', e1, H.post P c1 (by rw [c2, h4])⟩
  | divs1 z x w =>
    left
    obtain ⟨a, X, Z, h1, h2, h3, h4, h5, h6, hw, rfl⟩ := un z x (w.toInt ≠ 0) (fun a => a.tdiv w.toInt) he
    have hm := divs1_spec H.inv h2 h5 w
    obtain ⟨V, ev, cv, -, vv⟩ := Big.divs1_spec K.lim X w h3 (H.fitsX h2) hw
    rw [ev] at hm
    obtain ⟨s', e1, P⟩ := hm
    exact ⟨s', e1, H.post P cv (by rw [vv, h4])⟩
  | div z x y =>
    left
    obtain ⟨a, b, X, Y, Z, ha, hb, h2, h3, h4, h5, h6, h7, h8, h9, hb0, rfl⟩ := bin z x y (fun b => b ≠ 0) (fun a b => a.tdiv b) he
    have hy0 : Y.toInt ≠ 0 := by rw [h7]; exact hb0
    obtain ⟨s', V, R, e1, ev, P⟩ := div_spec H.inv h2 h5 h8 h3 h6 hy0 fuel (by
      intro hz
      refine noClash_of h3 h6 ?_
      have := hd a b ha hb hz
      rw [← h4, ← h7, Big.natAbs_toInt, Big.natAbs_toInt] at this
      exact this)
    obtain ⟨V', R', ev', cq, cr, -, -, vq, vr, -⟩ := Big.divMod?_spec K.lim X Y h3 h6 (H.fitsX h2) hy0
    rw [ev'] at ev
    cases ev
    refine ⟨s', ?_, H.post P cq (by rw [vq, h4, h7])⟩
    show (s.div K fuel z x y).map _ = _
    rw [e1]; rfl
  | mod z x y =>
    left
    obtain ⟨a, b, X, Y, Z, ha, hb, h2, h3, h4, h5, h6, h7, h8, h9, hb0, rfl⟩ := bin z x y (fun b => b ≠ 0) (fun a b => a.tmod b) he
    have hy0 : Y.toInt ≠ 0 := by rw [h7]; exact hb0
    obtain ⟨s', V, R, e1, ev, P⟩ := mod_spec H.inv h2 h5 h8 h3 h6 hy0
    obtain ⟨V', R', ev', cq, cr, -, -, vq, vr, -⟩ := Big.divMod?_spec K.lim X Y h3 h6 (H.fitsX h2) hy0
    rw [ev'] at ev
    cases ev
    refine ⟨s', ?_, H.post P cr (by rw [vr, h4, h7])⟩
    show (s.mod K z x y).map _ = _
    rw [e1]; rfl
  | setBit x i v =>
    left
    change ((look e x).bind fun a => some (put e x (if a < 0 then -(withBit a.natAbs i v : Int) else (withBit a.natAbs i v : Int)))) = some e' at he
    cases ha : look e x with
    | none => rw [ha] at he; cases he
    | some a =>
      rw [ha] at he
      have he' := (Option.some.inj he).symm
      obtain ⟨X, h1, h2, h3⟩ := H.get x a (look_some.1 ha)
      obtain ⟨a0, ai⟩ := hr a ha
      rw [← h3, ← words_eq h2] at ai
      have ht : ([] : List Word).length = i / 32 + 1 - X.ws.length := by rw [List.length_nil]; omega
      obtain ⟨o, ho⟩ : ∃ o, s.mem.objs[x]? = some o := by obtain ⟨o, h, _⟩ := h1; exact ⟨o, h.obj⟩
      obtain ⟨s', e1, P⟩ := setBit_spec (tail := []) H.inv h1 h2 i v ho ht (fun h => absurd rfl h) (fun k hk => by simp at hk)
      obtain ⟨c1, c2, c3⟩ := setBitR_spec X [] i v h2 ht
      rw [he']
      refine ⟨s', e1, H.post P c1 ?_⟩
      have hv : val (setBitR X [] i v).ws = withBit (val X.ws) i v := by
        refine Nat.eq_of_testBit_eq fun j => ?_
        rw [c2, List.append_nil]
        unfold withBit
        cases v
        · simp only [Bool.false_eq_true, if_false]
          rw [Nat.testBit_xor, Nat.testBit_and, Nat.testBit_two_pow]
          by_cases hj : j = i
          · subst hj; simp
          · have : ¬ i = j := fun h => hj h.symm
            simp [hj, this]
        · simp only [if_true]
          rw [Nat.testBit_or, Nat.testBit_two_pow]
          by_cases hj : j = i
          · subst hj; simp
          · have : ¬ i = j := fun h => hj h.symm
            simp [hj, this]
      have hm : a.natAbs = val X.ws := by rw [← h3, Big.natAbs_toInt]
      rw [hm, ← hv]
      unfold Big.toInt
      by_cases hz : val (setBitR X [] i v).ws = 0
      · rw [hz]; simp
      · rw [c3 hz]
        by_cases hneg : a < 0
        · rw [if_pos hneg, Big.neg_of_toInt_neg (x := X) (by omega), if_pos rfl]
        · rw [if_neg hneg, Big.neg_of_toInt_pos (x := X) (by omega), if_neg (by simp)]

theorem exec_spec {K : Kind} (fuel : Nat) : ∀ (p : List Stmt) (s : BigSt) (e e' : Env), Holds K s e → evals e p = some e' →
    Always (Room K.lim) e p → Always DivSafe e p →
    (∃ s', exec K fuel s p = .ok s' ∧ Holds K s' e') ∨
    (K.dyn = true ∧ ¬ Always (fun e c => ¬ AddsInto K.N e c) e p ∧ exec K fuel s p = .error .ub) := by
  intro p
  induction p with
  | nil => intro s e e' H he _ _; cases he; exact Or.inl ⟨s, rfl, H⟩
  | cons c p ih =>
    intro s e e' H he hr hd
    unfold evals at he
    cases h1 : eval e c with
    | none => rw [h1] at he; cases he
    | some e1 =>
      rw [h1] at he
      change evals e1 p = some e' at he
      rcases exec_one fuel H c h1 hr.1 hd.1 with ⟨s1, x1, H1⟩ | ⟨hk, ha, x1⟩
      · rcases ih s1 e1 e' H1 he (hr.2 e1 h1) (hd.2 e1 h1) with ⟨s', x2, H2⟩ | ⟨hk, ha, x2⟩
        · left
          refine ⟨s', ?_, H2⟩
          unfold exec
          rw [x1, ok_bind]; exact x2
        · right
          refine ⟨hk, fun hA => ha (hA.2 e1 h1), ?_⟩
          unfold exec
          rw [x1, ok_bind]; exact x2
      · right
        refine ⟨hk, fun hA => hA.1 ha, ?_⟩
        unfold exec
        rw [x1]; rfl

theorem holds_init (K : Kind) : Holds K BigSt.init [] :=
  ⟨init_inv K, rfl, fun i a h => by simp at h⟩

theorem create_post {K : Kind} {s : BigSt} (I : Inv K s.mem) (hf : Cap.fits K.lim 1 = true) (w : Word) :
    ∃ s', s.create K w = .ok s' ∧ Inv K s'.mem ∧ Rep s' s.mem.objs.length ⟨false, [w]⟩ := by
  rcases step_spec I .create with ⟨m, out, e1, I', g⟩ | ⟨_, _, b⟩
  · have ha : Mem.abs m = Mem.abs s.mem ++ [[]] := g.1
    have hlen : m.objs.length = s.mem.objs.length + 1 := by
      rw [← abs_length, ha, List.length_append, abs_length]; rfl
    obtain ⟨o, ho⟩ : ∃ o, m.objs[s.mem.objs.length]? = some o := ⟨_, List.getElem?_eq_getElem (by omega)⟩
    obtain ⟨s', e2, P⟩ := assignWord_new (s := { s with mem := m }) I' ho hf w
    refine ⟨s', ?_, P.inv, P.res⟩
    unfold BigSt.create; dsimp only; rw [e1, ok_bind]; exact e2
  · exact b.elim

theorem create_cells {K : Kind} (s : BigSt) (hN : 1 ≤ K.N) (w : Word) :
    ∃ s' o, s.create K w = .ok s' ∧ s'.mem.objs[s.mem.objs.length]? = some o ∧ o.db = none ∧
      ∀ k, 1 ≤ k → s'.mem.heap.cell o.data.b k = some 0 := by
  have hres : ∀ h o, Mem.resize K h o 1 = .ok (h, { o with size := 1 }, true) := by
    intro h o
    unfold Mem.resize
    split
    · rw [if_neg (by omega)]
    · rw [if_neg (by omega)]
  unfold BigSt.create BigSt.assignWord BigSt.resize BigSt.store BigSt.elem BigSt.buf
  simp only [step, ok_bind, newInline, BigSt.setNeg, List.getElem?_append_right (Nat.le_refl _), Nat.sub_self, List.getElem?_cons_zero, hres]
  have hlt : s.mem.objs.length < (s.mem.objs ++ [(⟨(s.mem.heap.alloc K.N false (some 0)).2, none, 0, 0⟩ : Flex)]).length := by simp
  simp only [List.getElem?_set, ↓reduceIte, hlt, ok_bind]
  have hroom : ∀ h : Heap, (h.alloc K.N false (some 0)).1.room ⟨h.next, 0⟩ 1 = true := by
    intro h
    unfold Heap.room Heap.alloc
    simp [upd]; omega
  have hw : (s.mem.heap.alloc K.N false (some 0)).1.write ((⟨(s.mem.heap.alloc K.N false (some 0)).2, none, 1, 0⟩ : Flex).data.add 0) w =
      .ok ((s.mem.heap.alloc K.N false (some 0)).1.put ⟨s.mem.heap.next, 0⟩ (some w)) := by
    unfold Heap.write
    exact if_pos (hroom _)
  rw [show decide (0 < 1) = true from rfl, check_true rfl, ok_bind, ok_bind, hw, ok_bind, ok_bind]
  refine ⟨_, ⟨s.mem.heap.next, none, 1, 0⟩, rfl, ?_, rfl, ?_⟩
  · show ((s.mem.objs ++ [_]).set s.mem.objs.length _)[s.mem.objs.length]? = _
    rw [List.getElem?_set, if_pos rfl, if_pos hlt]
    rfl
  · intro k hk
    show upd (s.mem.heap.alloc K.N false (some 0)).1.cell s.mem.heap.next (upd ((s.mem.heap.alloc K.N false (some 0)).1.cell s.mem.heap.next) 0 (some w)) s.mem.heap.next k = some 0
    have hk0 : k ≠ 0 := by omega
    simp [upd, Heap.alloc, hk0]

end Ack.Mem
