import Verif.Proof.AliasBase
/-! # The operations of `bigint` on memory, for every choice of operand and result objects -/
namespace Ack.Mem

theorem addN_length (xs ys : List Word) (h : xs.length = ys.length) : (addN xs ys).1.length = xs.length := by
  unfold addN
  rw [← mapL2_add]
  exact mapL2_length _ _ _ _ h

theorem subN_length (xs ys : List Word) (h : xs.length = ys.length) : (subN xs ys).1.length = xs.length := by
  unfold subN
  rw [← mapL2_sub]
  exact mapL2_length _ _ _ _ h

theorem incGo_length (ws : List Word) : (incGo ws).1.length = ws.length := by
  induction ws with
  | nil => rfl
  | cons a t ih =>
    simp only [incGo]
    split
    · rfl
    · simp only [List.length_cons, ih]

theorem decGo_length (ws : List Word) : (decGo ws).1.length = ws.length := by
  induction ws with
  | nil => rfl
  | cons a t ih =>
    simp only [decGo]
    split
    · rfl
    · simp only [List.length_cons, ih]

theorem addWord_length (ws : List Word) (x : Word) : (addWord ws x).1.length = ws.length := by
  cases ws with
  | nil => rfl
  | cons a t =>
    simp only [addWord]
    split
    · rfl
    · simp only [List.length_cons, incGo_length]

theorem subWord_length (ws : List Word) (x : Word) : (subWord ws x).1.length = ws.length := by
  cases ws with
  | nil => rfl
  | cons a t =>
    simp only [subWord]
    split
    · rfl
    · simp only [List.length_cons, decGo_length]

/-- Words above a store at a lower address of the same pointer stay. -/
theorem Has.drop_store {h : Heap} {p : Ptr} {xs vs : List Word} (H : Has h p xs) (hl : vs.length ≤ xs.length) :
    Has (h.store p vs) (p.add vs.length) (xs.drop vs.length) := by
  refine (H.drop vs.length hl).of_agree rfl ?_
  intro k hk
  rw [store_out]
  rintro ⟨_, h2, h3⟩
  rw [add_off] at h2 h3
  omega

/-- No new heap block is needed for `n` words when the digits of `z` are on the heap. -/
def Roomy (s : BigSt) (z n : Nat) : Prop := ∀ o b, s.mem.objs[z]? = some o → o.db = some b → n ≤ o.dsize

/-- Addresses taken before the resize of `z` can still be read. -/
theorem Resized.old_has {K s z o n s1 o1} (R : Resized K s z o n s1 o1) (I : Inv K s.mem) (hz : s.mem.objs[z]? = some o)
    {i : Nat} {r : Flex} {X : Big} (H : Hold s i r X) (safe : i = z → Roomy s z n) :
    Has s1.mem.heap r.data X.ws ∧ (r.data = o1.data ∨ r.data.b ≠ o1.data.b) := by
  by_cases hi : i = z
  · subst hi
    have : r = o := Option.some.inj (H.obj.symm.trans hz)
    subst this
    cases hb : r.db with
    | none =>
      by_cases hg : K.dyn = true ∧ n > K.N ∧ n > r.dsize
      · have hlt := (I.obj i r hz).lt I.fresh
        have hdb : r.data.b = r.sb := by simp only [Flex.data, hb, Option.getD_none]
        have hA := R.old r.data.b (by rw [hb]; simp) (by rw [hdb]; exact hlt.1)
        refine ⟨H.has.agree hA, ?_⟩
        right
        -- the new block is dynamic
        have hO := R.inv.obj i o1 R.obj
        intro e
        cases hb1 : o1.db with
        | none =>
          have h1 := (hO.hn hb1).1
          rw [R.osize] at h1
          omega
        | some c =>
          have h3 := (hO.hd c hb1).2.2.1
          have e2 : o1.data.b = c := by simp only [Flex.data, hb1, Option.getD_some]
          rw [← e2, ← e, hA.2.1, hdb, (I.obj i r hz).ns] at h3
          cases h3
      · obtain ⟨h1, h2⟩ := R.same hg
        rw [h1, h2]
        exact ⟨H.has, Or.inl rfl⟩
    | some b =>
      have := safe rfl r b hz hb
      obtain ⟨h1, h2⟩ := R.same (by omega)
      rw [h1, h2]
      exact ⟨H.has, Or.inl rfl⟩
  · obtain ⟨h1, h2⟩ := R.other i r hi H.obj
    exact ⟨H.has.agree h2.data, Or.inr (data_ne R.inv h1 R.obj hi)⟩

theorem up_of {z x : Ptr} (h : x = z ∨ x.b ≠ z.b) : Up z x := by
  rcases h with h | h
  · subst h; exact Up.refl _
  · exact Or.inl h

/-- Copy unless the storage is shared. -/
theorem copy_unless {h : Heap} {z x : Ptr} {xs : List Word} (hx : Has h x xs) (hz : h.room z xs.length = true)
    (c : x = z ∨ x.b ≠ z.b) {β : Type} (k : Heap → Res β) :
    (if z ≠ x then mCopyN z x xs.length h >>= k else pure h >>= k) = k (h.store z xs) := by
  rcases c with c | c
  · subst c
    rw [if_neg (by simp), store_self hx]; rfl
  · rw [if_pos (by intro e; exact c (by rw [e])), mCopyN_spec hx hz (Or.inl c), ok_bind]

theorem uaddGe_spec {K : Kind} {s : BigSt} {z : Nat} {Z : Big} (I : Inv K s.mem) (hZ : Rep s z Z) {px py : Ptr}
    {xs ys : List Word} (hle : ys.length ≤ xs.length) (hxp : 0 < xs.length)
    (hp : ∀ o s1 o1, Resized K s z o (xs.length + 1) s1 o1 → s.mem.objs[z]? = some o →
      (Has s1.mem.heap px xs ∧ (px = o1.data ∨ px.b ≠ o1.data.b)) ∧
      (Has s1.mem.heap py ys ∧ (py = o1.data ∨ py.b ≠ o1.data.b))) :
    ∃ s' b, s.uaddGe K z px xs.length py ys.length = .ok s' ∧ Post K s s' z ⟨b, Big.uaddGe K.lim xs ys⟩ := by
  obtain ⟨o, hz, hlz⟩ := hZ
  rcases big_resize I hz.obj (xs.length + 1) with ⟨h1, h2⟩ | ⟨h1, s1, o1, h2, R⟩
  · obtain ⟨s', e, P⟩ := clear_spec' I ⟨o, hz, hlz⟩
    refine ⟨s', false, ?_, ?_⟩
    · unfold BigSt.uaddGe
      rw [h2, ok_bind]
      dsimp only
      rw [if_neg (by simp)]
      exact e
    · have : Big.uaddGe K.lim xs ys = [0] := by
        unfold Big.uaddGe
        dsimp only
        rw [h1, if_neg (by simp)]
      rw [this]
      exact P
  · obtain ⟨⟨hx, cx⟩, hy, cy⟩ := hp o s1 o1 R hz.obj
    -- the words
    obtain ⟨a, ha⟩ : ∃ a, a = addN (xs.take ys.length) ys := ⟨_, rfl⟩
    have hal : a.1.length = ys.length := by
      rw [ha, addN_length _ _ (by rw [List.length_take]; omega), List.length_take]; omega
    have htl : (xs.take ys.length).length = ys.length := by rw [List.length_take]; omega
    have e1 : mAddN o1.data px py ys.length s1.mem.heap = .ok (s1.mem.heap.store o1.data a.1, a.2) := by
      have := mAddN_spec (h := s1.mem.heap) (z := o1.data) (x := px) (y := py) (xs := xs.take ys.length) (ys := ys) htl
        (hx.take _) hy (by rw [htl]; exact room_mono R.room (by omega)) (up_of cx) (up_of cy)
      rw [htl, ← ha] at this
      exact this
    obtain ⟨g, hg⟩ : ∃ g, g = if xs.length > ys.length then addWord (xs.drop ys.length) a.2 else ([], a.2) := ⟨_, rfl⟩
    have hgl : g.1.length = xs.length - ys.length := by
      rw [hg]
      split
      · rw [addWord_length, List.length_drop]
      · simp; omega
    have hlen : (a.1 ++ g.1).length = xs.length := by rw [List.length_append, hal, hgl]; omega
    have e4 : (s1.mem.heap.store o1.data (a.1 ++ g.1)).write (o1.data.add xs.length) g.2 =
        .ok (s1.mem.heap.store o1.data (a.1 ++ g.1 ++ [g.2])) := by
      rw [write_ok (n := 1) (by rw [room_len (store_len _ _ _)]; exact room_add R.room (by omega)) (by omega), store_one,
        ← hlen, store_append]
    obtain ⟨f1, f2⟩ := R.finish (a.1 ++ g.1 ++ [g.2]) (by rw [List.length_append, hlen]; rfl) (by omega)
    refine ⟨(s1.withHeap (s1.mem.heap.store o1.data (a.1 ++ g.1 ++ [g.2]))).set z (Big.trim (s1.neg z) (a.1 ++ g.1 ++ [g.2])),
      (Big.trim (s1.neg z) (a.1 ++ g.1 ++ [g.2])).neg, ?_, ?_⟩
    · unfold BigSt.uaddGe
      rw [h2, ok_bind]
      dsimp only
      rw [if_pos rfl, elem_ok R.obj (by rw [R.osize]; omega), ok_bind, add_zero, e1, ok_bind]
      dsimp only
      by_cases hgt : xs.length > ys.length
      · rw [if_pos hgt]
        rw [if_pos hgt] at hg
        have hdl : (xs.drop ys.length).length = xs.length - ys.length := List.length_drop
        rw [← hdl]
        have hroom : (s1.mem.heap.store o1.data a.1).room (o1.data.add ys.length) (xs.drop ys.length).length = true := by
          rw [room_len (store_len _ _ _)]; exact room_add R.room (by rw [hdl]; omega)
        have hxd : Has (s1.mem.heap.store o1.data a.1) (px.add ys.length) (xs.drop ys.length) := by
          rcases cx with c | c
          · rw [c, ← hal]
            rw [c] at hx
            exact hx.drop_store (vs := a.1) (by omega)
          · exact (hx.drop _ hle).store_ne (by simpa [add_b] using c)
        have hdif : (if o1.data ≠ px then mCopyN (o1.data.add ys.length) (px.add ys.length) (xs.drop ys.length).length
              (s1.mem.heap.store o1.data a.1) else pure (s1.mem.heap.store o1.data a.1)) =
            Except.ok ((s1.mem.heap.store o1.data a.1).store (o1.data.add ys.length) (xs.drop ys.length)) := by
          rcases cx with c | c
          · rw [if_neg (by simp [c])]
            rw [c] at hxd
            rw [store_self hxd]; rfl
          · rw [if_pos (by intro e; exact c (by rw [e])), mCopyN_spec hxd hroom (Or.inl (by simpa [add_b] using c))]
        have hlift : ∀ k : Heap → Res BigSt, (if o1.data ≠ px then mCopyN (o1.data.add ys.length) (px.add ys.length)
              (xs.drop ys.length).length (s1.mem.heap.store o1.data a.1) >>= k
              else pure (s1.mem.heap.store o1.data a.1) >>= k) =
            k ((s1.mem.heap.store o1.data a.1).store (o1.data.add ys.length) (xs.drop ys.length)) := by
          intro k
          by_cases hc : o1.data ≠ px
          · rw [if_pos hc] at hdif ⊢
            rw [hdif, ok_bind]
          · rw [if_neg hc] at hdif ⊢
            rw [hdif, ok_bind]
        refine (hlift _).trans ?_
        have hh : Has ((s1.mem.heap.store o1.data a.1).store (o1.data.add ys.length) (xs.drop ys.length))
            (o1.data.add ys.length) (xs.drop ys.length) := has_store _ _ _ hroom
        rw [mAddWord_spec a.2 hh, ok_bind]
        dsimp only
        rw [store_store _ _ _ _ (by rw [addWord_length]), ← hg]
        have e5 : (s1.mem.heap.store o1.data a.1).store (o1.data.add ys.length) g.1 =
            s1.mem.heap.store o1.data (a.1 ++ g.1) := by rw [← hal, store_append]
        rw [e5, e4, ok_bind, f1]
      · rw [if_neg hgt]
        rw [if_neg hgt] at hg
        have e5 : s1.mem.heap.store o1.data a.1 = s1.mem.heap.store o1.data (a.1 ++ g.1) := by rw [hg, List.append_nil]
        show (Heap.write (s1.mem.heap.store o1.data a.1) _ a.2 >>= _) = _
        rw [e5, show a.2 = g.2 from by rw [hg], e4, ok_bind, f1]
    · have : Big.uaddGe K.lim xs ys = (Big.trim (s1.neg z) (a.1 ++ g.1 ++ [g.2])).ws := by
        unfold Big.uaddGe
        dsimp only
        rw [h1, if_pos rfl, ← ha, ← hg]
        rfl
      rw [this]
      exact f2 _

theorem uadd_spec {K : Kind} {s : BigSt} {z x y : Nat} {X Y Z : Big} (I : Inv K s.mem) (hx : Rep s x X) (hy : Rep s y Y)
    (hz : Rep s z Z) (safe : z = x ∨ z = y → Roomy s z (max X.ws.length Y.ws.length + 1)) :
    ∃ s' b, s.uadd K z x y = .ok s' ∧ Post K s s' z ⟨b, Big.uadd K.lim X.ws Y.ws⟩ := by
  obtain ⟨rx, hx, lx⟩ := hx
  obtain ⟨ry, hy, ly⟩ := hy
  have px := List.length_pos_iff.2 hx.ne
  have py := List.length_pos_iff.2 hy.ne
  unfold BigSt.uadd Big.uadd
  rw [hx.elem, ok_bind, hy.elem, ok_bind, hx.size, hy.size]
  by_cases hgt : Y.ws.length > X.ws.length
  · rw [if_pos hgt, if_pos hgt]
    refine uaddGe_spec I hz (by omega) py ?_
    intro o s1 o1 R ho
    rw [show max X.ws.length Y.ws.length = Y.ws.length from by omega] at safe
    exact ⟨R.old_has I ho hy (fun e => safe (Or.inr e.symm)), R.old_has I ho hx (fun e => safe (Or.inl e.symm))⟩
  · rw [if_neg hgt, if_neg hgt]
    refine uaddGe_spec I hz (by omega) px ?_
    intro o s1 o1 R ho
    rw [show max X.ws.length Y.ws.length = X.ws.length from by omega] at safe
    exact ⟨R.old_has I ho hx (fun e => safe (Or.inl e.symm)), R.old_has I ho hy (fun e => safe (Or.inr e.symm))⟩

/-- Storing the top word of the result. -/
theorem Resized.store_top {K s z o m s1 o1} (R : Resized K s z o (m + 1) s1 o1) {ws : List Word} (c : Word)
    (hl : ws.length = m) : (s1.withHeap (s1.mem.heap.store o1.data ws)).store z (m + 1 - 1) c =
      .ok (s1.withHeap (s1.mem.heap.store o1.data (ws ++ [c]))) := by
  obtain ⟨t, ht⟩ : ∃ t, t = s1.withHeap (s1.mem.heap.store o1.data ws) := ⟨_, rfl⟩
  have hto : t.mem.objs[z]? = some o1 := by rw [ht]; exact R.obj
  have hth : t.mem.heap = s1.mem.heap.store o1.data ws := by rw [ht]; rfl
  rw [← ht, Nat.add_sub_cancel]
  unfold BigSt.store
  rw [elem_ok hto (by rw [R.osize]; omega), ok_bind, hth,
    write_ok (n := 1) (by rw [room_len (store_len _ _ _)]; exact room_add R.room (by omega)) (by omega), ok_bind,
    store_one, ← hl, store_append, ht]
  rfl

/-- Value of `z` after `uadd1`. -/
def uadd1R (K : Kind) (Z : Big) (X : List Word) (w : Word) : Big :=
  if Cap.fits K.lim (X.length + 1) then Big.trim Z.neg ((addWord X w).1 ++ [(addWord X w).2]) else Big.zero

theorem uadd1R_ws (K : Kind) (Z : Big) (X : List Word) (w : Word) : (uadd1R K Z X w).ws = Big.uadd1 K.lim X w := by
  unfold uadd1R Big.uadd1
  split <;> rfl

theorem uadd1_spec {K : Kind} {s : BigSt} {z x : Nat} {X Z : Big} (I : Inv K s.mem) (hx : Rep s x X)
    (hz : Rep s z Z) (w : Word) :
    ∃ s', s.uadd1 K z x w = .ok s' ∧ Post K s s' z (uadd1R K Z X.ws w) := by
  have hX := hx
  have hZ := hz
  obtain ⟨o, hz, lz⟩ := hz
  have hsx : s.size x = X.ws.length := by obtain ⟨_, h, _⟩ := hx; exact h.size
  unfold BigSt.uadd1
  dsimp only
  rw [hsx]
  rcases big_resize I hz.obj (X.ws.length + 1) with ⟨h1, h2⟩ | ⟨h1, s1, o1, h2, R⟩
  · obtain ⟨s', e, P⟩ := clear_spec' I hZ
    refine ⟨s', ?_, ?_⟩
    · rw [h2, ok_bind]; dsimp only; rw [if_neg (by simp)]; exact e
    · unfold uadd1R; rw [h1, if_neg (by simp)]; exact P
  · obtain ⟨rx, hx, _⟩ := R.hold I hz.obj (by omega) hX
    have cx := R.cases hx.obj
    have hroom : s1.mem.heap.room o1.data X.ws.length = true := room_mono R.room (by omega)
    have hh := has_store s1.mem.heap o1.data X.ws hroom
    have al := addWord_length X.ws w
    have nz : s1.neg z = Z.neg := by rw [R.sneg]; exact hz.neg
    obtain ⟨f1, f2⟩ := R.finish ((addWord X.ws w).1 ++ [(addWord X.ws w).2]) (by simp [al]) (by omega)
    refine ⟨(s1.withHeap (s1.mem.heap.store o1.data ((addWord X.ws w).1 ++ [(addWord X.ws w).2]))).set z
        (Big.trim (s1.neg z) ((addWord X.ws w).1 ++ [(addWord X.ws w).2])), ?_, ?_⟩
    · rw [h2, ok_bind]
      dsimp only
      rw [if_pos rfl, elem_ok R.obj (by rw [R.osize]; omega), ok_bind, add_zero, hx.elem, ok_bind]
      refine (copy_unless hx.has hroom cx _).trans ?_
      rw [mAddWord_spec w hh, ok_bind]
      dsimp only
      rw [store_store _ _ _ _ (by rw [al])]
      rw [R.store_top _ al, ok_bind]
      exact f1
    · have : uadd1R K Z X.ws w = Big.trim (s1.neg z) ((addWord X.ws w).1 ++ [(addWord X.ws w).2]) := by
        unfold uadd1R; rw [h1, if_pos rfl, nz]
      rw [this]
      exact f2 _

/-- Value of `z` after `usub1`. -/
def usub1R (K : Kind) (Z : Big) (X : List Word) (w : Word) : Big :=
  if Cap.fits K.lim X.length then Big.trim Z.neg (subWord X w).1 else Big.zero

theorem usub1R_ws (K : Kind) (Z : Big) (X : List Word) (w : Word) : (usub1R K Z X w).ws = Big.usub1 K.lim X w := by
  unfold usub1R Big.usub1
  split <;> rfl

theorem usub1_spec {K : Kind} {s : BigSt} {z x : Nat} {X Z : Big} (I : Inv K s.mem) (hx : Rep s x X)
    (hz : Rep s z Z) (w : Word) :
    ∃ s', s.usub1 K z x w = .ok s' ∧ Post K s s' z (usub1R K Z X.ws w) := by
  have hX := hx
  have hZ := hz
  obtain ⟨o, hz, lz⟩ := hz
  have hsx : s.size x = X.ws.length := by obtain ⟨_, h, _⟩ := hx; exact h.size
  have hp : 0 < X.ws.length := by obtain ⟨_, h, _⟩ := hx; exact List.length_pos_iff.2 h.ne
  unfold BigSt.usub1
  dsimp only
  rw [hsx]
  rcases big_resize I hz.obj X.ws.length with ⟨h1, h2⟩ | ⟨h1, s1, o1, h2, R⟩
  · obtain ⟨s', e, P⟩ := clear_spec' I hZ
    refine ⟨s', ?_, ?_⟩
    · rw [h2, ok_bind]; dsimp only; rw [if_neg (by simp)]; exact e
    · unfold usub1R; rw [h1, if_neg (by simp)]; exact P
  · obtain ⟨rx, hx, _⟩ := R.hold I hz.obj hp hX
    have cx := R.cases hx.obj
    have hh := has_store s1.mem.heap o1.data X.ws R.room
    have al := subWord_length X.ws w
    have nz : s1.neg z = Z.neg := by rw [R.sneg]; exact hz.neg
    obtain ⟨f1, f2⟩ := R.finish (subWord X.ws w).1 al hp
    refine ⟨(s1.withHeap (s1.mem.heap.store o1.data (subWord X.ws w).1)).set z (Big.trim (s1.neg z) (subWord X.ws w).1), ?_, ?_⟩
    · rw [h2, ok_bind]
      dsimp only
      rw [if_pos rfl, elem_ok R.obj (by rw [R.osize]; omega), ok_bind, add_zero, hx.elem, ok_bind]
      refine (copy_unless hx.has R.room cx _).trans ?_
      rw [mSubWord_spec w hh, ok_bind]
      dsimp only
      rw [store_store _ _ _ _ (by rw [al])]
      exact f1
    · have : usub1R K Z X.ws w = Big.trim (s1.neg z) (subWord X.ws w).1 := by
        unfold usub1R; rw [h1, if_pos rfl, nz]
      rw [this]
      exact f2 _

theorem usub_spec {K : Kind} {s : BigSt} {z x y : Nat} {X Y Z : Big} (I : Inv K s.mem) (hx : Rep s x X) (hy : Rep s y Y)
    (hz : Rep s z Z) (hle : Y.ws.length ≤ X.ws.length) :
    ∃ s' b, s.usub K z x y = .ok s' ∧ Post K s s' z ⟨b, Big.usub K.lim X.ws Y.ws⟩ := by
  have hX := hx
  have hY := hy
  have hZ := hz
  obtain ⟨o, hz, lz⟩ := hz
  have hsx : s.size x = X.ws.length := by obtain ⟨_, h, _⟩ := hx; exact h.size
  have hsy : s.size y = Y.ws.length := by obtain ⟨_, h, _⟩ := hy; exact h.size
  have hp : 0 < X.ws.length := by obtain ⟨_, h, _⟩ := hx; exact List.length_pos_iff.2 h.ne
  unfold BigSt.usub
  dsimp only
  rw [hsx, hsy]
  rcases big_resize I hz.obj X.ws.length with ⟨h1, h2⟩ | ⟨h1, s1, o1, h2, R⟩
  · obtain ⟨s', e, P⟩ := clear_spec' I hZ
    refine ⟨s', false, ?_, ?_⟩
    · rw [h2, ok_bind]; dsimp only; rw [if_neg (by simp)]; exact e
    · have : Big.usub K.lim X.ws Y.ws = [0] := by unfold Big.usub; rw [h1, if_neg (by simp)]
      rw [this]; exact P
  · obtain ⟨rx, hx, ax⟩ := R.hold I hz.obj hp hX
    obtain ⟨ry, hy, ay⟩ := R.hold I hz.obj hp hY
    have cx := R.cases hx.obj
    have cy := R.cases hy.obj
    have lrx : X.ws.length ≤ rx.size := by
      rcases ax with ⟨_, rfl⟩ | ⟨_, _, _, h⟩
      · rw [R.osize]
      · exact h
    obtain ⟨a, ha⟩ : ∃ a, a = subN (X.ws.take Y.ws.length) Y.ws := ⟨_, rfl⟩
    have htl : (X.ws.take Y.ws.length).length = Y.ws.length := by rw [List.length_take]; omega
    have hal : a.1.length = Y.ws.length := by rw [ha, subN_length _ _ htl, htl]
    have e1 : mSubN o1.data rx.data ry.data Y.ws.length s1.mem.heap = .ok (s1.mem.heap.store o1.data a.1, a.2) := by
      have := mSubN_spec (h := s1.mem.heap) (z := o1.data) (x := rx.data) (y := ry.data) (xs := X.ws.take Y.ws.length)
        (ys := Y.ws) htl (hx.has.take _) hy.has (by rw [htl]; exact room_mono R.room (by omega)) (up_of cx) (up_of cy)
      rw [htl, ← ha] at this
      exact this
    obtain ⟨g, hg⟩ : ∃ g, g = if X.ws.length > Y.ws.length then (subWord (X.ws.drop Y.ws.length) a.2).1 else [] := ⟨_, rfl⟩
    have hgl : g.length = X.ws.length - Y.ws.length := by
      rw [hg]
      split
      · rw [subWord_length, List.length_drop]
      · simp; omega
    obtain ⟨f1, f2⟩ := R.finish (a.1 ++ g) (by rw [List.length_append, hal, hgl]; omega) hp
    refine ⟨(s1.withHeap (s1.mem.heap.store o1.data (a.1 ++ g))).set z (Big.trim (s1.neg z) (a.1 ++ g)),
      (Big.trim (s1.neg z) (a.1 ++ g)).neg, ?_, ?_⟩
    · rw [h2, ok_bind]
      dsimp only
      rw [if_pos rfl, elem_ok R.obj (by rw [R.osize]; omega), ok_bind, add_zero, hx.elem, ok_bind, hy.elem, ok_bind, e1,
        ok_bind]
      dsimp only
      by_cases hgt : X.ws.length > Y.ws.length
      · rw [if_pos hgt]
        rw [if_pos hgt] at hg
        rw [elem_ok R.obj (by rw [R.osize]; omega), ok_bind, elem_ok hx.obj (by omega), ok_bind]
        have hdl : (X.ws.drop Y.ws.length).length = X.ws.length - Y.ws.length := List.length_drop
        rw [← hdl]
        have hroom : (s1.mem.heap.store o1.data a.1).room (o1.data.add Y.ws.length) (X.ws.drop Y.ws.length).length = true := by
          rw [room_len (store_len _ _ _)]; exact room_add R.room (by rw [hdl]; omega)
        have hxd : Has (s1.mem.heap.store o1.data a.1) (rx.data.add Y.ws.length) (X.ws.drop Y.ws.length) := by
          rcases cx with c | c
          · rw [c, ← hal]
            have := hx.has.drop_store (vs := a.1) (by omega)
            rw [c] at this
            exact this
          · exact (hx.has.drop _ hle).store_ne (by simpa [add_b] using c)
        refine (copy_unless hxd hroom (by
          rcases cx with c | c
          · left; rw [c]
          · right; simpa [add_b] using c) _).trans ?_
        have hh : Has ((s1.mem.heap.store o1.data a.1).store (o1.data.add Y.ws.length) (X.ws.drop Y.ws.length))
            (o1.data.add Y.ws.length) (X.ws.drop Y.ws.length) := has_store _ _ _ hroom
        rw [mSubWord_spec a.2 hh, ok_bind]
        dsimp only
        rw [store_store _ _ _ _ (by rw [subWord_length]), ← hg, ← hal, store_append]
        exact f1
      · rw [if_neg hgt]
        rw [if_neg hgt] at hg
        rw [hg, List.append_nil] at f1 ⊢
        exact f1
    · have : Big.usub K.lim X.ws Y.ws = (Big.trim (s1.neg z) (a.1 ++ g)).ws := by
        unfold Big.usub
        dsimp only
        rw [h1, if_pos rfl, ← ha, ← hg]
        rfl
      rw [this]
      exact f2 _

/-! ### comparison, signed addition -/

theorem cmpN_snoc (xs : List Word) : ∀ (ys : List Word) (a b : Word), xs.length = ys.length →
    cmpN (xs ++ [a]) (ys ++ [b]) = if a ≠ b then (if a > b then 1 else -1) else cmpN xs ys := by
  induction xs with
  | nil =>
    intro ys a b h
    cases ys with
    | nil => simp [cmpN]
    | cons _ _ => simp at h
  | cons x xs ih =>
    intro ys a b h
    cases ys with
    | nil => simp at h
    | cons y ys =>
      simp only [List.cons_append, cmpN]
      rw [ih ys a b (by simpa using h)]
      by_cases hab : a ≠ b
      · rw [if_pos hab]
        by_cases hgt : a > b
        · rw [if_pos hgt, if_pos hab, if_pos (by decide)]
        · rw [if_neg hgt, if_pos hab, if_pos (by decide)]
      · rw [if_neg hab, if_neg hab]

theorem cmpGo_spec (h : Heap) (x y : Ptr) (xs : List Word) : ∀ ys : List Word, xs.length = ys.length → Has h x xs →
    Has h y ys → BigSt.cmpGo h x y xs.length = .ok (cmpN xs ys) := by
  induction xs using List.reverseRecOn with
  | nil =>
    intro ys hl _ _
    cases ys with
    | nil => rfl
    | cons _ _ => simp at hl
  | append_singleton xs a ih =>
    intro ys hl hx hy
    rcases List.eq_nil_or_concat ys with h0 | ⟨ys', b, rfl⟩
    · subst h0; simp at hl
    · rw [List.concat_eq_append] at *
      have hl' : xs.length = ys'.length := by simpa using hl
      rw [List.length_append, List.length_singleton]
      simp only [BigSt.cmpGo]
      rw [hx.get xs.length (by simp), ok_bind]
      have hg := hy.get xs.length (by simp [hl'])
      rw [hg, ok_bind]
      have e1 : (xs ++ [a])[xs.length]'(by simp) = a := by simp
      have e2 : (ys' ++ [b])[xs.length]'(by simp [hl']) = b := by simp [hl']
      rw [e1, e2, cmpN_snoc xs ys' a b hl']
      have ih' := ih ys' hl' (by have := hx.take xs.length; rwa [List.take_left' rfl] at this) (by
        have := hy.take xs.length; rwa [List.take_left' hl'.symm] at this)
      by_cases hab : a ≠ b
      · rw [if_pos hab, if_pos hab]
      · rw [if_neg hab, if_neg hab, ih']

theorem ucompare_spec {s : BigSt} {x y : Nat} {X Y : Big} (hx : Rep s x X) (hy : Rep s y Y) :
    s.ucompare x y = .ok (Big.ucompare X.ws Y.ws) := by
  obtain ⟨rx, hx, _⟩ := hx
  obtain ⟨ry, hy, _⟩ := hy
  unfold BigSt.ucompare Big.ucompare
  rw [hx.size, hy.size]
  by_cases he : X.ws.length = Y.ws.length
  · rw [if_pos he, if_pos he, hx.elem, ok_bind, hy.elem, ok_bind, cmpGo_spec _ _ _ _ _ he hx.has hy.has]
  · rw [if_neg he, if_neg he]

theorem addSigned_spec {K : Kind} {s : BigSt} {z x y : Nat} {X Y Z : Big} (I : Inv K s.mem) (hx : Rep s x X)
    (hy : Rep s y Y) (hz : Rep s z Z) (a b : Bool)
    (safe : (a ^^ b) = false → z = x ∨ z = y → Roomy s z (max X.ws.length Y.ws.length + 1)) :
    ∃ s', s.addSigned K z x a y b = .ok s' ∧ Post K s s' z (Big.addSigned K.lim X a Y b) := by
  unfold BigSt.addSigned Big.addSigned
  by_cases hab : (a ^^ b) = false
  · rw [if_pos hab, if_pos hab]
    obtain ⟨s', c, e, P⟩ := uadd_spec I hx hy hz (safe hab)
    exact ⟨s'.setNeg z a, by rw [e]; rfl, P.setNeg a⟩
  · rw [if_neg hab, if_neg hab, ucompare_spec hx hy, ok_bind]
    by_cases hc : Big.ucompare X.ws Y.ws ≥ 0
    · rw [if_pos hc, if_pos hc]
      obtain ⟨s', c, e, P⟩ := usub_spec I hx hy hz (by
        unfold Big.ucompare at hc
        by_cases h1 : X.ws.length = Y.ws.length
        · omega
        · rw [if_neg h1] at hc
          by_cases h2 : X.ws.length > Y.ws.length
          · omega
          · rw [if_neg h2] at hc; exact absurd hc (by decide))
      exact ⟨s'.setNeg z a, by rw [e]; rfl, P.setNeg a⟩
    · rw [if_neg hc, if_neg hc]
      obtain ⟨s', c, e, P⟩ := usub_spec I hy hx hz (by
        unfold Big.ucompare at hc
        by_cases h1 : X.ws.length = Y.ws.length
        · omega
        · rw [if_neg h1] at hc
          by_cases h2 : X.ws.length > Y.ws.length
          · rw [if_pos h2] at hc; exact absurd (by decide) hc
          · omega)
      exact ⟨s'.setNeg z b, by rw [e]; rfl, P.setNeg b⟩

theorem Rep.neg_eq {s : BigSt} {i : Nat} {X : Big} (H : Rep s i X) : s.neg i = X.neg := by
  obtain ⟨_, h, _⟩ := H; exact h.neg

theorem Rep.size_eq {s : BigSt} {i : Nat} {X : Big} (H : Rep s i X) : s.size i = X.ws.length := by
  obtain ⟨_, h, _⟩ := H; exact h.size

theorem Rep.pos {s : BigSt} {i : Nat} {X : Big} (H : Rep s i X) : 0 < X.ws.length := by
  obtain ⟨_, h, _⟩ := H; exact List.length_pos_iff.2 h.ne

theorem add_spec {K : Kind} {s : BigSt} {z x y : Nat} {X Y Z : Big} (I : Inv K s.mem) (hx : Rep s x X)
    (hy : Rep s y Y) (hz : Rep s z Z)
    (safe : X.neg = Y.neg → z = x ∨ z = y → Roomy s z (max X.ws.length Y.ws.length + 1)) :
    ∃ s', s.add K z x y = .ok s' ∧ Post K s s' z (Big.add K.lim X Y) := by
  unfold BigSt.add Big.add
  rw [hx.neg_eq, hy.neg_eq]
  refine addSigned_spec I hx hy hz _ _ ?_
  intro h; exact safe (by cases hX : X.neg <;> cases hY : Y.neg <;> simp_all)

theorem sub_spec {K : Kind} {s : BigSt} {z x y : Nat} {X Y Z : Big} (I : Inv K s.mem) (hx : Rep s x X)
    (hy : Rep s y Y) (hz : Rep s z Z)
    (safe : X.neg ≠ Y.neg → z = x ∨ z = y → Roomy s z (max X.ws.length Y.ws.length + 1)) :
    ∃ s', s.sub K z x y = .ok s' ∧ Post K s s' z (Big.sub K.lim X Y) := by
  unfold BigSt.sub Big.sub
  rw [hx.neg_eq, hy.neg_eq]
  refine addSigned_spec I hx hy hz _ _ ?_
  intro h; exact safe (by cases hX : X.neg <;> cases hY : Y.neg <;> simp_all)

/-- The same value: equal words, and equal signs unless the value is zero (`-0`). -/
def Same (A B : Big) : Prop := A.ws = B.ws ∧ (A.neg = B.neg ∨ A.ws = [0])

theorem trim_neg_or (n : Bool) (ws : List Word) (h : ws ≠ []) : (Big.trim n ws).neg = n ∨ (Big.trim n ws).ws = [0] := by
  unfold Big.trim
  dsimp only
  by_cases hc : Big.trimGo ws (ws.length - 1) = 1 ∧ ws.head? = some 0
  · right
    rw [hc.1]
    cases ws with
    | nil => exact absurd rfl h
    | cons a t =>
      have := hc.2
      simp only [List.head?_cons, Option.some.injEq] at this
      rw [this]; rfl
  · left; rw [if_neg hc]

theorem usub1R_neg (K : Kind) (X : Big) (w : Word) (h : X.ws ≠ []) :
    (usub1R K X X.ws w).neg = X.neg ∨ (usub1R K X X.ws w).ws = [0] := by
  unfold usub1R
  split
  · refine trim_neg_or _ _ ?_
    intro e
    have := subWord_length X.ws w
    rw [e] at this
    exact h (List.length_eq_zero_iff.1 this.symm)
  · right; rfl

theorem addu1Go_spec {K : Kind} {s : BigSt} {z x : Nat} {X Z : Big} (I : Inv K s.mem) (hx : Rep s x X)
    (hz : Rep s z Z) (w : Word) (b : Bool) :
    ∃ s' R, s.addu1Go K z x w b = .ok s' ∧ Post K s s' z R ∧ Same R (Big.addu1Go K.lim X w b) := by
  unfold BigSt.addu1Go Big.addu1Go
  rw [hx.neg_eq, hx.size_eq]
  by_cases hab : (X.neg ^^ b) = false
  · rw [if_pos hab, if_pos hab]
    obtain ⟨s', e, P⟩ := uadd1_spec I hx hz w
    refine ⟨s'.setNeg z b, _, by rw [e]; rfl, P.setNeg b, ?_⟩
    exact ⟨uadd1R_ws _ _ _ _, Or.inl rfl⟩
  · rw [if_neg hab, if_neg hab]
    have h0 : s.load x 0 = .ok (X.ws.headD 0) := by
      obtain ⟨rx, h, _⟩ := hx
      have hp := List.length_pos_iff.2 h.ne
      rw [load_ok h.obj h.pos h.has hp]
      congr 1
      exact (by
        have : ∀ (l : List Word) (hl : 0 < l.length), l[0] = l.headD 0 := by
          intro l hl
          cases l with
          | nil => simp at hl
          | cons a t => rfl
        exact this X.ws hp)
    rw [h0, ok_bind]
    by_cases hc : X.ws.length > 1 ∨ X.ws.headD 0 ≥ w
    · rw [if_pos hc, if_pos hc]
      obtain ⟨s', e, P⟩ := usub1_spec I hx hz w
      rw [e, ok_bind]
      by_cases hzx : x = z
      · subst hzx
        have hXZ : (usub1R K Z X.ws w) = usub1R K X X.ws w := by
          obtain ⟨o, h1, _⟩ := hx
          obtain ⟨o', h2, _⟩ := hz
          unfold usub1R
          rw [← h1.neg, ← h2.neg]
        rw [hXZ] at P
        refine ⟨_, _, rfl, P.setNeg (s'.neg x), usub1R_ws _ _ _ _, ?_⟩
        have hn : s'.neg x = (usub1R K X X.ws w).neg := Rep.neg_eq P.res
        rw [hn]
        have hxne : X.ws ≠ [] := by obtain ⟨_, h, _⟩ := hx; exact h.ne
        exact usub1R_neg K X w hxne
      · refine ⟨_, _, rfl, P.setNeg (s'.neg x), usub1R_ws _ _ _ _, Or.inl ?_⟩
        show s'.neg x = X.neg
        exact (P.frame x X hzx hx).neg_eq
    · rw [if_neg hc, if_neg hc]
      obtain ⟨s', e, P⟩ := assignWord_spec I hz (w - X.ws.headD 0)
      refine ⟨s'.setNeg z b, _, by rw [e]; rfl, P.setNeg b, rfl, Or.inl rfl⟩

/-! ### Multiplication -/

theorem Resized.finishNeg {K s z o n s1 o1} (R : Resized K s z o n s1 o1) (ws : List Word) (hw : ws.length = n)
    (hn : 0 < n) (b : Bool) :
    ∃ s', ((s1.withHeap (s1.mem.heap.store o1.data ws)).setNeg z b).trim z n = .ok s' ∧ Post K s s' z (Big.trim b ws) := by
  have hne : ws ≠ [] := by intro e; rw [e] at hw; simp at hw; omega
  have hh : Has (s1.mem.heap.store o1.data ws) o1.data ws := has_store _ _ _ (by rw [hw]; exact R.room)
  have h1 := trim_spec (s := (s1.withHeap (s1.mem.heap.store o1.data ws)).setNeg z b) (z := z) (o := o1) (ws := ws) R.obj hh
    (by rw [R.osize, hw]) hne
  rw [hw] at h1
  refine ⟨_, h1, ?_⟩
  have e1 : ((s1.withHeap (s1.mem.heap.store o1.data ws)).setNeg z b).neg z = b := upd_same _ _ _
  rw [e1]
  have e2 : ((s1.withHeap (s1.mem.heap.store o1.data ws)).setNeg z b).set z (Big.trim b ws) =
      (s1.withHeap (s1.mem.heap.store o1.data ws)).set z (Big.trim b ws) := by
    unfold BigSt.set BigSt.setNeg
    simp only [upd_upd]
  rw [e2]
  refine R.post _ (Inv.store (h := s1.mem.heap) R.inv _ _) ?_ _ (trim_ne (neg := b) hne) ?_ ?_
  · intro i r hi hr
    exact store_agree _ _ _ _ (data_ne R.inv hr R.obj hi)
  · rw [← hw]; exact trim_le (neg := b) hne
  · exact hh.take _

theorem mulu1_spec {K : Kind} {s : BigSt} {z x : Nat} {X Z : Big} (I : Inv K s.mem) (hx : Rep s x X)
    (hz : Rep s z Z) (w : Word) :
    ∃ s', s.mulu1 K z x w = .ok s' ∧ Post K s s' z (Big.mulu1 K.lim X w) := by
  have hX := hx
  have hZ := hz
  obtain ⟨o, hz, lz⟩ := hz
  unfold BigSt.mulu1 Big.mulu1
  dsimp only
  rw [hx.size_eq]
  rcases big_resize I hz.obj (X.ws.length + 1) with ⟨h1, h2⟩ | ⟨h1, s1, o1, h2, R⟩
  · obtain ⟨s', e, P⟩ := clear_spec' I hZ
    refine ⟨s', ?_, ?_⟩
    · rw [h2, ok_bind]; dsimp only; rw [if_neg (by simp)]; exact e
    · rw [h1, if_neg (by simp)]; exact P
  · obtain ⟨rx, hx, _⟩ := R.hold I hz.obj (by omega) hX
    have cx := R.cases hx.obj
    have hroom : s1.mem.heap.room o1.data X.ws.length = true := room_mono R.room (by omega)
    have al := mulWordN_length X.ws w
    obtain ⟨s', f1, f2⟩ := R.finishNeg ((mulWordN X.ws w).1 ++ [(mulWordN X.ws w).2]) (by simp [al]) (by omega) X.neg
    refine ⟨s', ?_, ?_⟩
    · rw [h2, ok_bind]
      dsimp only
      rw [if_pos rfl, elem_ok R.obj (by rw [R.osize]; omega), ok_bind, add_zero, hx.elem, ok_bind,
        mMulWordN_spec w hx.has hroom (up_of cx), ok_bind]
      dsimp only
      rw [R.store_top _ al, ok_bind]
      have : (s1.withHeap (s1.mem.heap.store o1.data ((mulWordN X.ws w).1 ++ [(mulWordN X.ws w).2]))).neg x = X.neg := hx.neg
      rw [this]
      exact f1
    · rw [h1, if_pos rfl]; exact f2

/-- A memory with additional blocks. -/
structure Ext (h h' : Heap) : Prop where
  fresh : ∀ b, h'.next ≤ b → h'.len b = none
  le : h.next ≤ h'.next
  agree : ∀ b, b < h.next → Agree h h' b

theorem Ext.refl {h : Heap} (hf : ∀ b, h.next ≤ b → h.len b = none) : Ext h h :=
  ⟨hf, Nat.le_refl _, fun _ _ => Agree.rfl' _ _⟩

theorem Ext.trans {h h' h'' : Heap} (a : Ext h h') (b : Ext h' h'') : Ext h h'' :=
  ⟨b.fresh, Nat.le_trans a.le b.le, fun c hc => (a.agree c hc).trans (b.agree c (Nat.lt_of_lt_of_le hc a.le))⟩

theorem has_lt {h : Heap} (hf : ∀ b, h.next ≤ b → h.len b = none) {p : Ptr} {n : Nat} (hr : h.room p n = true) :
    p.b < h.next := by
  rcases Nat.lt_or_ge p.b h.next with h1 | h1
  · exact h1
  · unfold Heap.room at hr; rw [hf _ h1] at hr; cases hr

/-- The local copy of an operand that is the result. -/
theorem local_copy {h : Heap} {z x : Ptr} {xs : List Word} (hf : ∀ b, h.next ≤ b → h.len b = none) (hx : Has h x xs)
    {n : Nat} (hz : h.room z n = true) (c : x = z ∨ x.b ≠ z.b) :
    ∃ h' x', Ext h h' ∧ Has h' x' xs ∧ x'.b ≠ z.b ∧
      ∀ {β : Type} (k : Heap × Ptr → Res β), (if z = x then
          mCopyN ⟨(h.alloc xs.length false none).2, 0⟩ x xs.length (h.alloc xs.length false none).1 >>= fun h2 =>
            pure (h2, (⟨(h.alloc xs.length false none).2, 0⟩ : Ptr)) >>= k
        else pure (h, x) >>= k) = k (h', x') := by
  rcases c with c | c
  · have hzl := has_lt hf hz
    obtain ⟨h1, hh1⟩ : ∃ h1, h1 = (h.alloc xs.length false none).1 := ⟨_, rfl⟩
    have hp : (h.alloc xs.length false none).2 = h.next := rfl
    have hA : ∀ b, b < h.next → Agree h h1 b := by
      intro b hb; rw [hh1]; exact alloc_agree _ _ _ _ _ (by omega)
    have hx1 : Has h1 x xs := hx.agree (hA _ (by rw [c]; exact hzl))
    have hr1 : h1.room ⟨h.next, 0⟩ xs.length = true := by
      unfold Heap.room
      rw [hh1]
      simp only [Heap.alloc, upd_same]
      simp
    have hcp := mCopyN_spec (z := ⟨h.next, 0⟩) hx1 hr1 (Or.inl (by rw [c]; show z.b ≠ h.next; omega))
    refine ⟨h1.store ⟨h.next, 0⟩ xs, ⟨h.next, 0⟩, ⟨?_, ?_, ?_⟩, has_store _ _ _ hr1, ?_, ?_⟩
    · intro b hb
      show h1.len b = none
      have hb' : h1.next ≤ b := hb
      rw [hh1] at hb' ⊢
      exact alloc_fresh hf _ _ _ b hb'
    · show h.next ≤ h1.next
      rw [hh1]; exact Nat.le_succ _
    · intro b hb
      refine (hA b hb).trans (store_agree _ _ _ _ ?_)
      show b ≠ h.next
      omega
    · show h.next ≠ z.b
      omega
    · intro β k
      rw [if_pos c.symm, hp, ← hh1, hcp, ok_bind]
      rfl
  · refine ⟨h, x, Ext.refl hf, hx, c, ?_⟩
    intro β k
    rw [if_neg (by intro e; exact c (by rw [e]))]
    rfl

theorem mulRows_length (xs : List Word) (hxs : xs ≠ []) (ys : List Word) : ∀ zs : List Word, zs.length = xs.length →
    (mulRows xs ys zs).length = xs.length + ys.length := by
  induction ys with
  | nil => intro zs h; simp [mulRows, h]
  | cons v ys ih =>
    intro zs h
    have hl := mulWordAddN_length zs xs v h.symm
    simp only [mulRows]
    cases hq : (mulWordAddN zs xs v).1 with
    | nil => rw [hq] at hl; simp at hl; exact absurd (List.length_eq_zero_iff.1 hl.symm) hxs
    | cons a t =>
      rw [hq] at hl
      simp only [List.length_cons] at hl ⊢
      rw [ih _ (by rw [List.length_append, List.length_singleton]; exact hl)]
      omega

theorem mulNMge_length (xs ys : List Word) (hx : xs ≠ []) (hy : ys ≠ []) :
    (mulNMge xs ys).length = xs.length + ys.length := by
  cases ys with
  | nil => exact absurd rfl hy
  | cons y0 ys =>
    simp only [mulNMge]
    have hl := mulWordN_length xs y0
    cases hq : (mulWordN xs y0).1 with
    | nil => rw [hq] at hl; simp at hl; exact absurd (List.length_eq_zero_iff.1 hl.symm) hx
    | cons a t =>
      rw [hq] at hl
      simp only [List.length_cons] at hl ⊢
      rw [mulRows_length xs hx _ _ (by rw [List.length_append, List.length_singleton]; exact hl)]
      omega

theorem mulNM_length (xs ys : List Word) (hx : xs ≠ []) (hy : ys ≠ []) :
    (mulNM xs ys).length = xs.length + ys.length := by
  unfold mulNM
  split
  · rw [mulNMge_length _ _ hy hx]; omega
  · exact mulNMge_length _ _ hx hy

theorem mMulNMge_spec {h : Heap} {z x y : Ptr} {xs ys : List Word} (hf : ∀ b, h.next ≤ b → h.len b = none)
    (hx : Has h x xs) (hy : Has h y ys) (hxn : xs ≠ []) (hyn : ys ≠ [])
    (hz : h.room z (xs.length + ys.length) = true) (cx : x = z ∨ x.b ≠ z.b) (cy : y = z ∨ y.b ≠ z.b) :
    ∃ h', Ext h h' ∧ mMulNMge z x xs.length y ys.length h = .ok (h'.store z (mulNMge xs ys)) := by
  obtain ⟨h1, x1, E1, hx1, nx1, k1⟩ := local_copy hf hx hz cx
  have hzl := has_lt hf hz
  have hyl := has_lt hf hy.1
  have hz1 : h1.room z (xs.length + ys.length) = true := by
    have := E1.agree z.b hzl
    unfold Heap.room at *
    rw [this.1]; exact hz
  have hy1 : Has h1 y ys := hy.agree (E1.agree _ hyl)
  obtain ⟨h2, y2, E2, hy2, ny2, k2⟩ := local_copy E1.fresh hy1 hz1 cy
  have hzl1 : z.b < h1.next := Nat.lt_of_lt_of_le hzl E1.le
  have hz2 : h2.room z (xs.length + ys.length) = true := by
    have := E2.agree z.b hzl1
    unfold Heap.room at *
    rw [this.1]; exact hz1
  have hx2 : Has h2 x1 xs := hx1.agree (E2.agree _ (has_lt E1.fresh hx1.1))
  refine ⟨h2, E1.trans E2, ?_⟩
  unfold mMulNMge
  refine (k1 _).trans ?_
  dsimp only
  refine (k2 _).trans ?_
  dsimp only
  cases ys with
  | nil => exact absurd rfl hyn
  | cons y0 ys =>
    have al := mulWordN_length xs y0
    obtain ⟨m, hm⟩ : ∃ m, m = mulWordN xs y0 := ⟨_, rfl⟩
    rw [← hm] at al
    rw [read_has hy2, ok_bind, mMulWordN_spec y0 hx2 (room_mono hz2 (by omega)) (Or.inl nx1), ok_bind, ← hm]
    dsimp only
    rw [write_ok (n := 1) (by
      rw [room_len (store_len _ _ _)]
      exact room_add hz2 (by rw [List.length_cons]; omega)) (by omega), ok_bind, store_one, ← al, store_append]
    simp only [mulNMge, ← hm]
    cases hq : m.1 with
    | nil => rw [hq] at al; simp at al; exact absurd (List.length_eq_zero_iff.1 al.symm) hxn
    | cons a t =>
      rw [hq] at al
      rw [al, List.length_cons, Nat.add_sub_cancel]
      have htl : (t ++ [m.2]).length = xs.length := by
        rw [List.length_append, List.length_singleton, ← al, List.length_cons]
      have hst : Has (h2.store z (a :: t ++ [m.2])) z (a :: (t ++ [m.2])) := has_store _ _ _ (by
        rw [List.cons_append, List.length_cons, htl]
        exact room_mono hz2 (by rw [List.length_cons]; omega))
      have hrow := mMulRows_spec x1 xs hxn ys (z.add 1) (y2.add 1) (t ++ [m.2]) (h2.store z (a :: t ++ [m.2])) htl
        (hx2.store_ne nx1) (hy2.tail.store_ne ny2) hst.tail (by
          rw [room_len (store_len _ _ _)]
          exact room_add hz2 (by rw [List.length_cons]; omega)) nx1 ny2
      rw [hrow]
      rw [List.cons_append, ← store_cons h2 z a, ← store_cons h2 z a, store_store]
      rw [mulRows_length xs hxn _ _ htl, htl]
      omega

theorem mMulNM_spec {h : Heap} {z x y : Ptr} {xs ys : List Word} (hf : ∀ b, h.next ≤ b → h.len b = none)
    (hx : Has h x xs) (hy : Has h y ys) (hxn : xs ≠ []) (hyn : ys ≠ [])
    (hz : h.room z (xs.length + ys.length) = true) (cx : x = z ∨ x.b ≠ z.b) (cy : y = z ∨ y.b ≠ z.b) :
    ∃ h', Ext h h' ∧ mMulNM z x xs.length y ys.length h = .ok (h'.store z (mulNM xs ys)) := by
  unfold mMulNM mulNM
  by_cases hgt : ys.length > xs.length
  · rw [if_pos hgt, if_pos hgt]
    exact mMulNMge_spec hf hy hx hyn hxn (by rw [Nat.add_comm]; exact hz) cy cx
  · rw [if_neg hgt, if_neg hgt]
    exact mMulNMge_spec hf hx hy hxn hyn hz cx cy

theorem Inv.ext {K h h' objs} (I : Inv K ⟨h, objs⟩) (E : Ext h h') : Inv K ⟨h', objs⟩ :=
  (I.mono E.fresh (fun j r hr => by
    have := (I.obj j r hr).lt I.fresh
    exact ⟨E.agree _ this.1, fun b hb => E.agree _ (this.2 b hb)⟩)).1

theorem mul_spec_full {K : Kind} {s : BigSt} {z x y : Nat} {X Y Z : Big} (I : Inv K s.mem) (hx : Rep s x X)
    (hy : Rep s y Y) (hz : Rep s z Z) :
    match Big.mul? K.lim X Y with
    | none => s.mul K z x y = .ok (s, false)
    | some P => ∃ s' R, s.mul K z x y = .ok (s', true) ∧ Post K s s' z R ∧ Same R P ∧ (z ≠ x → z ≠ y → R.neg = P.neg) := by
  have hX := hx
  have hY := hy
  have hZ := hz
  obtain ⟨o, hz, lz⟩ := hz
  unfold BigSt.mul Big.mul?
  dsimp only
  rw [hx.size_eq, hy.size_eq]
  have hp : 0 < X.ws.length + Y.ws.length := by have := hx.pos; omega
  rcases big_resize I hz.obj (X.ws.length + Y.ws.length) with ⟨h1, h2⟩ | ⟨h1, s1, o1, h2, R⟩
  · rw [h1]
    simp only [Bool.false_eq_true, if_false]
    rw [h2, ok_bind]
    rfl
  · rw [h1]
    simp only [if_true]
    obtain ⟨rx, hx, _⟩ := R.hold I hz.obj hp hX
    obtain ⟨ry, hy, _⟩ := R.hold I hz.obj hp hY
    obtain ⟨h', E, em⟩ := mMulNM_spec R.inv.fresh hx.has hy.has hx.ne hy.ne R.room (R.cases hx.obj) (R.cases hy.obj)
    have hml := mulNM_length X.ws Y.ws hx.ne hy.ne
    have hne : mulNM X.ws Y.ws ≠ [] := by intro e; rw [e] at hml; simp at hml; omega
    have hrz : h'.room o1.data (mulNM X.ws Y.ws).length = true := by
      have h3 := E.agree o1.data.b (has_lt R.inv.fresh R.room)
      have h4 := R.room
      unfold Heap.room at *
      rw [h3.1, hml]; exact h4
    have hh := has_store h' o1.data (mulNM X.ws Y.ws) hrz
    have ht := trim_spec (s := s1.withHeap (h'.store o1.data (mulNM X.ws Y.ws))) (z := z) (o := o1)
      (ws := mulNM X.ws Y.ws) R.obj hh (by rw [R.osize, hml]) hne
    rw [hml] at ht
    obtain ⟨t, htt⟩ : ∃ t, t = (s1.withHeap (h'.store o1.data (mulNM X.ws Y.ws))).set z
      (Big.trim ((s1.withHeap (h'.store o1.data (mulNM X.ws Y.ws))).neg z) (mulNM X.ws Y.ws)) := ⟨_, rfl⟩
    have nz : (s1.withHeap (h'.store o1.data (mulNM X.ws Y.ws))).neg z = Z.neg := by
      show s1.neg z = _
      rw [R.sneg]; exact hz.neg
    have P : Post K s t z (Big.trim Z.neg (mulNM X.ws Y.ws)) := by
      rw [htt, nz]
      refine R.post _ (Inv.store (Inv.ext (h := s1.mem.heap) R.inv E) _ _) ?_ _ (trim_ne hne) ?_ (hh.take _)
      · intro i r hi hr
        have hne' := data_ne R.inv hr R.obj hi
        have hl := has_lt R.inv.fresh (R.inv.obj i r hr).room_cap
        exact (E.agree _ hl).trans (store_agree _ _ _ _ hne')
      · rw [← hml]; exact trim_le hne
    refine ⟨t.setNeg z (t.neg x ^^ t.neg y), ⟨t.neg x ^^ t.neg y, (Big.trim Z.neg (mulNM X.ws Y.ws)).ws⟩, ?_, P.setNeg _, ⟨rfl, ?_⟩, ?_⟩
    · rw [h2, ok_bind]
      dsimp only
      rw [if_pos rfl, elem_ok R.obj (by rw [R.osize]; omega), ok_bind, add_zero, hx.elem, ok_bind, hy.elem, ok_bind, em,
        ok_bind, ht, ok_bind, ← htt]
    · show (t.neg x ^^ t.neg y) = (X.neg ^^ Y.neg) ∨ (Big.trim Z.neg (mulNM X.ws Y.ws)).ws = [0]
      have nx : t.neg x = X.neg ∨ (Big.trim Z.neg (mulNM X.ws Y.ws)).ws = [0] := by
        by_cases e : x = z
        · subst e
          rw [P.res.neg_eq]
          have : Z.neg = X.neg := by rw [← hZ.neg_eq, hX.neg_eq]
          rw [← this]
          exact trim_neg_or _ _ hne
        · left; exact (P.frame x X e hX).neg_eq
      have ny : t.neg y = Y.neg ∨ (Big.trim Z.neg (mulNM X.ws Y.ws)).ws = [0] := by
        by_cases e : y = z
        · subst e
          rw [P.res.neg_eq]
          have : Z.neg = Y.neg := by rw [← hZ.neg_eq, hY.neg_eq]
          rw [← this]
          exact trim_neg_or _ _ hne
        · left; exact (P.frame y Y e hY).neg_eq
      rcases nx with nx | nx
      · rcases ny with ny | ny
        · left; rw [nx, ny]
        · exact Or.inr ny
      · exact Or.inr nx
    · intro e1 e2
      show (t.neg x ^^ t.neg y) = (X.neg ^^ Y.neg)
      rw [(P.frame x X (Ne.symm e1) hX).neg_eq, (P.frame y Y (Ne.symm e2) hY).neg_eq]

theorem mul_spec {K : Kind} {s : BigSt} {z x y : Nat} {X Y Z : Big} (I : Inv K s.mem) (hx : Rep s x X)
    (hy : Rep s y Y) (hz : Rep s z Z) :
    match Big.mul? K.lim X Y with
    | none => s.mul K z x y = .ok (s, false)
    | some P => ∃ s' R, s.mul K z x y = .ok (s', true) ∧ Post K s s' z R ∧ Same R P := by
  have h := mul_spec_full I hx hy hz
  cases hm : Big.mul? K.lim X Y with
  | none => rw [hm] at h; exact h
  | some P =>
    rw [hm] at h
    obtain ⟨s', R, e, P1, S, _⟩ := h
    exact ⟨s', R, e, P1, S⟩

/-- Into an object that is no operand: exactly the product. -/
theorem mul_fresh {K : Kind} {s : BigSt} {z x y : Nat} {X Y Z : Big} (I : Inv K s.mem) (hx : Rep s x X)
    (hy : Rep s y Y) (hz : Rep s z Z) (e1 : z ≠ x) (e2 : z ≠ y) :
    match Big.mul? K.lim X Y with
    | none => s.mul K z x y = .ok (s, false)
    | some P => ∃ s', s.mul K z x y = .ok (s', true) ∧ Post K s s' z P := by
  have h := mul_spec_full I hx hy hz
  cases hm : Big.mul? K.lim X Y with
  | none => rw [hm] at h; exact h
  | some P =>
    rw [hm] at h
    obtain ⟨s', R, e, P1, S, h3⟩ := h
    refine ⟨s', e, ?_⟩
    have : R = P := by
      obtain ⟨n, w⟩ := R
      obtain ⟨n', w'⟩ := P
      have h4 := h3 e1 e2
      have h5 := S.1
      simp only at h4 h5
      rw [h4, h5]
    rw [← this]; exact P1

/-! ### Shifts and division by a word -/

theorem Rep.fits {K s z Z} (I : Inv K s.mem) (H : Rep s z Z) {n : Nat} (hn : n ≤ Z.ws.length) : Cap.fits K.lim n = true := by
  obtain ⟨o, h, hl⟩ := H
  rw [lim_fits]
  have hO := I.obj z o h.obj
  cases hb : o.db with
  | none => right; have := (hO.hn hb).1; omega
  | some b => left; exact (hO.hd b hb).1

theorem shiftLeft_length (xs : List Word) (n : Nat) (h : xs ≠ []) : (shiftLeft xs n).length = xs.length + (n + 31) / 32 := by
  unfold shiftLeft
  dsimp only
  by_cases hr : n % 32 = 0
  · rw [if_pos hr, List.length_append, List.length_replicate]; omega
  · have := shlGo_length (n % 32) xs 0
    rw [if_neg hr]
    simp only [List.length_append, List.length_replicate, List.length_singleton, shlN, this]
    omega

theorem shrN_length (b : Nat) (xs : List Word) : (shrN b xs).length = xs.length := by
  induction xs with
  | nil => rfl
  | cons a t ih =>
    cases t with
    | nil => rfl
    | cons c t => simp only [shrN, List.length_cons] at ih ⊢; rw [ih]

theorem shiftRight_length (xs : List Word) (n : Nat) : (shiftRight xs n).length = xs.length - n / 32 := by
  unfold shiftRight
  dsimp only
  split
  · rw [List.length_drop]
  · rw [shrN_length, List.length_drop]

theorem write_fail {h : Heap} {p : Ptr} {w : Word} (hr : h.room p 1 = false) : h.write p w = .error .ub := by
  unfold Heap.write; rw [hr]; rfl

theorem shl_spec {K : Kind} {s : BigSt} {z x : Nat} {X Z : Big} (I : Inv K s.mem) (hx : Rep s x X)
    (hz : Rep s z Z) (n : Nat) :
    match Big.shl K.lim X n with
    | .error e => s.shl K z x n = .error e
    | .ok R => ∃ s', s.shl K z x n = .ok s' ∧ Post K s s' z R := by
  have hX := hx
  have hZ := hz
  obtain ⟨o, hz, lz⟩ := hz
  unfold BigSt.shl Big.shl
  dsimp only
  rw [hx.size_eq]
  have hp : 0 < X.ws.length + (n + 31) / 32 := by have := hx.pos; omega
  rcases big_resize I hz.obj (X.ws.length + (n + 31) / 32) with ⟨h1, h2⟩ | ⟨h1, s1, o1, h2, R⟩
  · rw [h1]
    simp only [Bool.false_eq_true, if_false]
    rw [h2, ok_bind]
    dsimp only
    -- the inline array is too small
    have hlim : ¬ (K.dyn = true ∨ X.ws.length + (n + 31) / 32 ≤ K.N) := by
      rw [← lim_fits, h1]; simp
    have hO := I.obj z o hz.obj
    have hdb : o.db = none := by
      cases hb : o.db with
      | none => rfl
      | some b => exact absurd (Or.inl (hO.hd b hb).1) hlim
    have hnoroom : ∀ k, K.N ≤ k → s.mem.heap.room (o.data.add k) 1 = false := by
      intro k hk
      unfold Heap.room
      have : (o.data.add k).b = o.sb := by simp only [Ptr.add, Flex.data, hdb, Option.getD_none]
      rw [this, hO.hs]
      simp only [Ptr.add, data_off, Nat.zero_add, decide_eq_false_iff_not]
      omega
    obtain ⟨rx, hx, lx⟩ := hx
    rw [hz.elem, ok_bind, hx.elem, ok_bind]
    rcases List.eq_nil_or_concat X.ws with h0 | ⟨ys, a, hys⟩
    · exact absurd h0 hx.ne
    · rw [List.concat_eq_append] at hys
      have hlen : X.ws.length = ys.length + 1 := by rw [hys]; simp
      have hget := hx.has.get ys.length (by omega)
      have hsp : ∀ {β : Type} (k : Heap → Res β), (mShiftLeft o.data rx.data n X.ws.length s.mem.heap >>= k) = .error .ub := by
        intro β k
        unfold mShiftLeft
        dsimp only
        by_cases hr : n % 32 = 0
        · rw [if_pos hr, hlen]
          simp only [mapDown1]
          rw [hget, ok_bind, add_add, write_fail (hnoroom _ (by omega))]
          rfl
        · rw [if_neg hr]
          by_cases hroom : s.mem.heap.room (o.data.add (n / 32)) X.ws.length = true
          · have c : Down (o.data.add (n / 32)) rx.data := Or.inr (by rw [add_off, data_off, data_off]; omega)
            rw [mShlN_spec (n % 32) hx.ne hx.has hroom c, ok_bind]
            dsimp only
            rw [write_fail (by rw [room_len (store_len _ _ _)]; exact hnoroom _ (by omega))]
            rfl
          · have hge : K.N ≤ n / 32 + ys.length := by
              rcases Nat.lt_or_ge (n / 32 + ys.length) K.N with h | h
              · exfalso
                apply hroom
                have hr := hO.room_cap
                unfold Flex.cap at hr
                rw [if_pos hdb] at hr
                exact room_add hr (by omega)
              · exact h
            unfold mShlN
            rw [hlen, Nat.add_sub_cancel, hget, ok_bind]
            have : ∀ w, mShlGo (n % 32) (o.data.add (n / 32)) rx.data ys.length w s.mem.heap = .error .ub := by
              intro w
              have hnr := hnoroom (n / 32 + ys.length) hge
              cases hyl : ys.length with
              | zero =>
                rw [hyl] at hnr
                simp only [mShlGo]
                exact write_fail hnr
              | succ m =>
                simp only [mShlGo]
                have hg2 := hx.has.get m (by omega)
                rw [hg2, ok_bind, add_add, write_fail (by rw [← hyl]; exact hnr)]
                rfl
            rw [this]
            rfl
      exact hsp _
  · rw [h1]
    simp only [if_true]
    obtain ⟨rx, hx, _⟩ := R.hold I hz.obj hp hX
    have hl := shiftLeft_length X.ws n hx.ne
    obtain ⟨s', f1, f2⟩ := R.finishNeg (shiftLeft X.ws n) hl hp X.neg
    refine ⟨s', ?_, f2⟩
    rw [h2, ok_bind]
    dsimp only
    have cx := R.cases hx.obj
    rw [elem_ok R.obj (by rw [R.osize]; omega), ok_bind, add_zero, hx.elem, ok_bind,
      mShiftLeft_spec n hx.ne hx.has R.room (by
        rcases cx with c | c
        · rw [c]; exact Or.inr (Nat.le_refl _)
        · exact Or.inl c), ok_bind]
    rw [hx.neg]
    exact f1

theorem shr_spec {K : Kind} {s : BigSt} {z x : Nat} {X Z : Big} (I : Inv K s.mem) (hx : Rep s x X)
    (hz : Rep s z Z) (n : Nat) :
    ∃ s', s.shr K z x n = .ok s' ∧ Post K s s' z (Big.shr X n) := by
  have hX := hx
  have hZ := hz
  obtain ⟨o, hz, lz⟩ := hz
  unfold BigSt.shr Big.shr
  dsimp only
  rw [hx.size_eq]
  by_cases hc : X.ws.length * 32 ≤ n
  · rw [if_pos hc, if_pos hc]
    exact clear_spec' I hZ
  · rw [if_neg hc, if_neg hc]
    have hp : 0 < X.ws.length - n / 32 := by omega
    rcases big_resize I hz.obj (X.ws.length - n / 32) with ⟨h1, h2⟩ | ⟨h1, s1, o1, h2, R⟩
    · rw [hX.fits I (by omega)] at h1; cases h1
    · obtain ⟨rx, hx, _⟩ := R.hold I hz.obj hp hX
      obtain ⟨s', f1, f2⟩ := R.finishNeg (shiftRight X.ws n) (shiftRight_length _ _) hp X.neg
      refine ⟨s', ?_, f2⟩
      rw [h2, ok_bind]
      dsimp only
      rw [elem_ok R.obj (by rw [R.osize]; omega), ok_bind, add_zero, hx.elem, ok_bind,
        mShiftRight_spec n (by omega) hx.has R.room (up_of (R.cases hx.obj)), ok_bind]
      rw [hx.neg]
      exact f1

theorem divWordGo_length (y : Word) (xs : List Word) : (divWordGo y xs).1.length = xs.length := by
  rw [← mapR1_div]; exact mapR1_length _ _ _

theorem divs1_spec {K : Kind} {s : BigSt} {z x : Nat} {X Z : Big} (I : Inv K s.mem) (hx : Rep s x X)
    (hz : Rep s z Z) (y : BitVec 32) :
    match Big.divs1 K.lim X y with
    | .error e => s.divs1 K z x y = .error e
    | .ok R => ∃ s', s.divs1 K z x y = .ok s' ∧ Post K s s' z R := by
  obtain ⟨b, hb⟩ : ∃ b, b = (X.neg ^^ decide (y.toInt < 0)) := ⟨_, rfl⟩
  have hXn := hx.neg_eq
  have hXs := hx.size_eq
  have hpos := hx.pos
  have hX' : ∃ c, Rep (s.setNeg z b) x ⟨c, X.ws⟩ := by
    by_cases e : x = z
    · subst e; exact ⟨b, hx.setNeg b⟩
    · exact ⟨X.neg, Rep.setNeg_ne b e hx⟩
  obtain ⟨c, hX⟩ := hX'
  have hZ := hz.setNeg b
  have hZ0 := hz
  obtain ⟨o, hz, lz⟩ := hZ
  unfold BigSt.divs1 Big.divs1
  dsimp only
  rw [hXs, hXn, ← hb]
  rcases big_resize (s := s.setNeg z b) I hz.obj X.ws.length with ⟨h1, h2⟩ | ⟨h1, s1, o1, h2, R⟩
  · rw [h1]
    simp only [Bool.false_eq_true, if_false]
    obtain ⟨s', e, P⟩ := clear_spec' (s := s.setNeg z b) I (hZ0.setNeg b)
    refine ⟨s', ?_, P.pre_setNeg b⟩
    rw [h2, ok_bind]; dsimp only; rw [if_neg (by simp)]; exact e
  · rw [h1]
    simp only [if_true]
    obtain ⟨rx, hx, _⟩ := R.hold (s := s.setNeg z b) I hz.obj hpos hX
    have cx := R.cases hx.obj
    have hd : mDivWord o1.data rx.data X.ws.length (cabs32 y) s1.mem.heap =
        (divWord X.ws (cabs32 y)).map (fun r => (s1.mem.heap.store o1.data r.1, r.2)) :=
      mDivWord_spec (cabs32 y) hx.has R.room (by
        rcases cx with c | c
        · rw [c]; exact Or.inr (Nat.le_refl _)
        · exact Or.inl c)
    by_cases hy : (cabs32 y != 0) = true
    · have e1 : divWord X.ws (cabs32 y) = .ok (divWordGo (cabs32 y) X.ws) := by
        unfold divWord; rw [check_true hy]; rfl
      rw [e1] at hd ⊢
      rw [ok_bind]
      dsimp only
      obtain ⟨f1, f2⟩ := R.finish (divWordGo (cabs32 y) X.ws).1 (divWordGo_length _ _) hpos
      have nb : s1.neg z = b := by rw [R.sneg]; exact upd_same _ _ _
      rw [nb] at f1 f2
      refine ⟨_, ?_, Post.pre_setNeg b (f2 (Big.trim b (divWordGo (cabs32 y) X.ws).1).neg)⟩
      rw [h2, ok_bind]
      dsimp only
      rw [if_pos rfl, elem_ok R.obj (by rw [R.osize]; omega), ok_bind, add_zero, hx.elem, ok_bind, hd]
      exact f1
    · rw [Bool.not_eq_true] at hy
      have e1 : divWord X.ws (cabs32 y) = .error .abort := by
        unfold divWord; rw [check_false hy]; rfl
      rw [e1] at hd ⊢
      show _ = Except.error Err.abort
      rw [h2, ok_bind]
      dsimp only
      rw [if_pos rfl, elem_ok R.obj (by rw [R.osize]; omega), ok_bind, add_zero, hx.elem, ok_bind, hd]
      rfl

end Ack.Mem
