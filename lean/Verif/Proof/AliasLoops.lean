import Verif.Model.Alias
import Verif.Proof.Buffer
import Mathlib.Data.List.Induction
/-! # The pointer loops of `Model/Alias.lean` compute the list functions of `Model/Words.lean` -/
namespace Ack.Mem

/-- Memory after storing `ws` at `p`. -/
def Heap.store (h : Heap) (p : Ptr) (ws : List Word) : Heap :=
  { h with cell := fun b k => if b = p.b ∧ p.off ≤ k ∧ k < p.off + ws.length then ws[k - p.off]? else h.cell b k }

/-- `p[0..)` holds `ws`. -/
def Has (h : Heap) (p : Ptr) (ws : List Word) : Prop :=
  h.room p ws.length = true ∧ ∀ k, k < ws.length → h.cell p.b (p.off + k) = ws[k]?

/-- Writing upwards from `z` does not destroy words of `x` before they are read. -/
def Up (z x : Ptr) : Prop := x.b ≠ z.b ∨ z.off ≤ x.off

/-- Writing downwards. -/
def Down (z x : Ptr) : Prop := x.b ≠ z.b ∨ x.off ≤ z.off

theorem heap_ext {h h' : Heap} (h1 : h.len = h'.len) (h2 : h.cell = h'.cell) (h3 : h.dyn = h'.dyn)
    (h4 : h.next = h'.next) : h = h' := by
  cases h; cases h'; simp only at h1 h2 h3 h4; subst h1; subst h2; subst h3; subst h4; rfl

theorem room_mono {h : Heap} {p : Ptr} {n m : Nat} (H : h.room p n = true) (hm : m ≤ n) : h.room p m = true := by
  unfold Heap.room at *
  cases hl : h.len p.b with
  | none => rw [hl] at H; simp at H
  | some L => rw [hl] at H; simp only [decide_eq_true_eq] at *; omega

theorem room_add {h : Heap} {p : Ptr} {n k m : Nat} (H : h.room p n = true) (hm : k + m ≤ n) :
    h.room (p.add k) m = true := by
  unfold Heap.room at *
  show (match h.len p.b with | some L => decide (p.off + k + m ≤ L) | none => false) = true
  cases hl : h.len p.b with
  | none => rw [hl] at H; simp at H
  | some L => rw [hl] at H; simp only [decide_eq_true_eq] at *; omega

theorem room_len {h h' : Heap} (e : h'.len = h.len) (p : Ptr) (n : Nat) : h'.room p n = h.room p n := by
  unfold Heap.room; rw [e]

theorem store_len (h : Heap) (p : Ptr) (ws : List Word) : (h.store p ws).len = h.len := rfl
theorem put_len (h : Heap) (p : Ptr) (w : Option Word) : (h.put p w).len = h.len := rfl

theorem add_zero (p : Ptr) : p.add 0 = p := rfl
theorem add_add (p : Ptr) (a b : Nat) : (p.add a).add b = p.add (a + b) := by
  unfold Ptr.add; simp only [Nat.add_assoc]

theorem put_cell (h : Heap) (p : Ptr) (w : Option Word) (b k : Nat) :
    (h.put p w).cell b k = if b = p.b ∧ k = p.off then w else h.cell b k := by
  show upd h.cell p.b (upd (h.cell p.b) p.off w) b k = _
  unfold upd
  by_cases hb : b = p.b
  · subst hb
    simp
  · simp [hb]

theorem store_cell (h : Heap) (p : Ptr) (ws : List Word) (b k : Nat) :
    (h.store p ws).cell b k = if b = p.b ∧ p.off ≤ k ∧ k < p.off + ws.length then ws[k - p.off]? else h.cell b k := rfl

theorem put_in {h : Heap} {p : Ptr} {w : Option Word} {b k : Nat} (h1 : b = p.b) (h2 : k = p.off) :
    (h.put p w).cell b k = w := by rw [put_cell, if_pos ⟨h1, h2⟩]

theorem put_out {h : Heap} {p : Ptr} {w : Option Word} {b k : Nat} (h1 : ¬ (b = p.b ∧ k = p.off)) :
    (h.put p w).cell b k = h.cell b k := by rw [put_cell, if_neg h1]

theorem store_in {h : Heap} {p : Ptr} {ws : List Word} {b k : Nat} (h1 : b = p.b) (h2 : p.off ≤ k)
    (h3 : k < p.off + ws.length) : (h.store p ws).cell b k = ws[k - p.off]? := by
  rw [store_cell, if_pos ⟨h1, h2, h3⟩]

theorem store_out {h : Heap} {p : Ptr} {ws : List Word} {b k : Nat}
    (h1 : ¬ (b = p.b ∧ p.off ≤ k ∧ k < p.off + ws.length)) : (h.store p ws).cell b k = h.cell b k := by
  rw [store_cell, if_neg h1]

theorem add_b (p : Ptr) (n : Nat) : (p.add n).b = p.b := rfl
theorem add_off (p : Ptr) (n : Nat) : (p.add n).off = p.off + n := rfl

theorem store_nil (h : Heap) (p : Ptr) : h.store p [] = h := by
  refine heap_ext (by rfl) ?_ (by rfl) (by rfl)
  funext b k
  rw [store_out]
  simp

theorem store_append (h : Heap) (p : Ptr) (a b : List Word) :
    (h.store p a).store (p.add a.length) b = h.store p (a ++ b) := by
  refine heap_ext (by rfl) ?_ (by rfl) (by rfl)
  funext c k
  by_cases hb : c = p.b
  · subst hb
    by_cases h1 : p.off + a.length ≤ k ∧ k < p.off + a.length + b.length
    · rw [store_in (by rfl) (by rw [add_off]; omega) (by rw [add_off]; omega),
        store_in rfl (by omega) (by rw [List.length_append]; omega), List.getElem?_append_right (by omega)]
      congr 1; rw [add_off]; omega
    · rw [store_out (by rw [add_off]; omega)]
      by_cases h2 : p.off ≤ k ∧ k < p.off + a.length
      · rw [store_in rfl h2.1 h2.2, store_in rfl (by omega) (by rw [List.length_append]; omega),
          List.getElem?_append_left (by omega)]
      · rw [store_out (by omega), store_out (by rw [List.length_append]; omega)]
  · rw [store_out (by rw [add_b]; simp [hb]), store_out (by simp [hb]), store_out (by simp [hb])]

theorem store_single (h : Heap) (p : Ptr) (w : Word) : h.put p (some w) = h.store p [w] := by
  refine heap_ext (by rfl) ?_ (by rfl) (by rfl)
  funext b k
  by_cases h1 : b = p.b ∧ k = p.off
  · rw [put_in h1.1 h1.2, store_in h1.1 (by omega) (by simp; omega), h1.2, Nat.sub_self]; rfl
  · rw [put_out h1, store_out (by simp only [List.length_singleton]; omega)]

theorem store_cons (h : Heap) (p : Ptr) (w : Word) (ws : List Word) :
    (h.put p (some w)).store (p.add 1) ws = h.store p (w :: ws) := by
  rw [store_single]
  exact store_append h p [w] ws

/-- A later store of the same length wins. -/
theorem store_store (h : Heap) (p : Ptr) (a b : List Word) (hl : a.length ≤ b.length) :
    (h.store p a).store p b = h.store p b := by
  refine heap_ext (by rfl) ?_ (by rfl) (by rfl)
  funext c k
  by_cases hb : c = p.b ∧ p.off ≤ k ∧ k < p.off + b.length
  · rw [store_in hb.1 hb.2.1 hb.2.2, store_in hb.1 hb.2.1 hb.2.2]
  · rw [store_out hb, store_out hb, store_out (by omega)]

/-- Storing below. -/
theorem store_below (h : Heap) (y : Ptr) (a b : List Word) :
    (h.store (y.add a.length) b).store y a = h.store y (a ++ b) := by
  refine heap_ext (by rfl) ?_ (by rfl) (by rfl)
  funext c k
  by_cases hb : c = y.b
  · subst hb
    by_cases h2 : y.off ≤ k ∧ k < y.off + a.length
    · rw [store_in rfl h2.1 h2.2, store_in rfl (by omega) (by rw [List.length_append]; omega),
        List.getElem?_append_left (by omega)]
    · rw [store_out (by omega)]
      by_cases h1 : y.off + a.length ≤ k ∧ k < y.off + a.length + b.length
      · rw [store_in (by rfl) (by rw [add_off]; omega) (by rw [add_off]; omega),
          store_in rfl (by omega) (by rw [List.length_append]; omega), List.getElem?_append_right (by omega)]
        congr 1; rw [add_off]; omega
      · rw [store_out (by rw [add_off]; omega), store_out (by rw [List.length_append]; omega)]
  · rw [store_out (by simp [hb]), store_out (by rw [add_b]; simp [hb]), store_out (by simp [hb])]

theorem store_one (h : Heap) (p : Ptr) (w : Word) : h.put p (some w) = h.store p [w] := store_single h p w

theorem read_has {h : Heap} {p : Ptr} {w : Word} {ws : List Word} (H : Has h p (w :: ws)) : h.read p = .ok w := by
  obtain ⟨h1, h2⟩ := H
  have h3 := h2 0 (by simp)
  rw [Nat.add_zero, List.getElem?_cons_zero] at h3
  unfold Heap.read
  rw [room_mono h1 (by simp), if_pos rfl, h3]

theorem Has.get {h : Heap} {p : Ptr} {ws : List Word} (H : Has h p ws) (k : Nat) (hk : k < ws.length) :
    h.read (p.add k) = .ok ws[k] := by
  obtain ⟨h1, h2⟩ := H
  have h3 := h2 k hk
  unfold Heap.read
  rw [room_add h1 (by omega), if_pos rfl]
  show (match h.cell p.b (p.off + k) with | some w => Except.ok w | none => Except.error Err.ub) = _
  rw [h3, List.getElem?_eq_getElem hk]

theorem Has.tail {h : Heap} {p : Ptr} {w : Word} {ws : List Word} (H : Has h p (w :: ws)) : Has h (p.add 1) ws := by
  obtain ⟨h1, h2⟩ := H
  refine ⟨room_add h1 (by simp; omega), ?_⟩
  intro k hk
  have := h2 (k + 1) (by simp; omega)
  rw [List.getElem?_cons_succ] at this
  rw [← this]
  show h.cell p.b (p.off + 1 + k) = h.cell p.b (p.off + (k + 1))
  rw [Nat.add_assoc, Nat.add_comm 1 k]

theorem Has.take {h : Heap} {p : Ptr} {ws : List Word} (H : Has h p ws) (n : Nat) : Has h p (ws.take n) := by
  refine ⟨room_mono H.1 (List.length_take_le' _ _), ?_⟩
  intro k hk
  rw [List.length_take] at hk
  rw [H.2 k (by omega), List.getElem?_take, if_pos (by omega)]

theorem Has.drop {h : Heap} {p : Ptr} {ws : List Word} (H : Has h p ws) (n : Nat) (hn : n ≤ ws.length) :
    Has h (p.add n) (ws.drop n) := by
  refine ⟨room_add H.1 (by rw [List.length_drop]; omega), ?_⟩
  intro k hk
  rw [List.length_drop] at hk
  rw [List.getElem?_drop, ← H.2 (n + k) (by omega)]
  show h.cell p.b (p.off + n + k) = _
  rw [Nat.add_assoc]

/-- A change elsewhere keeps the contents. -/
theorem Has.of_agree {h h' : Heap} {p : Ptr} {ws : List Word} (H : Has h p ws) (hl : h'.len p.b = h.len p.b)
    (hc : ∀ k, k < ws.length → h'.cell p.b (p.off + k) = h.cell p.b (p.off + k)) : Has h' p ws := by
  refine ⟨?_, fun k hk => (hc k hk).trans (H.2 k hk)⟩
  have := H.1
  unfold Heap.room at *
  rw [hl]; exact this

theorem Has.put_up {h : Heap} {z x : Ptr} {w : Word} {ws : List Word} (v : Option Word) (H : Has h x (w :: ws))
    (hu : Up z x) : Has (h.put z v) (x.add 1) ws := by
  refine (H.tail).of_agree rfl ?_
  intro k hk
  rw [put_cell, if_neg]
  rintro ⟨h1, h2⟩
  rcases hu with h | h
  · exact h h1
  · simp only [Ptr.add] at h2; omega

theorem Up.add {z x : Ptr} (h : Up z x) (n : Nat) : Up (z.add n) (x.add n) := by
  rcases h with h | h
  · exact Or.inl h
  · right; simp only [Ptr.add]; omega

theorem Up.refl (z : Ptr) : Up z z := Or.inr (Nat.le_refl _)

theorem write_ok {h : Heap} {p : Ptr} {n : Nat} (hr : h.room p n = true) (hn : 0 < n) (w : Word) :
    h.write p w = .ok (h.put p (some w)) := by
  unfold Heap.write
  rw [room_mono hr hn, if_pos rfl]

theorem has_store (h : Heap) (p : Ptr) (ws : List Word) (hr : h.room p ws.length = true) : Has (h.store p ws) p ws := by
  refine ⟨hr, ?_⟩
  intro k hk
  rw [store_cell, if_pos ⟨rfl, by omega, by omega⟩]
  congr 1; omega

/-- Another block is not affected by a store. -/
theorem Has.store_ne {h : Heap} {p q : Ptr} {ws vs : List Word} (H : Has h p ws) (hne : p.b ≠ q.b) :
    Has (h.store q vs) p ws := by
  refine H.of_agree rfl ?_
  intro k _
  rw [store_cell, if_neg (by simp [hne])]

/-- Words above a store are not affected. -/
theorem Has.store_above {h : Heap} {p q : Ptr} {ws vs : List Word} (H : Has h p ws)
    (hle : p.b ≠ q.b ∨ q.off + vs.length ≤ p.off) : Has (h.store q vs) p ws := by
  refine H.of_agree rfl ?_
  intro k _
  rw [store_cell, if_neg]
  rintro ⟨h1, h2, h3⟩
  rcases hle with h | h
  · exact h h1
  · omega

/-! ### The generic loops -/

/-- Pure counterpart of `mapUp2`. -/
def mapL2 {σ : Type} (f : σ → Word → Word → Word × σ) : List Word → List Word → σ → List Word × σ
  | x :: xs, y :: ys, c => let r := f c x y; let t := mapL2 f xs ys r.2; (r.1 :: t.1, t.2)
  | _, _, c => ([], c)

def mapL1 {σ : Type} (f : σ → Word → Word × σ) : List Word → σ → List Word × σ
  | x :: xs, c => let r := f c x; let t := mapL1 f xs r.2; (r.1 :: t.1, t.2)
  | [], c => ([], c)

theorem mapL2_length {σ : Type} (f : σ → Word → Word → Word × σ) (xs : List Word) : ∀ ys c,
    xs.length = ys.length → (mapL2 f xs ys c).1.length = xs.length := by
  induction xs with
  | nil => intro ys c h; simp [mapL2]
  | cons x xs ih =>
    intro ys c h
    cases ys with
    | nil => simp at h
    | cons y ys => simp only [mapL2, List.length_cons]; rw [ih _ _ (by simpa using h)]

theorem mapL1_length {σ : Type} (f : σ → Word → Word × σ) (xs : List Word) : ∀ c,
    (mapL1 f xs c).1.length = xs.length := by
  induction xs with
  | nil => intro c; rfl
  | cons x xs ih => intro c; simp only [mapL1, List.length_cons]; rw [ih]

theorem mapUp2_spec {σ : Type} (f : σ → Word → Word → Word × σ) (xs : List Word) :
    ∀ (ys : List Word) (z x y : Ptr) (h : Heap) (c : σ), xs.length = ys.length → Has h x xs → Has h y ys →
      h.room z xs.length = true → Up z x → Up z y →
      mapUp2 f xs.length z x y h c = .ok (h.store z (mapL2 f xs ys c).1, (mapL2 f xs ys c).2) := by
  induction xs with
  | nil =>
    intro ys z x y h c hl _ _ _ _ _
    cases ys with
    | nil => simp only [List.length_nil, mapUp2, mapL2, store_nil]
    | cons _ _ => simp at hl
  | cons a xs ih =>
    intro ys z x y h c hl hx hy hz ux uy
    cases ys with
    | nil => simp at hl
    | cons b ys =>
      simp only [List.length_cons, mapUp2, mapL2]
      rw [read_has hx, ok_bind, read_has hy, ok_bind]
      rw [write_ok hz (by simp), ok_bind]
      rw [ih ys (z.add 1) (x.add 1) (y.add 1) _ _ (by simpa using hl) (hx.put_up _ ux) (hy.put_up _ uy)
        (by rw [room_len (put_len _ _ _)]; exact room_add hz (by simp; omega)) (ux.add 1) (uy.add 1)]
      rw [store_cons]

theorem mapUp1_spec {σ : Type} (f : σ → Word → Word × σ) (xs : List Word) :
    ∀ (z x : Ptr) (h : Heap) (c : σ), Has h x xs → h.room z xs.length = true → Up z x →
      mapUp1 f xs.length z x h c = .ok (h.store z (mapL1 f xs c).1, (mapL1 f xs c).2) := by
  induction xs with
  | nil =>
    intro z x h c _ _ _
    simp only [List.length_nil, mapUp1, mapL1, store_nil]
  | cons a xs ih =>
    intro z x h c hx hz ux
    simp only [List.length_cons, mapUp1, mapL1]
    rw [read_has hx, ok_bind]
    rw [write_ok hz (by simp), ok_bind]
    rw [ih (z.add 1) (x.add 1) _ _ (hx.put_up _ ux)
      (by rw [room_len (put_len _ _ _)]; exact room_add hz (by simp; omega)) (ux.add 1)]
    rw [store_cons]

/-- Pure counterpart of `mapDown1`: from the top word. -/
def mapR1 {σ : Type} (f : σ → Word → Word × σ) : List Word → σ → List Word × σ
  | x :: xs, c => let t := mapR1 f xs c; let r := f t.2 x; (r.1 :: t.1, r.2)
  | [], c => ([], c)

theorem mapR1_length {σ : Type} (f : σ → Word → Word × σ) (xs : List Word) (c : σ) :
    (mapR1 f xs c).1.length = xs.length := by
  induction xs with
  | nil => rfl
  | cons x xs ih => simp only [mapR1, List.length_cons, ih]

theorem mapR1_append {σ : Type} (f : σ → Word → Word × σ) (xs : List Word) (a : Word) (c : σ) :
    mapR1 f (xs ++ [a]) c = ((mapR1 f xs (f c a).2).1 ++ [(f c a).1], (mapR1 f xs (f c a).2).2) := by
  induction xs with
  | nil => rfl
  | cons x xs ih => simp only [List.cons_append, mapR1, ih]

theorem Has.put_down {h : Heap} {z x : Ptr} {a : Word} {xs : List Word} (v : Option Word) (H : Has h x (xs ++ [a]))
    (hd : Down z x) : Has (h.put (z.add xs.length) v) x xs := by
  have h1 := H.take xs.length
  rw [List.take_left' rfl] at h1
  refine h1.of_agree rfl ?_
  intro k hk
  rw [put_cell, if_neg]
  rintro ⟨e1, e2⟩
  rcases hd with h | h
  · exact h e1
  · simp only [Ptr.add] at e2; omega

theorem store_snoc (h : Heap) (z : Ptr) (ws : List Word) (w : Word) :
    (h.put (z.add ws.length) (some w)).store z ws = h.store z (ws ++ [w]) := by
  rw [store_one, store_below]

theorem mapDown1_spec {σ : Type} (f : σ → Word → Word × σ) (xs : List Word) :
    ∀ (z x : Ptr) (h : Heap) (c : σ), Has h x xs → h.room z xs.length = true → Down z x →
      mapDown1 f xs.length z x h c = .ok (h.store z (mapR1 f xs c).1, (mapR1 f xs c).2) := by
  induction xs using List.reverseRecOn with
  | nil =>
    intro z x h c _ _ _
    simp only [List.length_nil, mapDown1, mapR1, store_nil]
  | append_singleton xs a ih =>
    intro z x h c hx hz hd
    rw [List.length_append, List.length_singleton]
    simp only [mapDown1]
    rw [hx.get xs.length (by simp), ok_bind]
    rw [show (xs ++ [a])[xs.length]'(by simp) = a from by simp]
    rw [write_ok (n := 1) (room_add hz (by simp)) (by omega), ok_bind]
    rw [ih z x _ _ (hx.put_down _ hd) (by rw [room_len (put_len _ _ _)]; exact room_mono hz (by simp)) hd]
    rw [mapR1_append]
    have := store_snoc h z (mapR1 f xs (f c a).2).1 (f c a).1
    rw [mapR1_length] at this
    rw [this]

/-! ### The routines -/

theorem mapL2_add (xs : List Word) : ∀ ys c, ((mapL2 addF xs ys c).1, (mapL2 addF xs ys c).2.setWidth 32) = addGo xs ys c := by
  induction xs with
  | nil => intro ys c; rfl
  | cons x xs ih =>
    intro ys c
    cases ys with
    | nil => rfl
    | cons y ys =>
      simp only [mapL2, addGo, ← ih]
      rfl

theorem mapL2_sub (xs : List Word) : ∀ ys c, ((mapL2 subF xs ys c).1, (mapL2 subF xs ys c).2.setWidth 32) = subGo xs ys c := by
  induction xs with
  | nil => intro ys c; rfl
  | cons x xs ih =>
    intro ys c
    cases ys with
    | nil => rfl
    | cons y ys =>
      simp only [mapL2, subGo, ← ih]
      rfl

theorem mapL1_mul (y : Word) (xs : List Word) : ∀ c, ((mapL1 (mulF y) xs c).1, (mapL1 (mulF y) xs c).2.setWidth 32) = mulWordGo y xs c := by
  induction xs with
  | nil => intro c; rfl
  | cons x xs ih =>
    intro c
    simp only [mapL1, mulWordGo, ← ih]
    rfl

theorem mapL2_mulAdd (y : Word) (xs : List Word) : ∀ zs c, xs.length = zs.length →
    ((mapL2 (mulAddF y) xs zs c).1, (mapL2 (mulAddF y) xs zs c).2.setWidth 32) = mulWordAddGo y zs xs c := by
  induction xs with
  | nil =>
    intro zs c h
    cases zs with
    | nil => rfl
    | cons _ _ => simp at h
  | cons x xs ih =>
    intro zs c h
    cases zs with
    | nil => simp at h
    | cons z zs =>
      simp only [mapL2, mulWordAddGo, ← ih zs _ (by simpa using h)]
      rfl

theorem mapL1_id (xs : List Word) : (mapL1 (fun (_ : Unit) w => (w, ())) xs ()).1 = xs := by
  induction xs with
  | nil => rfl
  | cons x xs ih => simp only [mapL1, ih]

theorem mapR1_id (xs : List Word) : (mapR1 (fun (_ : Unit) w => (w, ())) xs ()).1 = xs := by
  induction xs with
  | nil => rfl
  | cons x xs ih => simp only [mapR1, ih]

theorem mapR1_div (y : Word) (xs : List Word) : mapR1 (fun r w => divWord1 r w y) xs 0 = divWordGo y xs := by
  induction xs with
  | nil => rfl
  | cons x xs ih => simp only [mapR1, divWordGo, ih]

theorem mAddN_spec {h : Heap} {z x y : Ptr} {xs ys : List Word} (hl : xs.length = ys.length) (hx : Has h x xs)
    (hy : Has h y ys) (hz : h.room z xs.length = true) (ux : Up z x) (uy : Up z y) :
    mAddN z x y xs.length h = .ok (h.store z (addN xs ys).1, (addN xs ys).2) := by
  unfold mAddN addN
  rw [mapUp2_spec addF xs ys z x y h 0 hl hx hy hz ux uy, ← mapL2_add]
  rfl

theorem mSubN_spec {h : Heap} {z x y : Ptr} {xs ys : List Word} (hl : xs.length = ys.length) (hx : Has h x xs)
    (hy : Has h y ys) (hz : h.room z xs.length = true) (ux : Up z x) (uy : Up z y) :
    mSubN z x y xs.length h = .ok (h.store z (subN xs ys).1, (subN xs ys).2) := by
  unfold mSubN subN
  rw [mapUp2_spec subF xs ys z x y h 0 hl hx hy hz ux uy, ← mapL2_sub]
  rfl

theorem mMulWordN_spec {h : Heap} {z x : Ptr} {xs : List Word} (y : Word) (hx : Has h x xs)
    (hz : h.room z xs.length = true) (ux : Up z x) :
    mMulWordN z x y xs.length h = .ok (h.store z (mulWordN xs y).1, (mulWordN xs y).2) := by
  unfold mMulWordN mulWordN
  rw [mapUp1_spec (mulF y) xs z x h 0 hx hz ux, ← mapL1_mul]
  rfl

theorem mMulWordAddN_spec {h : Heap} {z x : Ptr} {zs xs : List Word} (y : Word) (hl : xs.length = zs.length)
    (hx : Has h x xs) (hz : Has h z zs) (ux : Up z x) :
    mMulWordAddN z x y xs.length h = .ok (h.store z (mulWordAddN zs xs y).1, (mulWordAddN zs xs y).2) := by
  unfold mMulWordAddN mulWordAddN
  rw [mapUp2_spec (mulAddF y) xs zs z x z h 0 hl hx hz (by rw [hl]; exact hz.1) ux (Up.refl _), ← mapL2_mulAdd _ _ _ _ hl]
  rfl

theorem mCopyN_spec {h : Heap} {z x : Ptr} {xs : List Word} (hx : Has h x xs)
    (hz : h.room z xs.length = true) (ux : Up z x) :
    mCopyN z x xs.length h = .ok (h.store z xs) := by
  unfold mCopyN
  rw [mapUp1_spec _ xs z x h () hx hz ux, mapL1_id]
  rfl

theorem mClearN_spec (n : Nat) : ∀ (h : Heap) (x : Ptr), h.room x n = true →
    mClearN n x h = .ok (h.store x (List.replicate n 0)) := by
  induction n with
  | zero => intro h x _; simp only [mClearN, List.replicate_zero, store_nil]
  | succ n ih =>
    intro h x hr
    simp only [mClearN]
    rw [write_ok hr (by omega), ok_bind,
      ih _ _ (by rw [room_len (put_len _ _ _)]; exact room_add hr (by omega)), store_cons, List.replicate_succ]

theorem mDivWord_spec {h : Heap} {q x : Ptr} {xs : List Word} (y : Word) (hx : Has h x xs)
    (hz : h.room q xs.length = true) (ux : Down q x) :
    mDivWord q x xs.length y h = (divWord xs y).map (fun r => (h.store q r.1, r.2)) := by
  unfold mDivWord divWord
  rw [mapDown1_spec _ xs q x h 0 hx hz ux, mapR1_div]
  by_cases hy : (y != 0) = true
  · rw [check_true hy]; rfl
  · rw [Bool.not_eq_true] at hy
    rw [check_false hy]; rfl

theorem store_self {h : Heap} {y : Ptr} {ws : List Word} (H : Has h y ws) : h.store y ws = h := by
  refine heap_ext (by rfl) ?_ (by rfl) (by rfl)
  funext b k
  by_cases hc : b = y.b ∧ y.off ≤ k ∧ k < y.off + ws.length
  · rw [store_in hc.1 hc.2.1 hc.2.2]
    obtain ⟨rfl, h2, h3⟩ := hc
    rw [← H.2 (k - y.off) (by omega)]
    congr 1; omega
  · rw [store_out hc]

theorem put_self_tail {h : Heap} {y : Ptr} {a t : Word} {ws : List Word} (H : Has h y (a :: ws)) :
    h.put y (some t) = h.store y (t :: ws) := by
  rw [← store_cons, store_self (H.put_up _ (Up.refl _))]

theorem mIncGo_spec (ws : List Word) : ∀ (h : Heap) (y : Ptr), Has h y ws →
    mIncGo ws.length y h = .ok (h.store y (incGo ws).1, (incGo ws).2) := by
  induction ws with
  | nil => intro h y _; simp only [List.length_nil, mIncGo, incGo, store_nil]
  | cons a ws ih =>
    intro h y H
    simp only [List.length_cons, mIncGo, incGo]
    rw [read_has H, ok_bind, write_ok H.1 (by simp), ok_bind]
    by_cases ht : a + 1 ≠ 0
    · rw [if_pos ht, if_pos ht, put_self_tail H]
    · rw [if_neg ht, if_neg ht, ih _ _ (H.put_up _ (Up.refl _)), store_cons]

theorem mDecGo_spec (ws : List Word) : ∀ (h : Heap) (y : Ptr), Has h y ws →
    mDecGo ws.length y h = .ok (h.store y (decGo ws).1, (decGo ws).2) := by
  induction ws with
  | nil => intro h y _; simp only [List.length_nil, mDecGo, decGo, store_nil]
  | cons a ws ih =>
    intro h y H
    simp only [List.length_cons, mDecGo, decGo]
    rw [read_has H, ok_bind, write_ok H.1 (by simp), ok_bind]
    by_cases ht : a ≠ 0
    · rw [if_pos ht, if_pos ht, put_self_tail H]
    · rw [if_neg ht, if_neg ht, ih _ _ (H.put_up _ (Up.refl _)), store_cons]

theorem mAddWord_spec {h : Heap} {y : Ptr} {ws : List Word} (x : Word) (H : Has h y ws) :
    mAddWord y ws.length x h = .ok (h.store y (addWord ws x).1, (addWord ws x).2) := by
  cases ws with
  | nil => simp only [List.length_nil, mAddWord, addWord, store_nil]
  | cons a ws =>
    simp only [List.length_cons, mAddWord, addWord]
    rw [read_has H, ok_bind, write_ok H.1 (by simp), ok_bind]
    by_cases ht : a + x ≥ x
    · rw [if_pos ht, if_pos ht, put_self_tail H]
    · rw [if_neg ht, if_neg ht, mIncGo_spec ws _ _ (H.put_up _ (Up.refl _)), store_cons]

theorem mSubWord_spec {h : Heap} {y : Ptr} {ws : List Word} (x : Word) (H : Has h y ws) :
    mSubWord y ws.length x h = .ok (h.store y (subWord ws x).1, (subWord ws x).2) := by
  cases ws with
  | nil => simp only [List.length_nil, mSubWord, subWord, store_nil]
  | cons a ws =>
    simp only [List.length_cons, mSubWord, subWord]
    rw [read_has H, ok_bind, write_ok H.1 (by simp), ok_bind]
    by_cases ht : a ≥ x
    · rw [if_pos ht, if_pos ht, put_self_tail H]
    · rw [if_neg ht, if_neg ht, mDecGo_spec ws _ _ (H.put_up _ (Up.refl _)), store_cons]

/-! ### Shifts -/

/-- `shlGo` from the top: appending a word. -/
theorem shlGo_append (bit : Nat) (xs : List Word) (a : Word) : ∀ low,
    shlGo bit low (xs ++ [a]) =
      ((shlGo bit low xs).1 ++ [(a <<< bit) ||| ((xs.getLastD low) >>> (32 - bit))], a >>> (32 - bit)) := by
  induction xs with
  | nil => intro low; rfl
  | cons x xs ih =>
    intro low
    simp only [List.cons_append, shlGo, ih]
    cases xs with
    | nil => rfl
    | cons y ys => simp [List.getLastD]

theorem shlGo_length (bit : Nat) (xs : List Word) : ∀ low, (shlGo bit low xs).1.length = xs.length := by
  induction xs with
  | nil => intro low; rfl
  | cons x xs ih => intro low; simp only [shlGo, List.length_cons, ih]

theorem shl_bot (bit : Nat) (hb : 0 < bit) (hb2 : bit < 32) : (0 : Word) >>> (32 - bit) = 0 := by
  simp

theorem mShlGo_spec (bit : Nat) (z x : Ptr) (xs : List Word) :
    ∀ (a : Word) (h : Heap), Has h x (xs ++ [a]) → h.room z (xs.length + 1) = true → Down z x →
      mShlGo bit z x xs.length a h = .ok (h.store z (shlGo bit 0 (xs ++ [a])).1) := by
  induction xs using List.reverseRecOn with
  | nil =>
    intro a h hx hz hd
    simp only [List.length_nil, mShlGo]
    rw [write_ok hz (by omega), store_one]
    congr 1
    simp [shlGo]
  | append_singleton xs b ih =>
    intro a h hx hz hd
    rw [List.length_append, List.length_singleton]
    simp only [mShlGo]
    rw [hx.get xs.length (by simp), ok_bind]
    rw [show (xs ++ [b] ++ [a])[xs.length]'(by simp) = b from by simp]
    rw [write_ok (n := 1) (room_add hz (by simp)) (by omega), ok_bind]
    have hp := hx.put_down (z := z) (some ((a <<< bit) ||| (b >>> (32 - bit)))) hd
    rw [List.length_append, List.length_singleton] at hp
    rw [ih b _ hp (by rw [room_len (put_len _ _ _)]; exact room_mono hz (by simp)) hd]
    rw [shlGo_append bit (xs ++ [b]) a 0]
    have hs := store_snoc h z (shlGo bit 0 (xs ++ [b])).1 ((a <<< bit) ||| (b >>> (32 - bit)))
    rw [shlGo_length, List.length_append, List.length_singleton] at hs
    rw [hs, List.getLastD_concat]

theorem mShlN_spec {h : Heap} {z x : Ptr} {xs : List Word} (bit : Nat) (hne : xs ≠ []) (hx : Has h x xs)
    (hz : h.room z xs.length = true) (hd : Down z x) :
    mShlN z x bit xs.length h = .ok (h.store z (shlN xs bit).1, (shlN xs bit).2) := by
  rcases List.eq_nil_or_concat xs with h0 | ⟨ys, a, rfl⟩
  · exact absurd h0 hne
  · rw [List.concat_eq_append] at *
    unfold mShlN shlN
    rw [List.length_append, List.length_singleton, Nat.add_sub_cancel]
    rw [hx.get ys.length (by simp), ok_bind]
    rw [show (ys ++ [a])[ys.length]'(by simp) = a from by simp]
    rw [mShlGo_spec bit z x ys a h hx (by simpa using hz) hd, ok_bind, shlGo_append]

theorem mShrGo_spec (bit : Nat) (xs : List Word) : ∀ (p : Word) (h : Heap) (z x : Ptr),
    Has h x xs → h.room z (xs.length + 1) = true → (x.b ≠ z.b ∨ z.off + 1 ≤ x.off) →
      mShrGo bit xs.length z x p h = .ok (h.store z (shrN bit (p :: xs))) := by
  induction xs with
  | nil =>
    intro p h z x _ hz _
    simp only [List.length_nil, mShrGo, shrN]
    rw [write_ok hz (by omega), store_one]
  | cons a xs ih =>
    intro p h z x hx hz hd
    simp only [List.length_cons, mShrGo]
    rw [read_has hx, ok_bind, write_ok hz (by omega), ok_bind]
    have hu : Up z x := by
      rcases hd with h | h
      · exact Or.inl h
      · exact Or.inr (by omega)
    rw [ih a _ (z.add 1) (x.add 1) (hx.put_up _ hu) (by
      rw [room_len (put_len _ _ _)]; exact room_add hz (by simp; omega)) (by
      rcases hd with h | h
      · exact Or.inl h
      · right; simp only [Ptr.add]; omega)]
    rw [store_cons]
    rfl

theorem mShrN_spec {h : Heap} {z x : Ptr} {xs : List Word} (bit : Nat) (hne : xs ≠ []) (hx : Has h x xs)
    (hz : h.room z xs.length = true) (hu : Up z x) :
    mShrN z x bit xs.length h = .ok (h.store z (shrN bit xs)) := by
  cases xs with
  | nil => exact absurd rfl hne
  | cons a xs =>
    unfold mShrN
    rw [read_has hx, ok_bind, List.length_cons, Nat.add_sub_cancel]
    exact mShrGo_spec bit xs a h z (x.add 1) hx.tail hz (by
      rcases hu with h | h
      · exact Or.inl h
      · right; simp only [Ptr.add]; omega)

theorem mShiftLeft_spec {h : Heap} {y x : Ptr} {xs : List Word} (bit : Nat) (hne : xs ≠ []) (hx : Has h x xs)
    (hz : h.room y (xs.length + (bit + 31) / 32) = true) (hd : Down y x) :
    mShiftLeft y x bit xs.length h = .ok (h.store y (shiftLeft xs bit)) := by
  have hd' : Down (y.add (bit / 32)) x := by
    rcases hd with h | h
    · exact Or.inl h
    · right; simp only [Ptr.add]; omega
  have hzq : h.room y (bit / 32) = true := room_mono hz (by omega)
  unfold mShiftLeft shiftLeft
  dsimp only
  by_cases hr : bit % 32 = 0
  · rw [if_pos hr, if_pos hr]
    rw [mapDown1_spec _ xs _ x h () hx (room_add hz (by omega)) hd', mapR1_id]
    show (mClearN (bit / 32) y (h.store (y.add (bit / 32)) xs)) = _
    rw [mClearN_spec _ _ _ (by rw [room_len (store_len _ _ _)]; exact hzq)]
    have := store_below h y (List.replicate (bit / 32) 0) xs
    rw [List.length_replicate] at this
    rw [this]
  · rw [if_neg hr, if_neg hr]
    have e : xs.length + (bit + 31) / 32 = bit / 32 + (xs.length + 1) := by omega
    rw [mShlN_spec (bit % 32) hne hx (room_add hz (by omega)) hd', ok_bind]
    have hl : (shlN xs (bit % 32)).1.length = xs.length := shlGo_length _ _ _
    show (Heap.write _ _ _ >>= _) = _
    rw [write_ok (n := 1) (by rw [room_len (store_len _ _ _)]; exact room_add hz (by omega)) (by omega), ok_bind,
      store_one]
    have e2 : y.add (bit / 32 + xs.length) = (y.add (bit / 32)).add (shlN xs (bit % 32)).1.length := by
      rw [add_add, hl]
    rw [e2, store_append, mClearN_spec _ _ _ (by rw [room_len (store_len _ _ _)]; exact hzq)]
    have := store_below h y (List.replicate (bit / 32) 0) ((shlN xs (bit % 32)).1 ++ [(shlN xs (bit % 32)).2])
    rw [List.length_replicate] at this
    rw [this]

theorem mShiftRight_spec {h : Heap} {y x : Ptr} {xs : List Word} (bit : Nat) (hb : bit < xs.length * 32) (hx : Has h x xs)
    (hz : h.room y (xs.length - bit / 32) = true) (hu : Up y x) :
    mShiftRight y x bit xs.length h = .ok (h.store y (shiftRight xs bit)) := by
  unfold mShiftRight shiftRight
  dsimp only
  have hq : bit / 32 < xs.length := by omega
  have hx' := hx.drop (bit / 32) (by omega)
  have hl : (xs.drop (bit / 32)).length = xs.length - bit / 32 := List.length_drop
  have hu' : Up y (x.add (bit / 32)) := by
    rcases hu with h | h
    · exact Or.inl h
    · right; simp only [Ptr.add]; omega
  rw [← hl] at hz ⊢
  by_cases hr : bit % 32 = 0
  · rw [if_pos hr, if_pos hr, mCopyN_spec hx' hz hu']
  · rw [if_neg hr, if_neg hr, mShrN_spec _ (by
      intro e
      rw [e] at hl
      simp at hl; omega) hx' hz hu']

/-! ### Multiplication -/

theorem mulWordAddN_length (z x : List Word) (y : Word) (h : x.length = z.length) :
    (mulWordAddN z x y).1.length = x.length := by
  unfold mulWordAddN
  rw [← mapL2_mulAdd y x z 0 h]
  exact mapL2_length _ _ _ _ h

theorem mulWordN_length (x : List Word) (y : Word) : (mulWordN x y).1.length = x.length := by
  unfold mulWordN
  rw [← mapL1_mul y x 0]
  exact mapL1_length _ _ _

theorem mMulRows_spec (x : Ptr) (xs : List Word) (hxs : xs ≠ []) (ys : List Word) :
    ∀ (z y : Ptr) (zs : List Word) (h : Heap), zs.length = xs.length → Has h x xs → Has h y ys → Has h z zs →
      h.room z (xs.length + ys.length) = true → x.b ≠ z.b → y.b ≠ z.b →
      mMulRows x xs.length ys.length z y h = .ok (h.store z (mulRows xs ys zs)) := by
  induction ys with
  | nil =>
    intro z y zs h _ _ _ hz _ _ _
    simp only [List.length_nil, mMulRows, mulRows]
    rw [store_self hz]
  | cons w ys ih =>
    intro z y zs h hl hx hy hz hr nx ny
    simp only [List.length_cons, mMulRows, mulRows]
    rw [read_has hy, ok_bind, mMulWordAddN_spec w hl.symm hx hz (Or.inl nx), ok_bind]
    have hlen := mulWordAddN_length zs xs w hl.symm
    obtain ⟨r, hrr⟩ : ∃ r, r = mulWordAddN zs xs w := ⟨_, rfl⟩
    rw [← hrr] at hlen ⊢
    show (Heap.write (h.store z r.1) (z.add xs.length) r.2 >>= _) = _
    rw [write_ok (n := 1) (by rw [room_len (store_len _ _ _)]; exact room_add hr (by simp)) (by omega), ok_bind,
      store_one, ← hlen, store_append]
    cases hr1 : r.1 with
    | nil => rw [hr1] at hlen; simp at hlen; exact absurd (List.length_eq_zero_iff.1 hlen.symm) hxs
    | cons z0 zs' =>
      rw [hr1] at hlen
      have hrz : (h.store z ((z0 :: zs') ++ [r.2])).room z (xs.length + (ys.length + 1)) = true := by
        rw [room_len (store_len _ _ _)]; exact hr
      have hzz : Has (h.store z ((z0 :: zs') ++ [r.2])) (z.add 1) (zs' ++ [r.2]) := by
        have := has_store h z ((z0 :: zs') ++ [r.2]) (by
          rw [List.length_append, hlen]; exact room_mono hr (by simp))
        exact this.tail
      have hih := ih (z.add 1) (y.add 1) (zs' ++ [r.2]) (h.store z ((z0 :: zs') ++ [r.2]))
        (by rw [List.length_append, List.length_singleton, ← hlen, List.length_cons])
        (hx.store_ne nx) (hy.tail.store_ne ny) hzz
        (room_add hrz (by omega)) nx ny
      rw [hlen, hih]
      rw [List.cons_append, ← store_cons h z z0, ← store_cons h z z0]
      have hrows : ∀ (ys zs : List Word), zs.length = xs.length → (mulRows xs ys zs).length = xs.length + ys.length := by
        intro ys
        induction ys with
        | nil => intro zs h; simp [mulRows, h]
        | cons v ys ih =>
          intro zs h
          have hl := mulWordAddN_length zs xs v h.symm
          simp only [mulRows]
          cases hq : (mulWordAddN zs xs v).1 with
          | nil => rw [hq] at hl; simp at hl; exact absurd (List.length_eq_zero_iff.1 hl.symm) hxs
          | cons a t =>
            rw [hq] at hl
            simp only [List.length_cons] at hl ⊢
            rw [ih _ (by rw [List.length_append, List.length_singleton]; exact hl)]
            omega
      show Except.ok (((h.put z (some z0)).store (z.add 1) (zs' ++ [r.2])).store (z.add 1) (mulRows xs ys (zs' ++ [r.2]))) = _
      rw [store_store]
      rw [hrows ys (zs' ++ [r.2]) (by rw [List.length_append, List.length_singleton, ← hlen, List.length_cons]),
        List.length_append, List.length_singleton, ← hlen, List.length_cons]
      omega
end Ack.Mem
