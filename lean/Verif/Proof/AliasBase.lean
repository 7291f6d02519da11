import Verif.Proof.AliasLoops
import Verif.Model.Bigint
/-! # `bigint` objects in memory represent the pure values of `Model/Bigint.lean` -/
namespace Ack.Mem

/-- Object `i` (with buffer `o`) can be read as the value `X`. -/
structure Hold (s : BigSt) (i : Nat) (o : Flex) (X : Big) : Prop where
  obj : s.mem.objs[i]? = some o
  size : s.size i = X.ws.length
  neg : s.neg i = X.neg
  has : Has s.mem.heap o.data X.ws
  ne : X.ws ≠ []
  pos : 0 < o.size

/-- Object `i` is a `bigint` with value `X`. -/
def Rep (s : BigSt) (i : Nat) (X : Big) : Prop := ∃ o, Hold s i o X ∧ X.ws.length ≤ o.size

/-- What an operation with result object `z` must achieve. -/
structure Post (K : Kind) (s s' : BigSt) (z : Nat) (R : Big) : Prop where
  inv : Inv K s'.mem
  res : Rep s' z R
  frame : ∀ i X, i ≠ z → Rep s i X → Rep s' i X
  len : s'.mem.objs.length = s.mem.objs.length

theorem data_off (o : Flex) : o.data.off = 0 := rfl

theorem up_data (o r : Flex) : Up o.data r.data := Or.inr (Nat.le_refl _)
theorem down_data (o r : Flex) : Down o.data r.data := Or.inr (Nat.le_refl _)

theorem Obj.room_cap {K h o} (H : Obj K h o) : h.room o.data (o.cap K) = true := by
  cases hb : o.db with
  | none =>
    simp only [Heap.room, Flex.data, Flex.cap, hb, Option.getD_none, H.hs]
    simp
  | some b =>
    simp only [Heap.room, Flex.data, Flex.cap, hb, Option.getD_some, (H.hd b hb).2.1]
    simp

/-- Different objects use different blocks. -/
theorem data_ne {K : Kind} {s : State} {i j : Nat} {o r : Flex} (I : Inv K s) (hi : s.objs[i]? = some o) (hj : s.objs[j]? = some r) (hij : i ≠ j) :
    o.data.b ≠ r.data.b := by
  have ho := I.obj i o hi
  have hr := I.obj j r hj
  cases h1 : o.db with
  | none =>
    cases h2 : r.db with
    | none => simp only [Flex.data, h1, h2, Option.getD_none]; exact I.sdist _ _ _ _ hi hj hij
    | some c =>
      simp only [Flex.data, h1, h2, Option.getD_none, Option.getD_some]
      intro e
      have a := ho.ns
      rw [e, (hr.hd c h2).2.2.1] at a; cases a
  | some b =>
    cases h2 : r.db with
    | none =>
      simp only [Flex.data, h1, h2, Option.getD_none, Option.getD_some]
      intro e
      have a := hr.ns
      rw [← e, (ho.hd b h1).2.2.1] at a; cases a
    | some c =>
      simp only [Flex.data, h1, h2, Option.getD_some]
      intro e
      exact I.ddist _ _ _ _ b hi hj hij h1 (by rw [h2, e])

/-- The invariant does not depend on the contents of the blocks. -/
theorem Inv.of_shape {K h h' objs} (I : Inv K ⟨h, objs⟩) (h1 : h'.len = h.len) (h2 : h'.dyn = h.dyn)
    (h3 : h'.next = h.next) : Inv K ⟨h', objs⟩ where
  obj i o ho := by
    have H := I.obj i o ho
    exact ⟨by rw [← H.hs]; exact congrFun h1 _, by rw [← H.ns]; exact congrFun h2 _, H.hn, fun b hb => by
      obtain ⟨a1, a2, a3, a4⟩ := H.hd b hb
      exact ⟨a1, by rw [← a2]; exact congrFun h1 _, by rw [← a3]; exact congrFun h2 _, a4⟩⟩
  fresh b hb := by
    have := I.fresh b (by simp only at hb ⊢; omega)
    rw [← this]; exact congrFun h1 _
  sdist := I.sdist
  ddist := I.ddist

theorem Inv.store {K h objs} (I : Inv K ⟨h, objs⟩) (p : Ptr) (ws : List Word) : Inv K ⟨h.store p ws, objs⟩ :=
  I.of_shape rfl rfl rfl

/-! ### Element access -/

theorem elem_ok {s : BigSt} {i k : Nat} {o : Flex} (hi : s.mem.objs[i]? = some o) (hk : k < o.size) :
    s.elem i k = .ok (o.data.add k) := by
  unfold BigSt.elem BigSt.buf
  rw [hi]
  simp only [ok_bind]
  rw [check_true (by simpa using hk)]
  rfl

theorem load_ok {s : BigSt} {i k : Nat} {o : Flex} {ws : List Word} (hi : s.mem.objs[i]? = some o) (hk : k < o.size)
    (hh : Has s.mem.heap o.data ws) (hk2 : k < ws.length) : s.load i k = .ok ws[k] := by
  unfold BigSt.load
  rw [elem_ok hi hk, ok_bind, hh.get k hk2]

theorem Hold.elem {s : BigSt} {i : Nat} {o : Flex} {X : Big} (H : Hold s i o X) : s.elem i 0 = .ok o.data :=
  elem_ok H.obj H.pos

/-! ### trim -/

/-- Replace `size_` and `is_neg_` of an object. -/
def BigSt.set (s : BigSt) (z : Nat) (R : Big) : BigSt := ⟨s.mem, upd s.size z R.ws.length, upd s.neg z R.neg⟩

theorem upd_self {α : Type} (f : Nat → α) (i : Nat) : Mem.upd f i (f i) = f := by
  funext j
  unfold Mem.upd
  split
  · next h => rw [h]
  · rfl

theorem upd_upd {α : Type} (f : Nat → α) (i : Nat) (a b : α) : Mem.upd (Mem.upd f i a) i b = Mem.upd f i b := by
  funext j
  unfold Mem.upd
  split <;> rfl

theorem set_setNeg (s : BigSt) (z : Nat) (R : Big) (b : Bool) : (s.set z R).setNeg z b = s.set z ⟨b, R.ws⟩ := by
  unfold BigSt.set BigSt.setNeg
  simp only [upd_upd]

theorem trimGo_spec {s : BigSt} {z : Nat} {o : Flex} {ws : List Word} (hz : s.mem.objs[z]? = some o)
    (hh : Has s.mem.heap o.data ws) (hs : ws.length ≤ o.size) : ∀ k, k < ws.length →
    s.trimGo z k = .ok (Big.trimGo ws k) := by
  intro k
  induction k with
  | zero => intro _; rfl
  | succ k ih =>
    intro hk
    simp only [BigSt.trimGo, Big.trimGo]
    rw [load_ok hz (by omega) hh hk, ok_bind, List.getElem?_eq_getElem hk, Option.getD_some, ih (by omega)]
    split <;> rfl

theorem big_trimGo_le (ws : List Word) : ∀ k, 1 ≤ Big.trimGo ws k ∧ Big.trimGo ws k ≤ k + 1 := by
  intro k
  induction k with
  | zero => simp [Big.trimGo]
  | succ k ih =>
    simp only [Big.trimGo]
    split <;> omega

theorem trim_ws (neg : Bool) (ws : List Word) : (Big.trim neg ws).ws = ws.take (Big.trimGo ws (ws.length - 1)) := rfl

theorem trim_len {neg : Bool} {ws : List Word} (h : ws ≠ []) :
    (Big.trim neg ws).ws.length = Big.trimGo ws (ws.length - 1) := by
  have := big_trimGo_le ws (ws.length - 1)
  have hl := List.length_pos_iff.2 h
  rw [trim_ws, List.length_take]
  omega

theorem trim_le {neg : Bool} {ws : List Word} (h : ws ≠ []) : (Big.trim neg ws).ws.length ≤ ws.length := by
  rw [trim_ws]; exact List.length_take_le' _ _

theorem trim_ne {neg : Bool} {ws : List Word} (h : ws ≠ []) : (Big.trim neg ws).ws ≠ [] := by
  intro e
  have h1 := trim_len (neg := neg) h
  rw [e] at h1
  have := big_trimGo_le ws (ws.length - 1)
  simp only [List.length_nil] at h1
  omega

theorem trim_spec {s : BigSt} {z : Nat} {o : Flex} {ws : List Word} (hz : s.mem.objs[z]? = some o)
    (hh : Has s.mem.heap o.data ws) (hs : ws.length ≤ o.size) (hne : ws ≠ []) :
    s.trim z ws.length = .ok (s.set z (Big.trim (s.neg z) ws)) := by
  have hl := List.length_pos_iff.2 hne
  unfold BigSt.trim
  rw [if_pos hl, trimGo_spec hz hh hs _ (by omega), ok_bind]
  dsimp only
  have hb := big_trimGo_le ws (ws.length - 1)
  have hlen := trim_len (neg := s.neg z) hne
  by_cases hm : Big.trimGo ws (ws.length - 1) > 1
  · rw [if_pos hm]
    congr 1
    unfold BigSt.set BigSt.setSize
    have hn : (Big.trim (s.neg z) ws).neg = s.neg z := by
      simp only [Big.trim]
      rw [if_neg]
      rintro ⟨h1, _⟩
      omega
    rw [hn, upd_self, hlen]
  · have hm1 : Big.trimGo ws (ws.length - 1) = 1 := by omega
    rw [if_neg hm, load_ok (s := s.setSize z _) hz (by omega) hh hl, ok_bind]
    congr 1
    have hn : (Big.trim (s.neg z) ws).neg = if ws[0] = 0 then false else s.neg z := by
      simp only [Big.trim, hm1]
      cases ws with
      | nil => exact absurd rfl hne
      | cons a t => simp
    unfold BigSt.set
    rw [hn, hlen]
    by_cases h0 : ws[0] = 0
    · rw [if_pos h0, if_pos h0]; rfl
    · rw [if_neg h0, if_neg h0, upd_self]; rfl

/-! ### resize -/

structure Resized (K : Kind) (s : BigSt) (z : Nat) (o : Flex) (n : Nat) (s1 : BigSt) (o1 : Flex) : Prop where
  inv : Inv K s1.mem
  obj : s1.mem.objs[z]? = some o1
  osize : o1.size = n
  ssize : s1.size = s.size
  sneg : s1.neg = s.neg
  room : s1.mem.heap.room o1.data n = true
  other : ∀ (i : Nat) r, i ≠ z → s.mem.objs[i]? = some r → s1.mem.objs[i]? = some r ∧ AgreeO s.mem.heap s1.mem.heap r
  keep : ∀ k, k < o.cap K → s1.mem.heap.cell o1.data.b k = s.mem.heap.cell o.data.b k
  capr : s1.mem.heap.room o1.data (o.cap K) = true
  old : ∀ b, o.db ≠ some b → b < s.mem.heap.next → Agree s.mem.heap s1.mem.heap b
  same : ¬ (K.dyn = true ∧ n > K.N ∧ n > o.dsize) → s1.mem.heap = s.mem.heap ∧ o1.data = o.data
  gone : K.dyn = true ∧ n > K.N ∧ n > o.dsize → ∀ b, o.db = some b → s1.mem.heap.len b = none
  len : s1.mem.objs.length = s.mem.objs.length

theorem resize_cap {K h o n h' o' f} (H : Obj K h o) (e : resize K h o n = .ok (h', o', f)) :
    o.cap K ≤ o'.cap K ∧ (¬ (K.dyn = true ∧ n > K.N ∧ n > o.dsize) → h' = h ∧ o'.data = o.data) ∧
    (K.dyn = true ∧ n > K.N ∧ n > o.dsize → ∀ b, o.db = some b → h'.len b = none) := by
  unfold resize at e
  by_cases hd : K.dyn = true
  · rw [if_pos hd] at e
    by_cases hg : n > K.N ∧ n > o.dsize
    · rw [if_pos hg] at e
      dsimp only at e
      refine ⟨?_, fun hh => absurd ⟨hd, hg⟩ hh, ?_⟩
      · cases hb : o.db with
        | none =>
          rw [hb] at e
          dsimp only at e
          cases hc : Heap.copy (h.alloc (o.dsize + max K.N n) true none).1 (h.alloc (o.dsize + max K.N n) true none).2 o.sb K.N with
          | error _ => rw [hc] at e; cases e
          | ok h1 =>
            rw [hc, ok_bind] at e
            cases e
            simp only [Flex.cap, hb, if_true]
            rw [if_neg (by simp)]; omega
        | some b =>
          rw [hb] at e
          dsimp only at e
          cases hc : Heap.copy (h.alloc (o.dsize + max K.N n) true none).1 (h.alloc (o.dsize + max K.N n) true none).2 b (o.dsize + max K.N n - max K.N n) with
          | error _ => rw [hc] at e; cases e
          | ok h1 =>
            rw [hc, ok_bind] at e
            cases hc2 : Heap.free h1 b with
            | error _ => rw [hc2] at e; cases e
            | ok h2 =>
              rw [hc2, ok_bind] at e
              cases e
              simp only [Flex.cap, hb]
              rw [if_neg (by simp), if_neg (by simp)]; omega
      · intro _ b hb
        rw [hb] at e
        dsimp only at e
        cases hc : Heap.copy (h.alloc (o.dsize + max K.N n) true none).1 (h.alloc (o.dsize + max K.N n) true none).2 b (o.dsize + max K.N n - max K.N n) with
        | error _ => rw [hc] at e; cases e
        | ok h1 =>
          rw [hc, ok_bind] at e
          cases hc2 : Heap.free h1 b with
          | error _ => rw [hc2] at e; cases e
          | ok h2 =>
            rw [hc2, ok_bind] at e
            cases e
            unfold Heap.free at hc2
            split at hc2
            · cases hc2; exact upd_same _ _ _
            · cases hc2
    · rw [if_neg hg] at e
      cases e
      exact ⟨Nat.le_refl _, fun _ => ⟨rfl, rfl⟩, fun hh => absurd hh.2 hg⟩
  · rw [if_neg hd] at e
    by_cases hn : n > K.N
    · rw [if_pos hn] at e
      cases e
      exact ⟨Nat.le_refl _, fun _ => ⟨rfl, rfl⟩, fun hh => absurd hh.1 hd⟩
    · rw [if_neg hn] at e
      cases e
      exact ⟨Nat.le_refl _, fun _ => ⟨rfl, rfl⟩, fun hh => absurd hh.1 hd⟩

theorem set_get_self {α : Type} {l : List α} {i : Nat} {a : α} (h : l[i]? = some a) : l.set i a = l := by
  apply List.ext_getElem?
  intro j
  rw [List.getElem?_set]
  by_cases hij : i = j
  · subst hij; rw [if_pos rfl, if_pos (lt_of_get h), h]
  · rw [if_neg hij]

theorem lim_fits (K : Kind) (n : Nat) : Cap.fits K.lim n = true ↔ (K.dyn = true ∨ n ≤ K.N) := by
  unfold Cap.fits Kind.lim
  cases K.dyn <;> simp

theorem big_resize {K : Kind} {s : BigSt} {z : Nat} {o : Flex} (I : Inv K s.mem) (hz : s.mem.objs[z]? = some o) (n : Nat) :
    (Cap.fits K.lim n = false ∧ s.resize K z n = .ok (s, false)) ∨
    (Cap.fits K.lim n = true ∧ ∃ s1 o1, s.resize K z n = .ok (s1, true) ∧ Resized K s z o n s1 o1) := by
  obtain ⟨⟨h, objs⟩, size, neg⟩ := s
  simp only at I hz
  obtain ⟨h', o', f, e1, e2, e3, e4, e5, e6, e7, e8, e9, e10⟩ := resize_spec I hz n
  have hr : BigSt.resize K ⟨⟨h, objs⟩, size, neg⟩ z n = .ok (⟨⟨h', objs.set z o'⟩, size, neg⟩, f) := by
    unfold BigSt.resize BigSt.buf
    simp only [hz, ok_bind, e1]
  obtain ⟨c1, c2, c3⟩ := resize_cap (I.obj z o hz) e1
  have hob : (objs.set z o')[z]? = some o' := by
    rw [List.getElem?_set, if_pos rfl, if_pos (lt_of_get hz)]
  cases f with
  | false =>
    left
    obtain ⟨rfl, rfl⟩ := e3 rfl
    refine ⟨?_, ?_⟩
    · rw [Bool.eq_false_iff]
      intro hf
      have := e2.2 ((lim_fits K n).1 hf)
      cases this
    · rw [hr, set_get_self hz]
  | true =>
    right
    refine ⟨(lim_fits K n).2 (e2.1 rfl), _, o', hr, ?_⟩
    have hO := e6.obj z o' hob
    have hsz := hO.size_le
    refine ⟨e6, hob, e4 rfl, rfl, rfl, ?_, ?_, e8, ?_, e10, c2, c3, by simp⟩
    · exact room_mono hO.room_cap (by rw [e4 rfl] at hsz; exact hsz)
    · intro i r hi hr
      refine ⟨?_, e9 i r hr hi⟩
      rw [List.getElem?_set, if_neg (Ne.symm hi)]; exact hr
    · exact room_mono hO.room_cap c1

theorem Has.agree {h h' : Heap} {p : Ptr} {ws : List Word} (H : Has h p ws) (A : Agree h h' p.b) : Has h' p ws :=
  H.of_agree A.1 (fun k _ => A.2.2 _)

theorem AgreeO.data {h h' : Heap} {o : Flex} (A : AgreeO h h' o) : Agree h h' o.data.b := by
  cases hb : o.db with
  | none => simp only [Flex.data, hb, Option.getD_none]; exact A.1
  | some b => simp only [Flex.data, hb, Option.getD_some]; exact A.2 b hb

theorem Rep.len_cap {K s i o X} (I : Inv K s.mem) (H : Hold s i o X) (hl : X.ws.length ≤ o.size) :
    X.ws.length ≤ o.cap K := Nat.le_trans hl (I.obj i o H.obj).size_le

/-- After the resize of `z` every operand (also one that is `z`) still has its value at its current address. -/
theorem Resized.hold {K s z o n s1 o1} (R : Resized K s z o n s1 o1) (I : Inv K s.mem) (hz : s.mem.objs[z]? = some o)
    (hn : 0 < n) {i : Nat} {X : Big} (H : Rep s i X) :
    ∃ r, Hold s1 i r X ∧ ((i = z ∧ r = o1) ∨ (i ≠ z ∧ r.data.b ≠ o1.data.b ∧ s.mem.objs[i]? = some r ∧ X.ws.length ≤ r.size)) := by
  obtain ⟨r, hr, hl⟩ := H
  by_cases hi : i = z
  · subst hi
    have : r = o := by have := hr.obj.symm.trans hz; exact Option.some.inj this
    subst this
    refine ⟨o1, ⟨R.obj, by rw [R.ssize]; exact hr.size, by rw [R.sneg]; exact hr.neg, ?_, hr.ne, by rw [R.osize]; exact hn⟩,
      Or.inl ⟨rfl, rfl⟩⟩
    have hcap := Rep.len_cap I hr hl
    refine ⟨room_mono R.capr hcap, ?_⟩
    intro k hk
    rw [data_off, Nat.zero_add, R.keep k (by omega), ← hr.has.2 k hk, data_off, Nat.zero_add]
  · obtain ⟨h1, h2⟩ := R.other i r hi hr.obj
    refine ⟨r, ⟨h1, by rw [R.ssize]; exact hr.size, by rw [R.sneg]; exact hr.neg, hr.has.agree h2.data, hr.ne, hr.pos⟩,
      Or.inr ⟨hi, data_ne R.inv h1 R.obj hi, hr.obj, hl⟩⟩

/-- Same or disjoint. -/
theorem Resized.cases {K s z o n s1 o1} (R : Resized K s z o n s1 o1) {i : Nat} {r : Flex} (h : s1.mem.objs[i]? = some r) :
    (r.data = o1.data) ∨ (r.data.b ≠ o1.data.b) := by
  by_cases hi : i = z
  · subst hi
    have : r = o1 := Option.some.inj (h.symm.trans R.obj)
    subst this; exact Or.inl rfl
  · exact Or.inr (data_ne R.inv h R.obj hi)

/-- Assemble the postcondition. -/
theorem Resized.post {K s z o n s1 o1} (R : Resized K s z o n s1 o1) (h2 : Heap) (hI : Inv K ⟨h2, s1.mem.objs⟩)
    (hag : ∀ (i : Nat) r, i ≠ z → s1.mem.objs[i]? = some r → Agree s1.mem.heap h2 r.data.b)
    (V : Big) (hV : V.ws ≠ []) (hl : V.ws.length ≤ n) (hh : Has h2 o1.data V.ws) :
    Post K s ((s1.withHeap h2).set z V) z V := by
  have hlp := List.length_pos_iff.2 hV
  refine ⟨hI, ?_, ?_, R.len⟩
  · refine ⟨o1, ⟨R.obj, upd_same _ _ _, upd_same _ _ _, hh, hV, by rw [R.osize]; omega⟩, by rw [R.osize]; exact hl⟩
  · intro i X hi H
    obtain ⟨r, hr, hlen⟩ := H
    obtain ⟨h1, h3⟩ := R.other i r hi hr.obj
    refine ⟨r, ⟨h1, ?_, ?_, (hr.has.agree h3.data).agree (hag i r hi h1), hr.ne, hr.pos⟩, hlen⟩
    · show upd s1.size z _ i = _
      rw [upd_ne _ _ _ _ hi, R.ssize]; exact hr.size
    · show upd s1.neg z _ i = _
      rw [upd_ne _ _ _ _ hi, R.sneg]; exact hr.neg

theorem store_agree (h : Heap) (p : Ptr) (ws : List Word) (b : Nat) (hb : b ≠ p.b) : Agree h (h.store p ws) b :=
  ⟨rfl, rfl, fun k => by rw [store_out]; simp [hb]⟩

/-- The usual end of an operation: the words `ws` were stored and trimmed. -/
theorem Resized.finish {K s z o n s1 o1} (R : Resized K s z o n s1 o1) (ws : List Word) (hw : ws.length = n) (hn : 0 < n) :
    (s1.withHeap (s1.mem.heap.store o1.data ws)).trim z n =
      .ok ((s1.withHeap (s1.mem.heap.store o1.data ws)).set z (Big.trim (s1.neg z) ws)) ∧
    ∀ b, Post K s ((s1.withHeap (s1.mem.heap.store o1.data ws)).set z ⟨b, (Big.trim (s1.neg z) ws).ws⟩) z
      ⟨b, (Big.trim (s1.neg z) ws).ws⟩ := by
  have hne : ws ≠ [] := by intro e; rw [e] at hw; simp at hw; omega
  have hh : Has (s1.mem.heap.store o1.data ws) o1.data ws := has_store _ _ _ (by rw [hw]; exact R.room)
  refine ⟨?_, ?_⟩
  · have := trim_spec (s := s1.withHeap (s1.mem.heap.store o1.data ws)) (z := z) (o := o1) (ws := ws) R.obj hh
      (by rw [R.osize, hw]) hne
    rw [hw] at this
    exact this
  · intro b
    refine R.post _ (Inv.store (h := s1.mem.heap) R.inv _ _) ?_ _ (trim_ne (neg := s1.neg z) hne) ?_ ?_
    · intro i r hi hr
      exact store_agree _ _ _ _ (data_ne R.inv hr R.obj hi)
    · rw [← hw]; exact trim_le (neg := s1.neg z) hne
    · exact hh.take _

/-! ### clear and assignment of a word -/

theorem Rep.fits_one {K s z Z} (I : Inv K s.mem) (H : Rep s z Z) : Cap.fits K.lim 1 = true := by
  obtain ⟨o, h, hl⟩ := H
  rw [lim_fits]
  have hO := I.obj z o h.obj
  cases hb : o.db with
  | none => right; have := (hO.hn hb).1; have := h.pos; omega
  | some b => left; exact (hO.hd b hb).1

theorem Rep.setNeg {s : BigSt} {z : Nat} {Z : Big} (b : Bool) (H : Rep s z Z) : Rep (s.setNeg z b) z ⟨b, Z.ws⟩ := by
  obtain ⟨o, h, hl⟩ := H
  exact ⟨o, ⟨h.obj, h.size, upd_same _ _ _, h.has, h.ne, h.pos⟩, hl⟩

theorem Rep.setNeg_ne {s : BigSt} {z i : Nat} {X : Big} (b : Bool) (hi : i ≠ z) (H : Rep s i X) : Rep (s.setNeg z b) i X := by
  obtain ⟨o, h, hl⟩ := H
  exact ⟨o, ⟨h.obj, h.size, (upd_ne _ _ _ _ hi).trans h.neg, h.has, h.ne, h.pos⟩, hl⟩

theorem Post.setNeg {K s s' z R} (P : Post K s s' z R) (b : Bool) : Post K s (s'.setNeg z b) z ⟨b, R.ws⟩ :=
  ⟨P.inv, Rep.setNeg b P.res, fun i X hi H => Rep.setNeg_ne b hi (P.frame i X hi H), P.len⟩

theorem Post.pre_setNeg {K s s' z R} (b : Bool) (P : Post K (s.setNeg z b) s' z R) : Post K s s' z R :=
  ⟨P.inv, P.res, fun i X hi H => P.frame i X hi (Rep.setNeg_ne b hi H), P.len⟩

theorem assignWord_spec {K s z Z} (I : Inv K s.mem) (H : Rep s z Z) (w : Word) :
    ∃ s', s.assignWord K z w = .ok s' ∧ Post K s s' z ⟨false, [w]⟩ := by
  have hf := H.fits_one I
  obtain ⟨o, hh, hl⟩ := H
  rcases big_resize (s := s.setNeg z false) (z := z) (o := o) I hh.obj 1 with ⟨h1, h2⟩ | ⟨_, s1, o1, h1, R⟩
  · rw [hf] at h1; cases h1
  · have e : s.assignWord K z w = .ok ((s1.withHeap (s1.mem.heap.put o1.data (some w))).setSize z 1) := by
      unfold BigSt.assignWord
      dsimp only
      rw [h1, ok_bind]
      dsimp only
      unfold BigSt.store
      rw [elem_ok (s := s1) (i := z) R.obj (by rw [R.osize]; omega), ok_bind, add_zero,
        write_ok R.room (by omega), ok_bind]
      rfl
    have hpost := R.post (s1.mem.heap.store o1.data [w]) (Inv.store (h := s1.mem.heap) R.inv _ _) (by
      intro i r hi hr
      exact store_agree _ _ _ _ (data_ne R.inv hr R.obj hi)) ⟨false, [w]⟩ (by simp) (by simp)
        (has_store _ _ _ (by simpa using R.room))
    refine ⟨_, e, ?_⟩
    rw [store_one]
    have e2 : (s1.withHeap (s1.mem.heap.store o1.data [w])).setSize z 1 =
        (s1.withHeap (s1.mem.heap.store o1.data [w])).set z ⟨false, [w]⟩ := by
      unfold BigSt.set BigSt.setSize BigSt.withHeap
      congr 1
      rw [R.sneg]
      show upd s.neg z false = upd (upd s.neg z false) z false
      rw [upd_upd]
    rw [e2]
    exact hpost.pre_setNeg false

theorem clear_spec' {K s z Z} (I : Inv K s.mem) (H : Rep s z Z) :
    ∃ s', s.clear K z = .ok s' ∧ Post K s s' z Big.zero := by
  obtain ⟨s1, e, P⟩ := assignWord_spec I H 0
  refine ⟨s1.setNeg z false, ?_, P.setNeg false⟩
  unfold BigSt.clear
  rw [e]; rfl

end Ack.Mem
