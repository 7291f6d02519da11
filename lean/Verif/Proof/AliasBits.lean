import Verif.Proof.Alias
import Verif.Proof.BigNative
import Mathlib.Data.List.GetD
/-! # `set_bit` on memory, and the operand addresses of `uadd` -/
namespace Ack.Mem

/-! ### a resize that does not change the object -/

theorem Resized.refl {K : Kind} {s : BigSt} {z : Nat} {o : Flex} (I : Inv K s.mem) (hz : s.mem.objs[z]? = some o) :
    Resized K s z o o.size s o := by
  have hO := I.obj z o hz
  have hc := hO.room_cap
  refine ⟨I, hz, rfl, rfl, rfl, room_mono hc hO.size_le, fun i r _ hr => ⟨hr, Agree.rfl' _ _, fun _ _ => Agree.rfl' _ _⟩,
    fun _ _ => rfl, hc, fun _ _ _ => Agree.rfl' _ _, fun _ => ⟨rfl, rfl⟩, ?_, rfl⟩
  intro hg b hb
  have := hO.hd b hb
  omega

/-- The words of a new heap block beyond the old capacity are indeterminate. -/
theorem resize_indet {K h o n h' o' f} (e : resize K h o n = .ok (h', o', f))
    (hg : K.dyn = true ∧ n > K.N ∧ n > o.dsize) : ∀ k, o.cap K ≤ k → h'.cell o'.data.b k = none := by
  unfold resize at e
  rw [if_pos hg.1, if_pos hg.2] at e
  dsimp only at e
  intro k hk
  unfold Flex.cap at hk
  cases hb : o.db with
  | none =>
    rw [hb] at e hk
    dsimp only at e
    simp only [if_true] at hk
    unfold Heap.copy at e
    split at e
    · rw [ok_bind] at e
      cases e
      simp only [Flex.data, Option.getD_some, upd_same, if_neg (Nat.not_lt.2 hk)]
      simp only [Heap.alloc, upd_same]
    · cases e
  | some b =>
    rw [hb] at e hk
    dsimp only at e
    rw [if_neg (by simp)] at hk
    unfold Heap.copy at e
    split at e
    · rw [ok_bind] at e
      unfold Heap.free at e
      split at e
      · rw [ok_bind] at e
        cases e
        simp only [Flex.data, Option.getD_some, upd_same]
        rw [if_neg (by omega)]
        simp only [Heap.alloc, upd_same]
      · cases e
    · cases e

theorem BigSt.resize_indet {K : Kind} {s s1 : BigSt} {z n : Nat} {o o1 : Flex} {f : Bool} (e : s.resize K z n = .ok (s1, f))
    (hz : s.mem.objs[z]? = some o) (h1 : s1.mem.objs[z]? = some o1)
    (hg : K.dyn = true ∧ n > K.N ∧ n > o.dsize) : ∀ k, o.cap K ≤ k → s1.mem.heap.cell o1.data.b k = none := by
  unfold BigSt.resize BigSt.buf at e
  rw [hz] at e
  simp only [ok_bind] at e
  cases hr : Mem.resize K s.mem.heap o n with
  | error _ => rw [hr] at e; cases e
  | ok t =>
    obtain ⟨h', o', f'⟩ := t
    rw [hr, ok_bind] at e
    cases e
    have : o' = o1 := by
      dsimp only at h1
      rw [List.getElem?_set, if_pos rfl, if_pos (lt_of_get hz)] at h1
      exact Option.some.inj h1
    subst this
    exact Mem.resize_indet hr hg

theorem read_indet {h : Heap} {p : Ptr} (hc : h.cell p.b p.off = none) : h.read p = .error .ub := by
  unfold Heap.read
  split
  · rw [hc]
  · rfl

theorem read_gone {h : Heap} {p : Ptr} (hc : h.len p.b = none) : h.read p = .error .ub := by
  unfold Heap.read Heap.room
  rw [hc]; rfl

theorem load_indet {s : BigSt} {i k : Nat} {o : Flex} (hi : s.mem.objs[i]? = some o) (hk : k < o.size)
    (hc : s.mem.heap.cell o.data.b k = none) : s.load i k = .error .ub := by
  unfold BigSt.load
  rw [elem_ok hi hk, ok_bind]
  exact read_indet (by rw [add_off, data_off, Nat.zero_add, add_b]; exact hc)

/-! ### `set_bit` -/

theorem isZero_ws {X : Big} (h : 0 < X.ws.length) : X.isZero = true ↔ X.ws = [0] := by
  obtain ⟨n, ws⟩ := X
  unfold Big.isZero
  rcases ws with _ | ⟨a, _ | ⟨b, t⟩⟩
  · simp at h
  · simp
  · simp

theorem bitLength_range {X : Big} (hc : X.Canon) : 32 * (X.ws.length - 1) < X.bitLength ∧ X.bitLength ≤ 32 * X.ws.length := by
  have hp := List.length_pos_iff.2 hc.1
  constructor
  · unfold Big.bitLength
    split
    · rename_i hz
      rw [(isZero_ws hp).1 hz]; simp
    · omega
  · rw [Big.bitLength_spec hc]
    split
    · omega
    · rw [Nat.size_le, Nat.pow_mul]
      exact val_lt X.ws

theorem bitLength_mem {s : BigSt} {i : Nat} {o : Flex} {X : Big} (H : Hold s i o X) (hl : X.ws.length ≤ o.size) :
    s.bitLength i = .ok X.bitLength := by
  have hp := List.length_pos_iff.2 H.ne
  unfold BigSt.bitLength
  rw [load_ok H.obj H.pos H.has hp, ok_bind, H.size, load_ok H.obj (by omega) H.has (by omega), ok_bind]
  have h0 : ∀ (l : List Word) (hl : 0 < l.length), (l.length = 1 ∧ l[0] = 0) ↔ l = [0] := by
    intro l hl
    rcases l with _ | ⟨a, _ | ⟨b, t⟩⟩
    · simp at hl
    · simp
    · simp
  have e1 : ∀ (l : List Word) (hl : 0 < l.length), l[l.length - 1]'(by omega) = l.getLastD 0 := by
    intro l hl
    rw [List.getLastD_eq_getLast?, List.getLast?_eq_getElem?, List.getElem?_eq_getElem (by omega)]
    rfl
  rw [e1 _ hp]
  unfold Big.bitLength
  by_cases hz : X.ws = [0]
  · rw [if_pos ((h0 _ hp).2 hz), if_pos ((isZero_ws hp).2 hz)]
  · rw [if_neg (fun h => hz ((h0 _ hp).1 h)), if_neg (fun h => hz ((isZero_ws hp).1 h))]

/-- The result of `set_bit` when the words `tail` lie above the value `X` in the storage, up to the word that holds
bit `i`. -/
def setBitR (X : Big) (tail : List Word) (i : Nat) (v : Bool) : Big :=
  let ws := X.ws ++ tail
  let w := ws.getD (i / 32) 0
  let ws' := ws.set (i / 32) (if v then w ||| 1#32 <<< (i % 32) else w &&& ~~~(1#32 <<< (i % 32)))
  if i + 1 ≥ X.bitLength then Big.trim X.neg ws' else ⟨X.neg, ws'⟩

theorem store_set {h : Heap} {p : Ptr} {ws : List Word} (H : Has h p ws) {q : Nat} (hq : q < ws.length) (w : Word) :
    h.store (p.add q) [w] = h.store p (ws.set q w) := by
  refine heap_ext (by rfl) ?_ (by rfl) (by rfl)
  funext b k
  rw [store_cell, store_cell]
  by_cases hb : b = p.b ∧ p.off ≤ k ∧ k < p.off + ws.length
  · have hb' : b = p.b ∧ p.off ≤ k ∧ k < p.off + (ws.set q w).length := by rw [List.length_set]; exact hb
    rw [if_pos hb']
    obtain ⟨rfl, h1, h2⟩ := hb
    obtain ⟨j, rfl⟩ : ∃ j, k = p.off + j := ⟨k - p.off, by omega⟩
    have hj : j < ws.length := by omega
    rw [add_b, add_off, List.length_singleton, List.getElem?_set, Nat.add_sub_cancel_left]
    by_cases hjq : q = j
    · subst hjq
      rw [if_pos ⟨rfl, by omega, by omega⟩, if_pos rfl, if_pos hq, Nat.sub_self]; rfl
    · rw [if_neg (by omega), if_neg hjq, H.2 j hj]
  · have hb' : ¬ (b = p.b ∧ p.off ≤ k ∧ k < p.off + (ws.set q w).length) := by rw [List.length_set]; exact hb
    rw [if_neg hb', if_neg]
    rw [add_b, add_off, List.length_singleton]
    omega

theorem store_elem {s : BigSt} {i q : Nat} {o : Flex} {ws : List Word} (hi : s.mem.objs[i]? = some o) (hq : q < ws.length)
    (hs : ws.length ≤ o.size) (H : Has s.mem.heap o.data ws) (w : Word) :
    s.store i q w = .ok (s.withHeap (s.mem.heap.store o.data (ws.set q w))) := by
  unfold BigSt.store
  rw [elem_ok hi (by omega), ok_bind, write_ok (n := 1) (room_add H.1 (by omega)) (by omega), ok_bind, store_one,
    store_set H hq]

/-- The part of `set_bit` after the resize. -/
theorem setBit_core {K : Kind} {s s1 : BigSt} {x i n : Nat} {o o1 : Flex} {X : Big} {tail : List Word}
    (R : Resized K s x o n s1 o1) (H : Hold s1 x o1 X) (hc : X.Canon) (hh : Has s1.mem.heap o1.data (X.ws ++ tail))
    (hn : (X.ws ++ tail).length ≤ n) (hq : i / 32 < (X.ws ++ tail).length)
    (ht : tail ≠ [] → (X.ws ++ tail).length = i / 32 + 1) (v : Bool) :
    ∃ s', (do
      let len ← s1.bitLength x
      let w ← s1.load x (i / 32)
      let s ← s1.store x (i / 32) (if v then w ||| (1#32 <<< (i % 32)) else w &&& ~~~(1#32 <<< (i % 32)))
      if i + 1 ≥ len then s.trim x (i / 32 + 1) else .ok s) = .ok s' ∧ Post K s s' x (setBitR X tail i v) := by
  have hp := List.length_pos_iff.2 hc.1
  have hXl : X.ws.length ≤ (X.ws ++ tail).length := by rw [List.length_append]; omega
  rw [bitLength_mem H (by rw [R.osize]; omega), ok_bind, load_ok H.obj (by rw [R.osize]; omega) hh hq, ok_bind]
  rw [store_elem H.obj hq (by rw [R.osize]; exact hn) hh, ok_bind]
  have hgd : (X.ws ++ tail)[i / 32] = (X.ws ++ tail).getD (i / 32) 0 := (List.getD_eq_getElem _ _ hq).symm
  rw [hgd]
  obtain ⟨ws', hws⟩ : ∃ ws', ws' = (X.ws ++ tail).set (i / 32) (if v then (X.ws ++ tail).getD (i / 32) 0 ||| (1#32 <<< (i % 32))
      else (X.ws ++ tail).getD (i / 32) 0 &&& ~~~(1#32 <<< (i % 32))) := ⟨_, rfl⟩
  have hwl : ws'.length = (X.ws ++ tail).length := by rw [hws, List.length_set]
  have hne : ws' ≠ [] := by intro e; rw [e] at hwl; simp only [List.length_nil] at hwl; omega
  have hR : setBitR X tail i v = if i + 1 ≥ X.bitLength then Big.trim X.neg ws' else ⟨X.neg, ws'⟩ := by
    unfold setBitR; rw [hws]
  rw [← hws, hR]
  have hst : Has (s1.mem.heap.store o1.data ws') o1.data ws' := has_store _ _ _ (room_mono R.room (by omega))
  have hag : ∀ (j : Nat) r, j ≠ x → s1.mem.objs[j]? = some r → Agree s1.mem.heap (s1.mem.heap.store o1.data ws') r.data.b := by
    intro j r hj hr
    exact store_agree _ _ _ _ (data_ne R.inv hr R.obj hj)
  have hI : Inv K ⟨s1.mem.heap.store o1.data ws', s1.mem.objs⟩ := Inv.store (h := s1.mem.heap) R.inv _ _
  have hbl := Big.bitLength_spec hc
  -- the length of a canonical number
  have hlow := (bitLength_range hc).1
  by_cases hb : i + 1 ≥ X.bitLength
  · rw [if_pos hb, if_pos hb]
    have hlen : ws'.length = i / 32 + 1 := by
      rw [hwl]
      by_cases h0 : tail = []
      · subst h0
        rw [List.append_nil] at *
        omega
      · exact ht h0
    have := trim_spec (s := s1.withHeap (s1.mem.heap.store o1.data ws')) (z := x) (o := o1) (ws := ws') R.obj hst
      (by rw [R.osize, hwl]; exact hn) hne
    rw [hlen] at this
    refine ⟨_, this, ?_⟩
    have hng : (s1.withHeap (s1.mem.heap.store o1.data ws')).neg x = X.neg := H.neg
    rw [hng]
    exact R.post _ hI hag _ (trim_ne hne) (Nat.le_trans (trim_le hne) (by omega)) (hst.take _)
  · rw [if_neg hb, if_neg hb]
    have h0 : tail = [] := by
      by_contra h0
      have h1 := ht h0
      have hbu := (bitLength_range hc).2
      have h2 : 0 < tail.length := List.length_pos_iff.2 h0
      rw [List.length_append] at h1
      omega
    subst h0
    rw [List.append_nil] at hwl
    refine ⟨_, rfl, ?_⟩
    have e : s1.withHeap (s1.mem.heap.store o1.data ws') =
        (s1.withHeap (s1.mem.heap.store o1.data ws')).set x ⟨X.neg, ws'⟩ := by
      unfold BigSt.set
      have e1 : (s1.withHeap (s1.mem.heap.store o1.data ws')).size x = ws'.length := by rw [hwl]; exact H.size
      have e2 : (s1.withHeap (s1.mem.heap.store o1.data ws')).neg x = X.neg := H.neg
      rw [← e2]
      show _ = BigSt.mk _ (upd _ x ws'.length) _
      rw [← e1, upd_self, upd_self]
    rw [e]
    exact R.post _ hI hag _ hne (by show ws'.length ≤ n; rw [hwl]; rw [List.append_nil] at hn; exact hn) hst

theorem setBit_spec {K : Kind} {s : BigSt} {x : Nat} {o : Flex} {X : Big} {tail : List Word} (I : Inv K s.mem)
    (H : Rep s x X) (hc : X.Canon) (i : Nat) (v : Bool) (ho : s.mem.objs[x]? = some o)
    (ht : tail.length = i / 32 + 1 - X.ws.length) (hcap : tail ≠ [] → i / 32 < o.cap K)
    (hw : ∀ (k : Nat) (hk : k < tail.length), s.mem.heap.cell o.data.b (X.ws.length + k) = some tail[k]) :
    ∃ s', s.setBit K x i v = .ok s' ∧ Post K s s' x (setBitR X tail i v) := by
  unfold BigSt.setBit
  dsimp only
  rw [H.size_eq]
  by_cases hg : i / 32 + 1 > X.ws.length
  · rw [if_pos hg]
    have hne : tail ≠ [] := by intro e; rw [e] at ht; simp only [List.length_nil] at ht; omega
    have hcap := hcap hne
    have hlen : (X.ws ++ tail).length = i / 32 + 1 := by rw [List.length_append]; omega
    have hfit : Cap.fits K.lim (i / 32 + 1) = true := by
      rw [lim_fits]
      unfold Flex.cap at hcap
      cases hb : o.db with
      | none => rw [if_pos hb] at hcap; right; omega
      | some b => left; exact ((I.obj x o ho).hd b hb).1
    rcases big_resize I ho (i / 32 + 1) with ⟨h1, h2⟩ | ⟨h1, s1, o1, h2, R⟩
    · rw [hfit] at h1; cases h1
    · obtain ⟨r, hr, hc2⟩ := R.hold I ho (by omega) H
      have hro : r = o1 := Option.some.inj (hr.obj.symm.trans R.obj)
      subst hro
      rw [h2, ok_bind]
      dsimp only
      rw [if_pos rfl]
      refine setBit_core R hr hc ?_ (by omega) (by omega) (fun _ => hlen) v
      refine ⟨room_mono R.room (by omega), ?_⟩
      intro k hk
      rw [data_off, Nat.zero_add]
      by_cases hkx : k < X.ws.length
      · rw [List.getElem?_append_left hkx]
        have := hr.has.2 k hkx
        rw [data_off, Nat.zero_add] at this
        exact this
      · have hkt : k - X.ws.length < tail.length := by rw [List.length_append] at hk; omega
        rw [List.getElem?_append_right (by omega), R.keep k (by omega), List.getElem?_eq_getElem hkt, ← hw _ hkt]
        congr 1
        omega
  · rw [if_neg hg]
    have hne : tail = [] := by
      have : tail.length = 0 := by omega
      exact List.length_eq_zero_iff.1 this
    subst hne
    obtain ⟨r, hr, hl⟩ := H
    have hro : r = o := Option.some.inj (hr.obj.symm.trans ho)
    subst hro
    exact setBit_core (Resized.refl I hr.obj) hr hc (by rw [List.append_nil]; exact hr.has)
      (by rw [List.append_nil]; exact hl) (by rw [List.append_nil]; omega) (fun h => absurd rfl h) v

/-- No room in a fixed buffer: the value becomes 0. -/
theorem setBit_full {K : Kind} {s : BigSt} {x : Nat} {X : Big} (I : Inv K s.mem) (H : Rep s x X) (i : Nat) (v : Bool)
    (hd : K.dyn = false) (hi : K.N ≤ i / 32) : ∃ s', s.setBit K x i v = .ok s' ∧ Post K s s' x ⟨false, [0]⟩ := by
  obtain ⟨s', e, P⟩ := clear_spec' I H
  have HH := H
  obtain ⟨o, hz, hl⟩ := H
  have hO := I.obj x o hz.obj
  have hdb : o.db = none := by
    cases hb : o.db with
    | none => rfl
    | some b => have := (hO.hd b hb).1; rw [hd] at this; cases this
  have := (hO.hn hdb).1
  refine ⟨s', ?_, P⟩
  unfold BigSt.setBit
  dsimp only
  rw [hz.size, if_pos (by omega)]
  rcases big_resize I hz.obj (i / 32 + 1) with ⟨h1, h2⟩ | ⟨h1, s1, o1, h2, R⟩
  · rw [h2, ok_bind]; dsimp only; rw [if_neg (by simp)]; exact e
  · rw [lim_fits, hd] at h1
    rcases h1 with h1 | h1
    · cases h1
    · omega

/-- The buffer has to grow: the word is read before anything was stored there. -/
theorem setBit_grow {K : Kind} {s : BigSt} {x : Nat} {X : Big} {o : Flex} (I : Inv K s.mem) (H : Rep s x X) (hc : X.Canon)
    (ho : s.mem.objs[x]? = some o) (i : Nat) (v : Bool) (hd : K.dyn = true) (hi : o.cap K ≤ i / 32) :
    s.setBit K x i v = .error .ub := by
  have HH := H
  obtain ⟨r, hz, hl⟩ := H
  have hro : r = o := Option.some.inj (hz.obj.symm.trans ho)
  subst hro
  have hO := I.obj x r ho
  have hsz := hO.size_le
  have hcapN : K.N ≤ r.cap K ∧ r.dsize ≤ r.cap K := by
    unfold Flex.cap
    cases hb : r.db with
    | none => have := hO.hn hb; rw [if_pos rfl]; omega
    | some b => have := hO.hd b hb; rw [if_neg (by simp)]; omega
  unfold BigSt.setBit
  dsimp only
  rw [hz.size, if_pos (by omega)]
  rcases big_resize I ho (i / 32 + 1) with ⟨h1, h2⟩ | ⟨h1, s1, o1, h2, R⟩
  · have : Cap.fits K.lim (i / 32 + 1) = true := (lim_fits _ _).2 (Or.inl hd)
    rw [this] at h1; cases h1
  · obtain ⟨r', hr, hc2⟩ := R.hold I ho (by omega) HH
    have hro : r' = o1 := Option.some.inj (hr.obj.symm.trans R.obj)
    subst hro
    rw [h2, ok_bind]
    dsimp only
    rw [if_pos rfl, bitLength_mem hr (by rw [R.osize]; omega), ok_bind,
      load_indet R.obj (by rw [R.osize]; omega) (BigSt.resize_indet h2 ho R.obj ⟨hd, by omega, by omega⟩ _ hi)]
    rfl

theorem setBitR_spec (X : Big) (tail : List Word) (i : Nat) (v : Bool) (hc : X.Canon)
    (ht : tail.length = i / 32 + 1 - X.ws.length) :
    (setBitR X tail i v).Canon ∧
    (∀ j, (val (setBitR X tail i v).ws).testBit j = if j = i then v else (val (X.ws ++ tail)).testBit j) ∧
    (val (setBitR X tail i v).ws ≠ 0 → (setBitR X tail i v).neg = X.neg) := by
  have hp := List.length_pos_iff.2 hc.1
  have hq : i / 32 < (X.ws ++ tail).length := by rw [List.length_append]; omega
  obtain ⟨ws', hws⟩ : ∃ ws', ws' = (X.ws ++ tail).set (i / 32) (if v then (X.ws ++ tail).getD (i / 32) 0 ||| (1#32 <<< (i % 32))
      else (X.ws ++ tail).getD (i / 32) 0 &&& ~~~(1#32 <<< (i % 32))) := ⟨_, rfl⟩
  have hR : setBitR X tail i v = if i + 1 ≥ X.bitLength then Big.trim X.neg ws' else ⟨X.neg, ws'⟩ := by
    unfold setBitR; rw [hws]
  have hwl : ws'.length = (X.ws ++ tail).length := by rw [hws, List.length_set]
  have hne : ws' ≠ [] := by intro e; rw [e] at hwl; simp only [List.length_nil] at hwl; omega
  have hbits : ∀ j, (val ws').testBit j = if j = i then v else (val (X.ws ++ tail)).testBit j := by
    intro j
    rw [Big.val_testBit, Big.val_testBit, hws, List.getElem?_set]
    have hm : i % 32 < 32 := Nat.mod_lt _ (by decide)
    have hm' : j % 32 < 32 := Nat.mod_lt _ (by decide)
    have hsh : ∀ r : Nat, r < 32 → (1#32 <<< (i % 32)).getLsbD r = decide (r = i % 32) := by
      intro r hr
      rw [BitVec.getLsbD_shiftLeft, BitVec.getLsbD_one]
      by_cases h : r = i % 32
      · subst h; simp [hr]
      · have : decide (r = i % 32) = false := by simp [h]
        rw [this]
        by_cases h2 : r < i % 32
        · simp [h2]
        · have : r - i % 32 ≠ 0 := by omega
          simp [this]
    by_cases hjq : i / 32 = j / 32
    · rw [if_pos hjq, if_pos hq, Option.getD_some]
      have ew : (X.ws ++ tail).getD (i / 32) 0 = (X.ws ++ tail)[j / 32]?.getD 0 := by
        rw [List.getD_eq_getElem?_getD, hjq]
      rw [ew]
      obtain ⟨w, hw⟩ : ∃ w, w = (X.ws ++ tail)[j / 32]?.getD 0 := ⟨_, rfl⟩
      rw [← hw]
      have hji : (j = i) ↔ j % 32 = i % 32 := by omega
      show BitVec.getLsbD _ _ = if j = i then v else BitVec.getLsbD w (j % 32)
      by_cases h : j = i
      · rw [if_pos h]
        have h3 := hji.1 h
        cases v with
        | true => rw [if_pos rfl, BitVec.getLsbD_or, hsh _ hm', decide_eq_true h3, Bool.or_true]
        | false =>
          rw [if_neg (by simp), BitVec.getLsbD_and, BitVec.getLsbD_not, hsh _ hm', decide_eq_true h3]
          simp
      · rw [if_neg h]
        have h3 : ¬ j % 32 = i % 32 := fun e => h (hji.2 e)
        cases v with
        | true => rw [if_pos rfl, BitVec.getLsbD_or, hsh _ hm', decide_eq_false h3, Bool.or_false]
        | false =>
          rw [if_neg (by simp), BitVec.getLsbD_and, BitVec.getLsbD_not, hsh _ hm', decide_eq_false h3]
          simp [hm']
    · rw [if_neg hjq, if_neg (by rintro rfl; exact hjq rfl)]
  rw [hR]
  by_cases hb : i + 1 ≥ X.bitLength
  · rw [if_pos hb]
    refine ⟨Big.trim_canon _ _ hne, ?_, ?_⟩
    · intro j; rw [Big.trim_val _ _ hne]; exact hbits j
    · intro h
      rw [Big.trim_val _ _ hne] at h
      rw [Big.trim_neg _ _ hne]
      simp [h]
  · rw [if_neg hb]
    refine ⟨⟨hne, ?_⟩, hbits, fun _ => rfl⟩
    intro _
    -- the top bit of the value is still set
    have hbs := Big.bitLength_spec hc
    have hX0 : X.toInt ≠ 0 := by
      intro h
      rw [if_pos h] at hbs
      omega
    rw [if_neg hX0] at hbs
    have htl : tail = [] := by
      by_contra h0
      have h2 : 0 < tail.length := List.length_pos_iff.2 h0
      have hbu := (bitLength_range hc).2
      omega
    subst htl
    rw [List.append_nil] at hwl hbits
    have hlow := (bitLength_range hc).1
    have hv0 : val X.ws ≠ 0 := by
      intro h; exact hX0 ((Big.toInt_zero_iff X).2 h)
    have htop : (val X.ws).testBit (X.bitLength - 1) = true := by
      rw [hbs]
      have hlt := Nat.lt_size_self (val X.ws)
      have hs : 0 < (val X.ws).size := Nat.size_pos.2 (by omega)
      have hge : 2 ^ ((val X.ws).size - 1) ≤ val X.ws := Nat.lt_size.1 (by omega)
      rw [Nat.testBit_eq_decide_div_mod_eq, decide_eq_true_eq]
      have e2 : 2 ^ (val X.ws).size = 2 * 2 ^ ((val X.ws).size - 1) := by
        rw [← Nat.pow_succ']; congr 1; omega
      have h1 : val X.ws / 2 ^ ((val X.ws).size - 1) = 1 := by
        apply Nat.div_eq_of_lt_le
        · omega
        · omega
      rw [h1]
    have := hbits (X.bitLength - 1)
    rw [if_neg (by omega), htop, Big.val_testBit] at this
    have hbu := (bitLength_range hc).2
    have hidx : (X.bitLength - 1) / 32 = ws'.length - 1 := by omega
    rw [hidx] at this
    intro h
    rw [List.getLastD_eq_getLast?, List.getLast?_eq_getElem?] at h
    show False
    dsimp only at h
    rw [h] at this
    simp at this

/-! ### Operand addresses taken before the resize -/

theorem mAddN_gone {z x y : Ptr} {n : Nat} {h : Heap} (hn : 0 < n) (hxy : h.len x.b = none ∨ h.len y.b = none)
    (hx : h.len x.b = none ∨ ∃ w, h.read x = .ok w) : mAddN z x y n h = .error .ub := by
  obtain ⟨m, rfl⟩ : ∃ m, n = m + 1 := ⟨n - 1, by omega⟩
  unfold mAddN
  simp only [mapUp2]
  rcases hx with hx | ⟨w, hx⟩
  · rw [read_gone hx]; rfl
  · rw [hx, ok_bind]
    rcases hxy with h1 | h1
    · rw [read_gone h1] at hx; cases hx
    · rw [read_gone h1]; rfl

theorem mAddN_gone' {z x y : Ptr} {n : Nat} {h : Heap} (hn : 0 < n) (hxy : h.len x.b = none ∨ h.len y.b = none)
    (hx : h.len x.b = none ∨ ∃ ws, ws ≠ [] ∧ Has h x ws) : mAddN z x y n h = .error .ub := by
  refine mAddN_gone hn hxy ?_
  rcases hx with hx | ⟨ws, h1, h2⟩
  · exact Or.inl hx
  · cases ws with
    | nil => exact absurd rfl h1
    | cons a t => exact Or.inr ⟨a, read_has h2⟩

/-- The sum is stored into one of the summands, whose words lie on the heap and do not leave room for the sum: the
addresses of the operands dangle. -/
theorem uadd_dangling {K : Kind} {s : BigSt} {z x y : Nat} {X Y : Big} {o : Flex} {b : Nat} (I : Inv K s.mem)
    (hx : Rep s x X) (hy : Rep s y Y) (hzxy : z = x ∨ z = y) (ho : s.mem.objs[z]? = some o) (hb : o.db = some b)
    (hg : o.dsize < max X.ws.length Y.ws.length + 1) : s.uadd K z x y = .error .ub := by
  have hX := hx
  have hY := hy
  obtain ⟨rx, hx, lx⟩ := hx
  obtain ⟨ry, hy, ly⟩ := hy
  have hO := (I.obj z o ho).hd b hb
  have hpx := List.length_pos_iff.2 hx.ne
  have hpy := List.length_pos_iff.2 hy.ne
  -- after the resize the block of an operand is gone or still holds its value
  have key : ∀ n s1 o1, n = max X.ws.length Y.ws.length → Resized K s z o (n + 1) s1 o1 →
      (∀ i r W, Hold s i r W → s1.mem.heap.len r.data.b = none ∨ ∃ ws, ws ≠ [] ∧ Has s1.mem.heap r.data ws) ∧
      (s1.mem.heap.len rx.data.b = none ∨ s1.mem.heap.len ry.data.b = none) := by
    intro n s1 o1 hn R
    have hgone := R.gone ⟨hO.1, by omega, by omega⟩ b hb
    have hbb : o.data.b = b := by simp only [Flex.data, hb, Option.getD_some]
    have hg1 : ∀ i r W, Hold s i r W → i = z → s1.mem.heap.len r.data.b = none := by
      intro i r W H e
      subst e
      have : r = o := Option.some.inj (H.obj.symm.trans ho)
      rw [this, hbb]; exact hgone
    refine ⟨?_, ?_⟩
    · intro i r W H
      by_cases e : i = z
      · exact Or.inl (hg1 i r W H e)
      · exact Or.inr ⟨W.ws, H.ne, H.has.agree (R.other i r e H.obj).2.data⟩
    · rcases hzxy with e | e
      · exact Or.inl (hg1 x rx X hx e.symm)
      · exact Or.inr (hg1 y ry Y hy e.symm)
  have hfit : ∀ n, Cap.fits K.lim n = true := fun n => (lim_fits K n).2 (Or.inl hO.1)
  unfold BigSt.uadd
  rw [hx.elem, ok_bind, hy.elem, ok_bind, hx.size, hy.size]
  by_cases hc : Y.ws.length > X.ws.length
  · rw [if_pos hc]
    unfold BigSt.uaddGe
    rcases big_resize I ho (Y.ws.length + 1) with ⟨h1, h2⟩ | ⟨h1, s1, o1, h2, R⟩
    · rw [hfit] at h1; cases h1
    · obtain ⟨k1, k2⟩ := key _ s1 o1 (by omega) R
      rw [h2, ok_bind]
      dsimp only
      rw [if_pos rfl, elem_ok R.obj (by rw [R.osize]; omega), ok_bind, mAddN_gone' hpx k2.symm (k1 y ry Y hy)]
      rfl
  · rw [if_neg hc]
    unfold BigSt.uaddGe
    rcases big_resize I ho (X.ws.length + 1) with ⟨h1, h2⟩ | ⟨h1, s1, o1, h2, R⟩
    · rw [hfit] at h1; cases h1
    · obtain ⟨k1, k2⟩ := key _ s1 o1 (by omega) R
      rw [h2, ok_bind]
      dsimp only
      rw [if_pos rfl, elem_ok R.obj (by rw [R.osize]; omega), ok_bind, mAddN_gone' hpy k2 (k1 x rx X hx)]
      rfl

end Ack.Mem
