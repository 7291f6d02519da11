import Verif.Model.AliasOps
import Verif.Proof.AliasBits
import Verif.Proof.BigArith
import Verif.Proof.BigNT
/-! # The remaining operations on memory; `lcm` -/
namespace Ack.Mem
open Spec (Good Bad)

/-! ### Values and the contents of buffers -/

theorem rep_abs {K : Kind} {s : BigSt} (I : Inv K s.mem) (i : Nat) (X : Big) :
    Rep s i X ↔ X.ws ≠ [] ∧ s.size i = X.ws.length ∧ s.neg i = X.neg ∧
      ∃ buf, (Mem.abs s.mem)[i]? = some buf ∧ X.ws.length ≤ buf.length ∧ ∀ k : Nat, k < X.ws.length → buf[k]? = some X.ws[k]? := by
  constructor
  · rintro ⟨o, H, hl⟩
    refine ⟨H.ne, H.size, H.neg, contents s.mem.heap o, ?_, ?_, ?_⟩
    · rw [abs_get, H.obj]; rfl
    · unfold contents; rw [List.length_map, List.length_range]; exact hl
    · intro k hk
      unfold contents
      rw [List.getElem?_map, List.getElem?_range (by omega), Option.map_some]
      have := H.has.2 k hk
      rw [data_off, Nat.zero_add] at this
      rw [this]
  · rintro ⟨h1, h2, h3, buf, h4, h5, h6⟩
    rw [abs_get] at h4
    cases ho : s.mem.objs[i]? with
    | none => rw [ho] at h4; cases h4
    | some o =>
      rw [ho, Option.map_some] at h4
      have h4 := Option.some.inj h4
      subst h4
      have hl : (contents s.mem.heap o).length = o.size := by unfold contents; rw [List.length_map, List.length_range]
      rw [hl] at h5
      have hp := List.length_pos_iff.2 h1
      refine ⟨o, ⟨ho, h2, h3, ⟨?_, ?_⟩, h1, by omega⟩, h5⟩
      · exact room_mono (I.obj i o ho).room_cap (Nat.le_trans h5 (I.obj i o ho).size_le)
      · intro k hk
        have := h6 k hk
        unfold contents at this
        rw [List.getElem?_map, List.getElem?_range (by omega), Option.map_some] at this
        rw [data_off, Nat.zero_add]
        exact Option.some.inj this

theorem Rep.lt {s : BigSt} {z : Nat} {Z : Big} (h : Rep s z Z) : z < s.mem.objs.length := by
  obtain ⟨o, H, _⟩ := h; exact lt_of_get H.obj

theorem assignBuf_spec {K : Kind} {s : BigSt} {z x : Nat} {X : Big} (I : Inv K s.mem) (hx : Rep s x X) :
    ∃ s' buf, s.assignBuf K z x = .ok s' ∧ Inv K s'.mem ∧ s'.size = s.size ∧ s'.neg = s.neg ∧
      (Mem.abs s.mem)[x]? = some buf ∧ Mem.abs s'.mem = (Mem.abs s.mem).set z buf := by
  obtain ⟨hx1, hx2, hx3, buf, hb, _⟩ := (rep_abs I x X).1 hx
  rcases step_spec I (.copyAssign z x) with ⟨m, out, e, I', g⟩ | ⟨e, _, b⟩
  · refine ⟨{ s with mem := m }, buf, ?_, I', rfl, rfl, hb, ?_⟩
    · unfold BigSt.assignBuf; rw [e]; rfl
    · have := lt_of_get hb
      exact g.1 buf this hb
  · exact b.elim

theorem assignBuf_post {K : Kind} {s : BigSt} {z x : Nat} {X : Big} (I : Inv K s.mem) (hx : Rep s x X) (hz : z < s.mem.objs.length) :
    ∃ s', s.assignBuf K z x = .ok s' ∧ s'.size = s.size ∧ s'.neg = s.neg ∧ ∀ b, Post K s (s'.set z ⟨b, X.ws⟩) z ⟨b, X.ws⟩ := by
  obtain ⟨s', buf, e1, I', hs, hn, hb, ha⟩ := assignBuf_spec (z := z) I hx
  obtain ⟨hx1, hx2, hx3, buf', hb', hb2, hb3⟩ := (rep_abs I x X).1 hx
  have : buf' = buf := Option.some.inj (hb'.symm.trans hb)
  subst this
  have hlen : s'.mem.objs.length = s.mem.objs.length := by
    rw [← abs_length, ← abs_length, ha, List.length_set]
  refine ⟨s', e1, hs, hn, fun b => ⟨I', ?_, ?_, hlen⟩⟩
  · refine (rep_abs (s := s'.set z ⟨b, X.ws⟩) I' z ⟨b, X.ws⟩).2 ⟨hx1, upd_same _ _ _, upd_same _ _ _, buf', ?_, hb2, hb3⟩
    show (Mem.abs s'.mem)[z]? = _
    rw [ha, List.getElem?_set, if_pos rfl, if_pos (by rw [abs_length]; exact hz)]
  · intro i W hi H
    obtain ⟨w1, w2, w3, wb, w4, w5, w6⟩ := (rep_abs I i W).1 H
    refine (rep_abs (s := s'.set z ⟨b, X.ws⟩) I' i W).2 ⟨w1, ?_, ?_, wb, ?_, w5, w6⟩
    · show upd s'.size z _ i = _
      rw [upd_ne _ _ _ _ hi, hs]; exact w2
    · show upd s'.neg z _ i = _
      rw [upd_ne _ _ _ _ hi, hn]; exact w3
    · show (Mem.abs s'.mem)[i]? = _
      rw [ha, List.getElem?_set, if_neg (Ne.symm hi)]; exact w4

theorem assign_new {K : Kind} {s : BigSt} {z x : Nat} {X : Big} (I : Inv K s.mem) (hx : Rep s x X) (hz : z < s.mem.objs.length) :
    ∃ s', s.assign K z x = .ok s' ∧ Post K s s' z X := by
  unfold BigSt.assign
  by_cases e : z = x
  · subst e
    rw [if_pos rfl]
    exact ⟨s, rfl, I, hx, fun _ _ _ h => h, rfl⟩
  · rw [if_neg e]
    obtain ⟨s', e1, hs, hn, P⟩ := assignBuf_post I hx hz
    rw [e1, ok_bind]
    have := P X.neg
    refine ⟨_, rfl, ?_⟩
    rw [hs, hn, hx.size_eq, hx.neg_eq]
    exact this

theorem assign_spec {K : Kind} {s : BigSt} {z x : Nat} {X Z : Big} (I : Inv K s.mem) (hx : Rep s x X) (hz : Rep s z Z) :
    ∃ s', s.assign K z x = .ok s' ∧ Post K s s' z X := assign_new I hx hz.lt

theorem negate_spec {K : Kind} {s : BigSt} {z x : Nat} {X Z : Big} (I : Inv K s.mem) (hx : Rep s x X) (hz : Rep s z Z) :
    ∃ s', s.negate K z x = .ok s' ∧ Post K s s' z (Big.negate X) := by
  obtain ⟨s', e, P⟩ := assign_spec I hx hz
  unfold BigSt.negate
  rw [e, ok_bind]
  have : s'.neg x = X.neg := by
    by_cases h : x = z
    · subst h; exact P.res.neg_eq
    · exact (P.frame x X h hx).neg_eq
  rw [this]
  exact ⟨_, rfl, P.setNeg _⟩

theorem abs_spec {K : Kind} {s : BigSt} {z x : Nat} {X Z : Big} (I : Inv K s.mem) (hx : Rep s x X) (hz : Rep s z Z) :
    ∃ s', s.abs K z x = .ok s' ∧ Post K s s' z (Big.abs X) := by
  obtain ⟨s', e, P⟩ := assign_spec I hx hz
  unfold BigSt.abs
  rw [e, ok_bind]
  exact ⟨_, rfl, P.setNeg _⟩

/-! ### Bit operations -/

theorem bitLoop_spec {K : Kind} {s s1 : BigSt} {z x y n : Nat} {o o1 rx ry : Flex} {X Y : Big} (f : Word → Word → Word)
    (R : Resized K s z o n s1 o1) (hx : Hold s1 x rx X) (hy : Hold s1 y ry Y) (m : Nat) (hmx : m ≤ X.ws.length)
    (hmy : m ≤ Y.ws.length) (hsx : m ≤ rx.size) (hsy : m ≤ ry.size) (hn : m ≤ n) : ∀ (k i : Nat), i + k = m →
    BigSt.bitLoop f z x y k i (s1.withHeap (s1.mem.heap.store o1.data (List.zipWith f (X.ws.take i) (Y.ws.take i)))) =
      .ok (s1.withHeap (s1.mem.heap.store o1.data (List.zipWith f (X.ws.take m) (Y.ws.take m)))) := by
  intro k
  induction k with
  | zero => intro i hi; rw [Nat.add_zero] at hi; subst hi; rfl
  | succ k ih =>
    intro i hi
    have hWl : (List.zipWith f (X.ws.take i) (Y.ws.take i)).length = i := by
      rw [List.length_zipWith, List.length_take, List.length_take]; omega
    obtain ⟨W, hW⟩ : ∃ W, W = List.zipWith f (X.ws.take i) (Y.ws.take i) := ⟨_, rfl⟩
    rw [← hW] at hWl ⊢
    have get : ∀ (u : Nat) (r : Flex) (U : Big), Hold s1 u r U → m ≤ U.ws.length → m ≤ r.size →
        ∀ hu : i < U.ws.length, (s1.withHeap (s1.mem.heap.store o1.data W)).load u i = .ok (U.ws[i]) := by
      intro u r U hu hm hs hlt
      unfold BigSt.load
      rw [elem_ok (s := s1.withHeap (s1.mem.heap.store o1.data W)) hu.obj (by omega), ok_bind]
      have hd : Has (s1.mem.heap.store o1.data W) (r.data.add i) (U.ws.drop i) := by
        rcases R.cases hu.obj with c | c
        · rw [c]
          have := Has.drop_store (vs := W) (c ▸ hu.has) (by omega)
          rw [hWl] at this
          exact this
        · exact (hu.has.store_ne c).drop i (by omega)
      have hg := hd.get 0 (by rw [List.length_drop]; omega)
      rw [add_zero] at hg
      rw [show (s1.withHeap (s1.mem.heap.store o1.data W)).mem.heap = s1.mem.heap.store o1.data W from rfl, hg]
      simp
    simp only [BigSt.bitLoop]
    rw [get x rx X hx hmx hsx (by omega), ok_bind, get y ry Y hy hmy hsy (by omega), ok_bind]
    have hst : (s1.withHeap (s1.mem.heap.store o1.data W)).store z i (f (X.ws[i]'(by omega)) (Y.ws[i]'(by omega))) =
        .ok (s1.withHeap (s1.mem.heap.store o1.data (List.zipWith f (X.ws.take (i + 1)) (Y.ws.take (i + 1))))) := by
      unfold BigSt.store
      rw [elem_ok (s := s1.withHeap (s1.mem.heap.store o1.data W)) R.obj (by rw [R.osize]; omega), ok_bind]
      show (do let h ← (s1.mem.heap.store o1.data W).write (o1.data.add i) _; _) = _
      rw [write_ok (n := 1) (by rw [room_len (store_len _ _ _)]; exact room_add R.room (by omega)) (by omega), ok_bind,
        store_one]
      have e : List.zipWith f (X.ws.take (i + 1)) (Y.ws.take (i + 1)) = W ++ [f (X.ws[i]'(by omega)) (Y.ws[i]'(by omega))] := by
        have hx' : i < X.ws.length := by omega
        have hy' : i < Y.ws.length := by omega
        clear get ih
        generalize hf : f (X.ws[i]'hx') (Y.ws[i]'hy') = fv
        clear hWl
        subst hW hf
        rw [List.take_succ_eq_append_getElem hx', List.take_succ_eq_append_getElem hy',
          List.zipWith_append (by rw [List.length_take, List.length_take]; omega)]
        rfl
      rw [e, ← store_append, hWl]
      rfl
    rw [hst, ok_bind]
    exact ih (i + 1) (by omega)

theorem andBit_spec {K : Kind} {s : BigSt} {z x y : Nat} {X Y Z : Big} (I : Inv K s.mem) (hx : Rep s x X)
    (hy : Rep s y Y) (hz : Rep s z Z) : ∃ s', s.andBit K z x y = .ok s' ∧ Post K s s' z (Big.andBit Z.neg X Y) := by
  have hX := hx
  have hY := hy
  have hZ := hz
  obtain ⟨o, hz, lz⟩ := hz
  have hpx := hx.pos
  have hpy := hy.pos
  obtain ⟨yn, hyn⟩ : ∃ yn, yn = min X.ws.length Y.ws.length := ⟨_, rfl⟩
  have e1 : s.size (if s.size x < s.size y then x else y) = yn := by
    rw [hx.size_eq, hy.size_eq]
    split
    · rw [hx.size_eq]; omega
    · rw [hy.size_eq]; omega
  have e2 : Big.andBit Z.neg X Y = Big.trim Z.neg (List.zipWith (· &&& ·) (X.ws.take yn) (Y.ws.take yn)) := by
    unfold Big.andBit
    by_cases h : X.ws.length < Y.ws.length
    · rw [if_pos h]; dsimp only; rw [show yn = X.ws.length by omega]
    · rw [if_neg h]; dsimp only; rw [show yn = Y.ws.length by omega]
  unfold BigSt.andBit
  dsimp only
  rw [e1, e2]
  rcases big_resize I hz.obj yn with ⟨h1, h2⟩ | ⟨h1, s1, o1, h2, R⟩
  · rw [hX.fits I (by omega)] at h1; cases h1
  · obtain ⟨rx, hx, cx⟩ := R.hold I hz.obj (by omega) hX
    obtain ⟨ry, hy, cy⟩ := R.hold I hz.obj (by omega) hY
    have sz : ∀ (i : Nat) (r : Flex) (U : Big), yn ≤ U.ws.length → ((i = z ∧ r = o1) ∨ (i ≠ z ∧ r.data.b ≠ o1.data.b ∧ s.mem.objs[i]? = some r ∧ U.ws.length ≤ r.size)) → yn ≤ r.size := by
      intro i r U hm h
      rcases h with ⟨_, h⟩ | ⟨_, _, _, h⟩
      · rw [h, R.osize]
      · omega
    have hl := bitLoop_spec (· &&& ·) R hx hy yn (by omega) (by omega) (sz _ _ X (by omega) cx) (sz _ _ Y (by omega) cy) (Nat.le_refl _) yn 0 (by omega)
    have e0 : s1.withHeap (s1.mem.heap.store o1.data (List.zipWith (fun a b : Word => a &&& b) (X.ws.take 0) (Y.ws.take 0))) = s1 := by
      rw [List.take_zero, List.take_zero, List.zipWith_nil_left, store_nil]
      rfl
    rw [e0] at hl
    obtain ⟨f1, f2⟩ := R.finish (List.zipWith (· &&& ·) (X.ws.take yn) (Y.ws.take yn)) (by
      rw [List.length_zipWith, List.length_take, List.length_take]; omega) (by omega)
    have nz : s1.neg z = Z.neg := by rw [R.sneg]; exact hz.neg
    rw [nz] at f1 f2
    refine ⟨_, ?_, f2 (Big.trim Z.neg (List.zipWith (· &&& ·) (X.ws.take yn) (Y.ws.take yn))).neg⟩
    rw [h2, ok_bind]
    dsimp only
    rw [if_pos rfl, hl, ok_bind]
    exact f1

theorem orBit_spec {K : Kind} {s : BigSt} {z x y : Nat} {X Y Z : Big} (I : Inv K s.mem) (hx : Rep s x X)
    (hy : Rep s y Y) (hz : Rep s z Z) : ∃ s', s.orBit K z x y = .ok s' ∧ Post K s s' z (Big.orBit Z.neg X Y) := by
  have hX := hx
  have hY := hy
  have hZ := hz
  obtain ⟨o, hz, lz⟩ := hz
  have hpx := hx.pos
  have hpy := hy.pos
  -- the longer operand
  obtain ⟨p, P, hP, ep, eyn, eP, hle1, hle2, hcase⟩ : ∃ p P, Rep s p P ∧ p = (if s.size x < s.size y then y else x) ∧
      s.size (if s.size x < s.size y then x else y) = min X.ws.length Y.ws.length ∧
      Big.orBit Z.neg X Y = Big.trim Z.neg (List.zipWith (· ||| ·) (X.ws.take (min X.ws.length Y.ws.length))
        (Y.ws.take (min X.ws.length Y.ws.length)) ++ P.ws.drop (min X.ws.length Y.ws.length)) ∧
      X.ws.length ≤ P.ws.length ∧ Y.ws.length ≤ P.ws.length ∧ (P = X ∨ P = Y) := by
    unfold Big.orBit
    rw [hx.size_eq, hy.size_eq]
    by_cases h : X.ws.length < Y.ws.length
    · refine ⟨y, Y, hy, by rw [if_pos h], by rw [if_pos h, hx.size_eq]; omega, ?_, by omega, by omega, Or.inr rfl⟩
      rw [if_pos h]; dsimp only; rw [show min X.ws.length Y.ws.length = X.ws.length by omega]
    · refine ⟨x, X, hx, by rw [if_neg h], by rw [if_neg h, hy.size_eq]; omega, ?_, by omega, by omega, Or.inl rfl⟩
      rw [if_neg h]; dsimp only; rw [show min X.ws.length Y.ws.length = Y.ws.length by omega]
  obtain ⟨yn, hyn⟩ : ∃ yn, yn = min X.ws.length Y.ws.length := ⟨_, rfl⟩
  rw [← hyn] at eyn eP
  unfold BigSt.orBit
  dsimp only
  rw [← ep, eyn, eP, hP.size_eq]
  have hpp : 0 < P.ws.length := by omega
  rcases big_resize I hz.obj P.ws.length with ⟨h1, h2⟩ | ⟨h1, s1, o1, h2, R⟩
  · rw [hP.fits I (Nat.le_refl _)] at h1; cases h1
  · obtain ⟨rx, hx, cx⟩ := R.hold I hz.obj hpp hX
    obtain ⟨ry, hy, cy⟩ := R.hold I hz.obj hpp hY
    obtain ⟨rp, hp, cp⟩ := R.hold I hz.obj hpp hP
    have sz : ∀ (i : Nat) (r : Flex) (U : Big), yn ≤ U.ws.length → ((i = z ∧ r = o1) ∨ (i ≠ z ∧ r.data.b ≠ o1.data.b ∧ s.mem.objs[i]? = some r ∧ U.ws.length ≤ r.size)) → yn ≤ r.size := by
      intro i r U hm h
      rcases h with ⟨_, h⟩ | ⟨_, _, _, h⟩
      · rw [h, R.osize]; omega
      · omega
    have hl := bitLoop_spec (· ||| ·) R hx hy yn (by omega) (by omega) (sz _ _ X (by omega) cx) (sz _ _ Y (by omega) cy) (by omega) yn 0 (by omega)
    have e0 : s1.withHeap (s1.mem.heap.store o1.data (List.zipWith (fun a b : Word => a ||| b) (X.ws.take 0) (Y.ws.take 0))) = s1 := by
      rw [List.take_zero, List.take_zero, List.zipWith_nil_left, store_nil]
      rfl
    rw [e0] at hl
    obtain ⟨W, hW⟩ : ∃ W, W = List.zipWith (fun a b : Word => a ||| b) (X.ws.take yn) (Y.ws.take yn) := ⟨_, rfl⟩
    have hWl : W.length = yn := by rw [hW, List.length_zipWith, List.length_take, List.length_take]; omega
    rw [← hW] at hl ⊢
    obtain ⟨f1, f2⟩ := R.finish (W ++ P.ws.drop yn) (by rw [List.length_append, List.length_drop]; omega) hpp
    have nz : s1.neg z = Z.neg := by rw [R.sneg]; exact hz.neg
    rw [nz] at f1 f2
    refine ⟨_, ?_, f2 (Big.trim Z.neg (W ++ P.ws.drop yn)).neg⟩
    rw [h2, ok_bind]
    dsimp only
    rw [if_pos rfl]
    show (BigSt.bitLoop _ z x y yn 0 s1 >>= _) = _
    rw [hl, ok_bind, elem_ok (s := s1.withHeap (s1.mem.heap.store o1.data W)) R.obj (by rw [R.osize]; omega), ok_bind,
      elem_ok (s := s1.withHeap (s1.mem.heap.store o1.data W)) hp.obj hp.pos, ok_bind, add_zero, add_zero]
    have hd : Has (s1.mem.heap.store o1.data W) (rp.data.add yn) (P.ws.drop yn) := by
      rcases R.cases hp.obj with c | c
      · rw [c]
        have := Has.drop_store (vs := W) (c ▸ hp.has) (by omega)
        rw [hWl] at this
        exact this
      · exact (hp.has.store_ne c).drop yn (by omega)
    have hcp := mCopyN_spec (z := o1.data.add yn) hd (by
      rw [room_len (store_len _ _ _), List.length_drop]; exact room_add R.room (by omega)) (by
        rcases R.cases hp.obj with c | c
        · rw [c]; exact Or.inr (Nat.le_refl _)
        · exact Or.inl c)
    rw [List.length_drop] at hcp
    show (mCopyN _ _ _ (s1.mem.heap.store o1.data W) >>= _) = _
    rw [hcp, ok_bind]
    have : (s1.mem.heap.store o1.data W).store (o1.data.add yn) (P.ws.drop yn) = s1.mem.heap.store o1.data (W ++ P.ws.drop yn) := by
      rw [← hWl]; exact store_append _ _ _ _
    rw [this]
    exact f1

theorem Post.trans_set {K s s' z R} (P : Post K s s' z R) {o : Flex} (ho : s'.mem.objs[z]? = some o) (ws : List Word)
    (V : Big) (hw : ws.length ≤ o.size) (hV : V.ws ≠ []) (hl : V.ws.length ≤ ws.length) (hh : V.ws = ws.take V.ws.length) :
    Post K s ((s'.withHeap (s'.mem.heap.store o.data ws)).set z V) z V := by
  have Q := (Resized.refl P.inv ho).post (s'.mem.heap.store o.data ws) (Inv.store (h := s'.mem.heap) P.inv _ _)
    (fun i r hi hr => store_agree _ _ _ _ (data_ne P.inv hr ho hi)) V hV (by omega) (by
      rw [hh]
      exact (has_store _ _ _ (room_mono (P.inv.obj z o ho).room_cap (Nat.le_trans hw (P.inv.obj z o ho).size_le))).take _)
  exact ⟨Q.inv, Q.res, fun i X hi H => Q.frame i X hi (P.frame i X hi H), Q.len.trans P.len⟩

theorem orBitu1_spec {K : Kind} {s : BigSt} {z x : Nat} {X Z : Big} (I : Inv K s.mem) (hx : Rep s x X)
    (hz : Rep s z Z) (w : Word) : ∃ s', s.orBitu1 K z x w = .ok s' ∧ Post K s s' z (Big.orBitu1 X w) := by
  obtain ⟨s', e, P⟩ := assign_spec I hx hz
  obtain ⟨o, H, hl⟩ := P.res
  have hp := List.length_pos_iff.2 H.ne
  unfold BigSt.orBitu1
  rw [e, ok_bind, load_ok H.obj H.pos H.has hp, ok_bind, store_elem H.obj hp hl H.has]
  have hR : Big.orBitu1 X w = ⟨X.neg, X.ws.set 0 (X.ws[0] ||| w)⟩ := by
    obtain ⟨n, ws⟩ := X
    cases ws with
    | nil => exact absurd rfl H.ne
    | cons a t => rfl
  refine ⟨_, rfl, ?_⟩
  rw [hR]
  have hsl : (X.ws.set 0 (X.ws[0] ||| w)).length = X.ws.length := List.length_set
  have e2 : s'.withHeap (s'.mem.heap.store o.data (X.ws.set 0 (X.ws[0] ||| w))) =
      (s'.withHeap (s'.mem.heap.store o.data (X.ws.set 0 (X.ws[0] ||| w)))).set z ⟨X.neg, X.ws.set 0 (X.ws[0] ||| w)⟩ := by
    unfold BigSt.set
    show _ = BigSt.mk _ (upd s'.size z (X.ws.set 0 (X.ws[0] ||| w)).length) (upd s'.neg z X.neg)
    rw [hsl, ← H.size, ← H.neg, upd_self, upd_self]
    rfl
  rw [e2]
  refine P.trans_set H.obj _ _ (by rw [hsl]; exact hl) ?_ (Nat.le_refl _) (by rw [List.take_length])
  intro e3
  have := congrArg List.length e3
  rw [List.length_nil] at this
  rw [hsl] at this
  omega

theorem andBitu1_spec {K : Kind} {s : BigSt} {z x : Nat} {X Z : Big} (I : Inv K s.mem) (hx : Rep s x X)
    (hz : Rep s z Z) (w : Word) : ∃ s', s.andBitu1 K z x w = .ok s' ∧ Post K s s' z (Big.andBitu1 X w) := by
  have hX := hx
  have hZ := hz
  obtain ⟨o, hz, lz⟩ := hz
  unfold BigSt.andBitu1 Big.andBitu1
  rcases big_resize I hz.obj 1 with ⟨h1, h2⟩ | ⟨h1, s1, o1, h2, R⟩
  · rw [hZ.fits_one I] at h1; cases h1
  · obtain ⟨rx, hx, cx⟩ := R.hold I hz.obj (by omega) hX
    have hp := List.length_pos_iff.2 hx.ne
    rw [h2, ok_bind]
    dsimp only
    have hst : s1.store z 0 (X.ws.headD 0 &&& w) = .ok (s1.withHeap (s1.mem.heap.store o1.data [X.ws.headD 0 &&& w])) := by
      unfold BigSt.store
      rw [elem_ok R.obj (by rw [R.osize]; omega), ok_bind, add_zero, write_ok (n := 1) R.room (by omega), ok_bind, store_one]
    have h0 : X.ws[0] = X.ws.headD 0 := by
      have : ∀ (l : List Word) (hl : 0 < l.length), l[0] = l.headD 0 := by
        intro l hl
        cases l with
        | nil => simp at hl
        | cons a t => rfl
      exact this X.ws hp
    rw [load_ok hx.obj hx.pos hx.has hp, ok_bind, h0, hst, ok_bind]
    refine ⟨_, rfl, ?_⟩
    exact R.post (s1.mem.heap.store o1.data [X.ws.headD 0 &&& w]) (Inv.store (h := s1.mem.heap) R.inv _ _)
      (fun i r hi hr => store_agree _ _ _ _ (data_ne R.inv hr R.obj hi)) ⟨false, [X.ws.headD 0 &&& w]⟩ (by simp) (by simp)
      (has_store _ _ _ R.room)

/-! ### Words -/

theorem muls1_spec {K : Kind} {s : BigSt} {z x : Nat} {X Z : Big} (I : Inv K s.mem) (hx : Rep s x X)
    (hz : Rep s z Z) (y : BitVec 32) : ∃ s', s.muls1 K z x y = .ok s' ∧ Post K s s' z (Big.muls1 K.lim X y) := by
  obtain ⟨s', e, P⟩ := mulu1_spec I hx hz (cabs32 y)
  unfold BigSt.muls1 Big.muls1
  rw [e, ok_bind, P.res.neg_eq]
  exact ⟨_, rfl, P.setNeg _⟩

theorem divu1_spec {K : Kind} {s : BigSt} {z x : Nat} {X Z : Big} (I : Inv K s.mem) (hx : Rep s x X)
    (hz : Rep s z Z) (y : Word) :
    match Big.divu1 K.lim X y with
    | .error e => s.divu1 K z x y = .error e
    | .ok R => ∃ s', s.divu1 K z x y = .ok s' ∧ Post K s s' z R := by
  have hX := hx
  have hZ := hz
  have hpos := hx.pos
  obtain ⟨o, hz, lz⟩ := hz
  unfold BigSt.divu1 Big.divu1
  dsimp only
  rw [hx.size_eq]
  rcases big_resize I hz.obj X.ws.length with ⟨h1, h2⟩ | ⟨h1, s1, o1, h2, R⟩
  · rw [hX.fits I (Nat.le_refl _)] at h1; cases h1
  · rw [h1]
    simp only [if_true]
    obtain ⟨rx, hx, _⟩ := R.hold I hz.obj hpos hX
    have cx := R.cases hx.obj
    have hd : mDivWord o1.data rx.data X.ws.length y s1.mem.heap =
        (divWord X.ws y).map (fun r => (s1.mem.heap.store o1.data r.1, r.2)) :=
      mDivWord_spec y hx.has R.room (by
        rcases cx with c | c
        · rw [c]; exact Or.inr (Nat.le_refl _)
        · exact Or.inl c)
    by_cases hy : (y != 0) = true
    · have e1 : divWord X.ws y = .ok (divWordGo y X.ws) := by
        unfold divWord; rw [check_true hy]; rfl
      rw [e1] at hd ⊢
      rw [ok_bind]
      dsimp only
      obtain ⟨f1, f2⟩ := R.finish (divWordGo y X.ws).1 (divWordGo_length _ _) hpos
      have f3 := f2 false
      refine ⟨_, ?_, f3⟩
      rw [h2, ok_bind]
      dsimp only
      rw [if_pos rfl, elem_ok R.obj (by rw [R.osize]; omega), ok_bind, add_zero, hx.elem, ok_bind, hd]
      show ((s1.withHeap (s1.mem.heap.store o1.data (divWordGo y X.ws).1)).trim z X.ws.length >>= _) = _
      rw [f1, ok_bind, set_setNeg]
    · rw [Bool.not_eq_true] at hy
      have e1 : divWord X.ws y = .error .abort := by
        unfold divWord; rw [check_false hy]; rfl
      rw [e1] at hd ⊢
      show _ = Except.error Err.abort
      rw [h2, ok_bind]
      dsimp only
      rw [if_pos rfl, elem_ok R.obj (by rw [R.osize]; omega), ok_bind, add_zero, hx.elem, ok_bind, hd]
      rfl

/-! ### Division -/

theorem readN_spec {h : Heap} : ∀ (ws : List Word) (p : Ptr), Has h p ws → readN h p ws.length = .ok ws := by
  intro ws
  induction ws with
  | nil => intro p _; rfl
  | cons w ws ih =>
    intro p H
    simp only [List.length_cons, readN]
    rw [read_has H, ok_bind, ih _ H.tail, ok_bind]

theorem writeN_spec : ∀ (ws : List Word) (p : Ptr) (h : Heap), h.room p ws.length = true →
    writeN p ws h = .ok (h.store p ws) := by
  intro ws
  induction ws with
  | nil => intro p h _; rw [store_nil]; rfl
  | cons w ws ih =>
    intro p h hr
    simp only [writeN]
    rw [write_ok (n := ws.length + 1) hr (by omega), ok_bind]
    rw [ih (p.add 1) (h.put p (some w)) (by
      rw [room_len (put_len _ _ _)]
      exact room_add hr (by rw [List.length_cons]; omega))]
    rw [store_cons]

theorem divArr_zero (qn : Nat) (xs : List Word) : divArr qn xs [0] = .error .abort := by
  rfl

/-- The quotient may share storage with the divisor unless the divisor has several words, its top bit is set, and the
dividend is longer. -/
def NoClash (x y : List Word) : Prop := y.length = 1 ∨ (y.getLastD 0).toNat < 2 ^ 31 ∨ x.length ≤ y.length

theorem divSmall_some {x y : List Word} (h : x.length ≤ y.length) (ht : y.getLastD 0 ≥ 65536#32) :
    divSmall x y ≠ .ok none := by
  unfold divSmall
  dsimp only
  rw [if_neg (by omega)]
  generalize (if x.length < y.length then (-1 : Int) else cmpN x y) = ret
  intro hs
  by_cases h1 : ret < 0
  · rw [if_pos h1] at hs; cases hs
  · rw [if_neg h1] at hs
    by_cases h2 : ret = 0
    · rw [if_pos h2] at hs; cases hs
    · rw [if_neg h2, if_pos ht] at hs
      generalize (if y.getLastD 0 = 0xffffffff#32 then ((subN x y).1, (1 : Word))
        else ((subN x (mulWordN y (x.getLastD 0 / (y.getLastD 0 + 1))).1).1, x.getLastD 0 / (y.getLastD 0 + 1))) = st at hs
      cases hd : divSmallLoop y divSmallFuel st.1 st.2 with
      | error e => rw [hd] at hs; cases hs
      | ok r => rw [hd, ok_bind] at hs; cases hs

theorem divArrAlias_eq {fuel qn : Nat} {x y : List Word} (hx : x ≠ []) (hy : y ≠ []) (htop : 1 < y.length → (y.getLastD 0).toNat ≠ 0)
    (h : NoClash x y) : divArrAlias fuel qn x y = (divArr qn x y).map (·.1) := by
  rcases y with _ | ⟨a, _ | ⟨b, t⟩⟩
  · exact absurd rfl hy
  · rfl
  · have hl : 2 ≤ (a :: b :: t).length := by simp
    have htop := htop (by omega)
    unfold divArrAlias
    dsimp only
    have hdiv : divArr qn x (a :: b :: t) = divArr qn x (a :: b :: t) := rfl
    conv at hdiv => rhs; unfold divArr
    dsimp only at hdiv
    unfold NoClash at h
    obtain ⟨y, hyy⟩ : ∃ y, y = a :: b :: t := ⟨_, rfl⟩
    rw [← hyy] at hl h htop hdiv ⊢
    rw [hdiv]
    cases hs : divSmall (x.take (getRealSize x)) y with
    | error e => rfl
    | ok r =>
      rw [ok_bind, ok_bind]
      cases r with
      | some r => obtain ⟨q, r, n⟩ := r; rfl
      | none =>
        dsimp only
        obtain ⟨b1, b2, b3⟩ := bsr32_spec _ htop
        have hne : 31 - bsr32 (y.getLastD 0) ≠ 0 := by
          intro h0
          have hb : bsr32 (y.getLastD 0) = 31 := by omega
          rw [hb] at b2
          rcases h with h | h | h
          · omega
          · omega
          · -- `div_small` handles equal lengths
            have hxl : (x.take (getRealSize x)).length ≤ y.length := by
              rw [List.length_take]; omega
            refine divSmall_some hxl ?_ hs
            show 65536#32 ≤ y.getLastD 0
            rw [BitVec.le_def]
            have e1 : (65536#32).toNat = 65536 := rfl
            rw [e1]
            have e2 : (2:Nat) ^ 31 = 2147483648 := by norm_num
            omega
        rw [if_pos hne]


theorem div_spec {K : Kind} {s : BigSt} {q x y : Nat} {X Y Q : Big} (I : Inv K s.mem) (hx : Rep s x X)
    (hy : Rep s y Y) (hq : Rep s q Q) (cx : X.Canon) (cy : Y.Canon) (hy0 : Y.toInt ≠ 0) (fuel : Nat)
    (hc : q = y → NoClash X.ws Y.ws) :
    ∃ s' V R, s.div K fuel q x y = .ok (s', true) ∧ Big.divMod? K.lim X Y = .ok (some (V, R)) ∧ Post K s s' q V := by
  have hX := hx
  have hY := hy
  have hQ := hq
  have hpx := hx.pos
  have hpy := hy.pos
  have hv0 : val Y.ws ≠ 0 := by rwa [ne_eq, ← Big.toInt_zero_iff]
  unfold BigSt.div Big.divMod? Big.udiv
  dsimp only
  rw [hx.size_eq, hy.size_eq, hx.neg_eq, hy.neg_eq]
  by_cases hlt : X.ws.length < Y.ws.length
  · rw [if_pos hlt, if_pos hlt, ok_bind]
    obtain ⟨s', e, P⟩ := clear_spec' I hq
    rw [e, ok_bind]
    exact ⟨_, _, _, rfl, rfl, P.setNeg _⟩
  · rw [if_neg hlt, if_neg hlt]
    obtain ⟨o, hq, lq⟩ := hq
    obtain ⟨qs, r, hd, hql, hrne, hrl, -, -⟩ := divArr_spec X.ws Y.ws cx.1 cy.1 hv0 (Big.CanonW.top cy.w) (by omega)
    obtain ⟨qn, hqn⟩ : ∃ qn, qn = X.ws.length - Y.ws.length + 1 := ⟨_, rfl⟩
    rw [← hqn] at hd hql ⊢
    rw [hX.fits I (n := qn) (by omega), if_pos rfl, hd, ok_bind]
    dsimp only
    rw [hX.fits I hrl, if_pos rfl, ok_bind]
    rcases big_resize I hq.obj qn with ⟨h1, h2⟩ | ⟨h1, s1, o1, h2, R⟩
    · rw [hX.fits I (by omega)] at h1; cases h1
    · obtain ⟨rx, hx, _⟩ := R.hold I hq.obj (by omega) hX
      obtain ⟨ry, hy, _⟩ := R.hold I hq.obj (by omega) hY
      obtain ⟨f1, f2⟩ := R.finish qs hql (by omega)
      refine ⟨_, _, _, ?_, rfl, f2 (X.neg ^^ Y.neg)⟩
      rw [h2, ok_bind]
      dsimp only
      rw [if_pos rfl, hx.elem, ok_bind, readN_spec _ _ hx.has, ok_bind, elem_ok R.obj (by rw [R.osize]; omega), ok_bind,
        add_zero, hy.elem, ok_bind, readN_spec _ _ hy.has, ok_bind]
      have hws : ∀ k : List Word → Res (BigSt × Bool), (if q = y then divArrAlias fuel qn X.ws Y.ws >>= k else
          (divArr qn X.ws Y.ws).map (·.1) >>= k) = k qs := by
        intro k
        split
        · rename_i e
          rw [divArrAlias_eq cx.1 cy.1 (Big.CanonW.top cy.w) (hc e), hd]; rfl
        · rw [hd]; rfl
      refine (hws _).trans ?_
      rw [writeN_spec _ _ _ (by rw [hql]; exact R.room), ok_bind, f1, ok_bind, set_setNeg]

theorem div_zero {K : Kind} {s : BigSt} {q x y : Nat} {X Y Q : Big} (I : Inv K s.mem) (hx : Rep s x X)
    (hy : Rep s y Y) (hq : Rep s q Q) (cy : Y.Canon) (hy0 : Y.toInt = 0) (fuel : Nat) :
    s.div K fuel q x y = .error .abort := by
  have hX := hx
  have hpx := hx.pos
  have hY := hy
  have e0 := Big.canonW_val_zero cy.w ((Big.toInt_zero_iff Y).1 hy0)
  have hyl : Y.ws.length = 1 := by rw [e0]; rfl
  unfold BigSt.div
  dsimp only
  rw [hx.size_eq, hy.size_eq, if_neg (by omega)]
  obtain ⟨o, hq, lq⟩ := hq
  rcases big_resize I hq.obj (X.ws.length - Y.ws.length + 1) with ⟨h1, h2⟩ | ⟨h1, s1, o1, h2, R⟩
  · rw [hX.fits I (by omega)] at h1; cases h1
  · obtain ⟨rx, hx, _⟩ := R.hold I hq.obj (by omega) hX
    obtain ⟨ry, hy, _⟩ := R.hold I hq.obj (by omega) hY
    rw [h2, ok_bind]
    dsimp only
    rw [if_pos rfl, hx.elem, ok_bind, readN_spec _ _ hx.has, ok_bind, elem_ok R.obj (by rw [R.osize]; omega), ok_bind,
        add_zero, hy.elem, ok_bind, readN_spec _ _ hy.has, ok_bind, e0]
    split <;> rfl

theorem mod_spec {K : Kind} {s : BigSt} {r x y : Nat} {X Y W : Big} (I : Inv K s.mem) (hx : Rep s x X)
    (hy : Rep s y Y) (hr : Rep s r W) (cx : X.Canon) (cy : Y.Canon) (hy0 : Y.toInt ≠ 0) :
    ∃ s' V R, s.mod K r x y = .ok (s', true) ∧ Big.divMod? K.lim X Y = .ok (some (V, R)) ∧ Post K s s' r R := by
  have hX := hx
  have hY := hy
  have hR := hr
  have hpx := hx.pos
  have hpy := hy.pos
  have hv0 : val Y.ws ≠ 0 := by rwa [ne_eq, ← Big.toInt_zero_iff]
  unfold BigSt.mod Big.divMod? Big.udiv
  dsimp only
  rw [hx.size_eq, hy.size_eq, hx.neg_eq]
  by_cases hlt : X.ws.length < Y.ws.length
  · rw [if_pos hlt, if_pos hlt, ok_bind]
    obtain ⟨s', e, hs, hn, P⟩ := assignBuf_post I hx hr.lt
    obtain ⟨o', H, hl⟩ := (P X.neg).res
    have ht := trim_spec (s := s') (z := r) (o := o') (ws := X.ws) H.obj H.has hl H.ne
    rw [e, ok_bind, ht, ok_bind, set_setNeg, Big.trim_canon_eq _ X cx]
    refine ⟨_, _, _, rfl, rfl, ?_⟩
    rw [Big.trim_canon_eq _ X cx]
    exact P X.neg
  · rw [if_neg hlt, if_neg hlt]
    obtain ⟨o, hr, lr⟩ := hr
    obtain ⟨qs, rs, hd, hql, hrne, hrl, -, -⟩ := divArr_spec X.ws Y.ws cx.1 cy.1 hv0 (Big.CanonW.top cy.w) (by omega)
    have hrp := List.length_pos_iff.2 hrne
    rw [hX.fits I (n := X.ws.length - Y.ws.length + 1) (by omega), if_pos rfl, hd, ok_bind]
    dsimp only
    rw [hX.fits I hrl, if_pos rfl, ok_bind]
    obtain ⟨ox, hx, lx⟩ := hx
    obtain ⟨oy, hy, ly⟩ := hy
    rw [hx.elem, ok_bind, readN_spec _ _ hx.has, ok_bind, hy.elem, ok_bind, readN_spec _ _ hy.has, ok_bind, hd, ok_bind]
    dsimp only
    rcases big_resize I hr.obj rs.length with ⟨h1, h2⟩ | ⟨h1, s1, o1, h2, R⟩
    · rw [hX.fits I hrl] at h1; cases h1
    · obtain ⟨f1, f2⟩ := R.finish rs rfl hrp
      refine ⟨_, _, _, ?_, rfl, f2 X.neg⟩
      rw [h2, ok_bind]
      dsimp only
      rw [if_pos rfl, elem_ok R.obj (by rw [R.osize]; omega), ok_bind, add_zero, writeN_spec _ _ _ R.room, ok_bind, f1,
        ok_bind, set_setNeg]

theorem mod_zero {K : Kind} {s : BigSt} {r x y : Nat} {X Y : Big} (hx : Rep s x X)
    (hy : Rep s y Y) (cy : Y.Canon) (hy0 : Y.toInt = 0) : s.mod K r x y = .error .abort := by
  have hpx := hx.pos
  have e0 := Big.canonW_val_zero cy.w ((Big.toInt_zero_iff Y).1 hy0)
  have hyl : Y.ws.length = 1 := by rw [e0]; rfl
  unfold BigSt.mod
  dsimp only
  rw [hx.size_eq, hy.size_eq, if_neg (by omega)]
  obtain ⟨ox, hx, lx⟩ := hx
  obtain ⟨oy, hy, ly⟩ := hy
  rw [hx.elem, ok_bind, readN_spec _ _ hx.has, ok_bind, hy.elem, ok_bind, readN_spec _ _ hy.has, ok_bind, e0]
  rfl


/-! ### `lcm` -/

theorem noClash_of {x c : Big} (cx : x.Canon) (cc : c.Canon)
    (h : (val c.ws).size % 32 ≠ 0 ∨ (val c.ws).size ≤ 32 ∨ val x.ws < 2 ^ (val c.ws).size) : NoClash x.ws c.ws := by
  unfold NoClash
  by_cases h1 : c.ws.length = 1
  · exact Or.inl h1
  · right
    have hp := List.length_pos_iff.2 cc.1
    have hl : 1 < c.ws.length := by omega
    by_contra hn
    rw [not_or, not_lt, not_le] at hn
    obtain ⟨ht, hx⟩ := hn
    -- the value has exactly `32 * length` bits
    have hd : c.ws = c.ws.dropLast ++ [c.ws.getLastD 0] := by
      have := List.dropLast_append_getLast cc.1
      rw [← this]
      simp [List.getLastD_eq_getLast?]
    have hv : val c.ws = val c.ws.dropLast + B (c.ws.length - 1) * (c.ws.getLastD 0).toNat := by
      conv_lhs => rw [hd]
      rw [val_append, List.length_dropLast]
      simp [val]
    have hB : ∀ n, B n = 2 ^ (32 * n) := by
      intro n; unfold B; rw [Nat.pow_mul]
    have h2 : 2 ^ (32 * c.ws.length - 1) ≤ val c.ws := by
      rw [hv, hB]
      calc 2 ^ (32 * c.ws.length - 1) = 2 ^ (32 * (c.ws.length - 1)) * 2 ^ 31 := by rw [← Nat.pow_add]; congr 1; omega
        _ ≤ 2 ^ (32 * (c.ws.length - 1)) * (c.ws.getLastD 0).toNat := Nat.mul_le_mul_left _ ht
        _ ≤ _ := by omega
    have h3 : val c.ws < 2 ^ (32 * c.ws.length - 1 + 1) := by
      have := val_lt c.ws
      rw [hB] at this
      rw [show 32 * c.ws.length - 1 + 1 = 32 * c.ws.length by omega]
      exact this
    have hs : (val c.ws).size = 32 * c.ws.length - 1 + 1 := by
      apply le_antisymm
      · exact Nat.size_le.2 h3
      · exact Nat.lt_size.2 h2
    rw [hs, show 32 * c.ws.length - 1 + 1 = 32 * c.ws.length by omega] at h
    have h4 : 2 ^ (32 * c.ws.length) ≤ val x.ws := by
      have := Big.CanonW.ge cx.w (by omega)
      rw [hB] at this
      refine le_trans (Nat.pow_le_pow_right (by omega) ?_) this
      omega
    omega

theorem lcm_spec {cap : Cap} {x y : Big} (fuel : Nat) (cx : x.Canon) (cy : y.Canon) (fx : Big.Fits cap x) (fy : Big.Fits cap y)
    (hc : cap.fits (x.ws.length + y.ws.length) = true) (h0 : Int.gcd x.toInt y.toInt ≠ 0)
    (hg : (Int.gcd x.toInt y.toInt).size % 32 ≠ 0 ∨ (Int.gcd x.toInt y.toInt).size ≤ 32 ∨
      x.toInt.natAbs < 2 ^ (Int.gcd x.toInt y.toInt).size) :
    ∃ z, lcm cap fuel x y = .ok z ∧ z.Canon ∧ Big.Fits cap z ∧ z.toInt.natAbs = Int.lcm x.toInt y.toInt ∧
      (x.neg = false → y.neg = false → z.toInt = Int.lcm x.toInt y.toInt) := by
  obtain ⟨c, ec, cc, fc, vc, nc⟩ := Big.gcd_spec cap x y cx cy fx fy
  have hc0 : c.toInt ≠ 0 := by intro e; rw [e] at vc; exact h0 vc.symm
  have hvc : val c.ws = Int.gcd x.toInt y.toInt := by rw [← vc, Big.natAbs_toInt]
  obtain ⟨q, r, e, cq, cr, fq, fr, vq, vr, nr, nq⟩ := Big.divMod?_spec cap x c cx cc fx hc0
  have hnc : NoClash x.ws c.ws := by
    refine noClash_of cx cc ?_
    rw [hvc, ← Big.natAbs_toInt]; exact hg
  have hq : divInto cap fuel x c = .ok q ∧ q.ws.length ≤ x.ws.length := by
    have hv0 : val c.ws ≠ 0 := by rwa [ne_eq, ← Big.toInt_zero_iff]
    obtain ⟨q', r', e', _, _, lq, _⟩ := Big.udiv_spec cap x.ws c.ws cx.w cc.w fx.fits hv0
    unfold Big.divMod? at e
    rw [e', ok_bind] at e
    dsimp only at e
    cases e
    refine ⟨?_, lq⟩
    unfold divInto
    unfold Big.udiv at e'
    by_cases hlt : x.ws.length < c.ws.length
    · rw [if_pos hlt] at e' ⊢
      cases e'
      rfl
    · rw [if_neg hlt] at e' ⊢
      dsimp only at e' ⊢
      by_cases hf : cap.fits (x.ws.length - c.ws.length + 1) = true
      · rw [if_pos hf] at e' ⊢
        rw [divArrAlias_eq cx.1 cc.1 (Big.CanonW.top cc.w) hnc]
        cases hd : divArr (x.ws.length - c.ws.length + 1) x.ws c.ws with
        | error err => rw [hd] at e'; cases e'
        | ok p =>
          rw [hd, ok_bind] at e'
          split at e'
          · cases e'
            rfl
          · cases e'
      · rw [if_neg hf] at e'; cases e'
  obtain ⟨hq, lq⟩ := hq
  rcases Big.mul?_spec cap q y cq cy with ⟨z, ez, cz, fz, vz, -⟩ | ⟨-, hf⟩
  · have hdvd : (c.toInt) ∣ x.toInt := by
      rw [← Int.natAbs_dvd, vc]; exact Int.gcd_dvd_left _ _
    have habs : z.toInt.natAbs = Int.lcm x.toInt y.toInt := by
      rw [vz, vq, Int.natAbs_mul, Int.natAbs_tdiv, vc, Int.lcm, Nat.lcm, ← Int.gcd_eq_natAbs_gcd_natAbs]
      exact Nat.div_mul_right_comm (Nat.gcd_dvd_left _ _) _
    refine ⟨z, ?_, cz, fz, habs, ?_⟩
    · unfold lcm Big.mul
      rw [ec, ok_bind, hq, ok_bind, ez]; rfl
    · intro hnx hny
      have hnz : 0 ≤ z.toInt := by
        rw [vz]
        refine Int.mul_nonneg ?_ ?_
        · rw [vq]
          refine Int.tdiv_nonneg ?_ ?_
          · rw [Big.toInt_of_nonneg hnx]; exact Int.natCast_nonneg _
          · rw [Big.toInt_of_nonneg (nc hnx hny)]; exact Int.natCast_nonneg _
        · rw [Big.toInt_of_nonneg hny]; exact Int.natCast_nonneg _
      rw [← habs, Int.natAbs_of_nonneg hnz]
  · exfalso
    have : cap.fits (q.ws.length + y.ws.length) = true := by
      unfold Cap.fits at hc ⊢
      cases cap with
      | none => rfl
      | some N => simp at hc ⊢; omega
    rw [this] at hf; cases hf

theorem lcm_zero {cap : Cap} {x y : Big} (fuel : Nat) (cx : x.Canon) (cy : y.Canon) (fx : Big.Fits cap x) (fy : Big.Fits cap y)
    (hx : x.toInt = 0) (hy : y.toInt = 0) : lcm cap fuel x y = .error .abort := by
  obtain ⟨c, ec, cc, fc, vc, nc⟩ := Big.gcd_spec cap x y cx cy fx fy
  have hc0 : c.toInt = 0 := by
    rw [hx, hy] at vc
    simpa using vc
  have e0 := Big.canonW_val_zero cc.w ((Big.toInt_zero_iff c).1 hc0)
  have e1 := Big.canonW_val_zero cx.w ((Big.toInt_zero_iff x).1 hx)
  unfold lcm
  rw [ec, ok_bind]
  unfold divInto
  rw [e0, e1]
  have hf : cap.fits 1 = true := by
    have := fx.fits
    rw [e1] at this
    exact this
  dsimp only
  rw [if_neg (by simp)]
  simp only [List.length_singleton, Nat.sub_self, Nat.zero_add]
  rw [if_pos hf]
  rfl

end Ack.Mem
