import Verif.Model.IntProg
import Verif.Spec.IntProg
import Verif.Proof.Query
import Verif.Proof.Native
import Verif.Proof.BigNative
import Verif.Proof.EcNaf
/-!
# Programs written with the operators of `bigint`: proofs
-/
namespace Ack.Mem
open Ack.Spec.Prog

/-! ## Native integers on memory -/

theorem assignInt_mem {K : Kind} {s : BigSt} {z : Nat} {o : Flex} (I : Inv K s.mem) (ho : s.mem.objs[z]? = some o)
    (hf : Cap.fits K.lim 1 = true) (x : BitVec 32) : ∃ s', s.assignInt K z x = .ok s' ∧ Post K s s' z (Big.ofInt32 x) := by
  obtain ⟨s', e, P⟩ := assignWord_new I ho hf (cabs32 x)
  exact ⟨_, by unfold BigSt.assignInt; rw [e, ok_bind], P.setNeg _⟩

theorem assignU64_mem {K : Kind} {s : BigSt} {z : Nat} {o : Flex} (I : Inv K s.mem) (ho : s.mem.objs[z]? = some o)
    (hf : Cap.fits K.lim 2 = true) (x : BitVec 64) :
    ∃ s' R, s.assignU64 K z x = .ok s' ∧ Big.ofU64 K.lim x = .ok R ∧ Post K s s' z R := by
  rcases big_resize (s := s.setNeg z false) (z := z) (o := o) I ho 2 with ⟨h1, h2⟩ | ⟨_, s1, o1, h1, R⟩
  · rw [hf] at h1; cases h1
  obtain ⟨w0, h0⟩ : ∃ w : Word, w = x.setWidth 32 := ⟨_, rfl⟩
  obtain ⟨w1, h3⟩ : ∃ w : Word, w = (x >>> 32).setWidth 32 := ⟨_, rfl⟩
  have hs : s.assignU64 K z x = BigSt.trim (s1.withHeap (s1.mem.heap.store o1.data [w0, w1])) z (if w1 ≠ 0 then 2 else 1) := by
    unfold BigSt.assignU64
    dsimp only
    rw [h1, ok_bind]
    dsimp only
    rw [← h0, ← h3]
    have e0 : s1.store z 0 w0 = .ok (s1.withHeap (s1.mem.heap.store o1.data [w0])) := by
      unfold BigSt.store
      rw [elem_ok R.obj (by rw [R.osize]; omega), ok_bind, add_zero, write_ok R.room (by omega), ok_bind, store_one]
    have e1 : (s1.withHeap (s1.mem.heap.store o1.data [w0])).store z 1 w1 = .ok (s1.withHeap (s1.mem.heap.store o1.data [w0, w1])) := by
      unfold BigSt.store
      rw [elem_ok (s := s1.withHeap (s1.mem.heap.store o1.data [w0])) (o := o1) R.obj (by rw [R.osize]; omega), ok_bind,
        show (s1.withHeap (s1.mem.heap.store o1.data [w0])).mem.heap = s1.mem.heap.store o1.data [w0] from rfl,
        write_ok (n := 1) (room_add (h := s1.mem.heap.store o1.data [w0]) (k := 1) (m := 1) R.room (by omega)) (by omega), ok_bind, store_one]
      have := store_append s1.mem.heap o1.data [w0] [w1]
      exact congrArg (fun h => Except.ok (s1.withHeap h)) this
    rw [e0, ok_bind, e1, ok_bind]
    rw [load_ok (s := s1.withHeap (s1.mem.heap.store o1.data [w0, w1])) (o := o1) (k := 1) R.obj (by rw [R.osize]; omega)
      (has_store _ _ [w0, w1] R.room) (by simp)]
    rfl
  have fin : ∀ ws : List Word, ws ≠ [] → ws = [w0, w1].take ws.length → ws.length ≤ 2 →
      ∃ s', BigSt.trim (s1.withHeap (s1.mem.heap.store o1.data [w0, w1])) z ws.length = .ok s' ∧ Post K s s' z (Big.trim false ws) := by
    intro ws hne ht hl
    have hh : Has (s1.mem.heap.store o1.data [w0, w1]) o1.data ws := by
      rw [ht]; exact (has_store _ _ [w0, w1] R.room).take _
    have hneg : (s1.withHeap (s1.mem.heap.store o1.data [w0, w1])).neg z = false := by
      show s1.neg z = false
      rw [R.sneg]; exact if_pos rfl
    have e := trim_spec (s := s1.withHeap (s1.mem.heap.store o1.data [w0, w1])) (z := z) (o := o1) R.obj hh (by rw [R.osize]; exact hl) hne
    rw [hneg] at e
    refine ⟨_, e, Post.pre_setNeg false (R.post _ (Inv.store (h := s1.mem.heap) R.inv _ _) (fun i r hi hr =>
      store_agree _ _ _ _ (data_ne R.inv hr R.obj hi)) _ (Big.trim_canonW false ws hne).1 ?_ ?_)⟩
    · exact le_trans (Big.trim_length_le _ _ hne) hl
    · obtain ⟨k, hk⟩ : ∃ k, (Big.trim false ws).ws = ws.take k := ⟨_, rfl⟩
      rw [hk]; exact hh.take _
  have hU : Big.ofU64 K.lim x = .ok (if w1 ≠ 0 then Big.trim false [w0, w1] else Big.trim false [w0]) := by
    unfold Big.ofU64
    rw [check_true hf, ok_bind, ← h0, ← h3]
  by_cases hw : w1 ≠ 0
  · obtain ⟨s', e, P⟩ := fin [w0, w1] (by simp) rfl (by simp)
    exact ⟨s', _, by rw [hs, if_pos hw]; exact e, hU, by rw [if_pos hw]; exact P⟩
  · obtain ⟨s', e, P⟩ := fin [w0] (by simp) rfl (by simp)
    exact ⟨s', _, by rw [hs, if_neg hw]; exact e, hU, by rw [if_neg hw]; exact P⟩

theorem assignN_mem {K : Kind} {s : BigSt} {z : Nat} {o : Flex} (I : Inv K s.mem) (ho : s.mem.objs[z]? = some o) (n : Native)
    (hf : Cap.fits K.lim n.words = true) : ∃ s' R, s.assignN K z n = .ok s' ∧ n.toBig K.lim = .ok R ∧ Post K s s' z R := by
  cases n with
  | s32 v => obtain ⟨s', e, P⟩ := assignInt_mem I ho hf v; exact ⟨s', _, e, rfl, P⟩
  | u32 v => obtain ⟨s', e, P⟩ := assignWord_new I ho hf v; exact ⟨s', _, e, rfl, P⟩
  | u64 v => exact assignU64_mem I ho hf v
  | s64 v =>
    obtain ⟨s', R, e, e', P⟩ := assignU64_mem I ho hf (cabs64 v)
    refine ⟨_, ⟨decide (v.toInt < 0), R.ws⟩, ?_, ?_, P.setNeg _⟩
    · show s.assignS64 K z v = _
      unfold BigSt.assignS64; rw [e, ok_bind]
    · show Big.ofInt64 K.lim v = _
      unfold Big.ofInt64; rw [e', ok_bind]

theorem newN_mem {K : Kind} {s : BigSt} (I : Inv K s.mem) (n : Native) (hf : Cap.fits K.lim n.words = true) :
    ∃ s' R, s.newN K n = .ok s' ∧ n.toBig K.lim = .ok R ∧ New K s s' R := by
  rcases step_spec I .create with ⟨m, out, e1, I', g⟩ | ⟨_, _, b⟩
  · have ha : Mem.abs m = Mem.abs s.mem ++ [[]] := g.1
    have hlen : m.objs.length = s.mem.objs.length + 1 := by
      rw [← abs_length, ha, List.length_append, abs_length]; rfl
    obtain ⟨o, ho⟩ : ∃ o, m.objs[s.mem.objs.length]? = some o := ⟨_, List.getElem?_eq_getElem (by omega)⟩
    obtain ⟨s', R, e2, eR, P⟩ := assignN_mem (s := { s with mem := m }) I' ho n hf
    refine ⟨s', R, ?_, eR, P.inv, P.res, ?_, ?_⟩
    · unfold BigSt.newN; dsimp only; rw [e1, ok_bind]; exact e2
    · intro i X hX
      refine P.frame i X (Nat.ne_of_lt hX.lt) (rep_of I I' hX rfl rfl ?_)
      show (Mem.abs m)[i]? = _
      rw [ha, List.getElem?_append_left (by rw [abs_length]; exact hX.lt)]
    · rw [P.len]; exact hlen
  · exact b.elim

theorem mods1_mem {K : Kind} {s : BigSt} {r x : Nat} {X W : Big} (I : Inv K s.mem) (hx : Rep s x X) (hr : Rep s r W) (y : BitVec 32)
    (hy : y.toInt ≠ 0) : ∃ s' R, s.mods1 K r x y = .ok s' ∧ Big.mods1 X y = .ok R ∧ Post K s s' r R := by
  obtain ⟨R, e, -⟩ := Big.mods1_spec X y hy
  unfold BigSt.mods1
  dsimp only
  rw [divMods1Rem_exact hx, hx.neg_eq]
  obtain ⟨m, em, eR⟩ := ok_of_bind (by unfold Big.mods1 at e; exact e)
  obtain ⟨o, ho, hl⟩ := id hr
  obtain ⟨s', e', P⟩ := assignInt_mem I ho.obj (hr.fits_one I) m
  refine ⟨_, R, by rw [em, ok_bind, e', ok_bind], e, ?_⟩
  cases eR
  exact P.setNeg _

/-! ## Holding the integers -/

open Ack.Spec (IntProg.Bin IntProg.Room IntProg.width IntProg.RuleN IntProg.Call IntProg.CallInline IntProg.Means IntProg.Rel IntProg.RuleC
  IntProg.Truth IntProg.RuleA IntProg.RuleAN IntProg.Runs)

theorem look_lt {e : Env} {p : Nat} {a : Int} (h : look e p = some a) : p < e.length := lt_of_get (look_some.1 h)

theorem look_append {e : Env} {p : Nat} {a : Int} (h : look e p = some a) (x : Env) : look (e ++ x) p = some a := by
  have := look_lt h
  rw [look_some] at h ⊢
  rw [List.getElem?_append_left this]; exact h

theorem put_append {e : Env} {p : Nat} (h : p < e.length) (a : Int) (x : Env) : put (e ++ x) p a = put e p a ++ x := by
  unfold put; rw [List.set_append_left _ _ h]

theorem live_of {e : Env} {p : Nat} {a : Int} (h : look e p = some a) : live e p := by unfold live; rw [h]; rfl

theorem width_words (n : Native) : IntProg.width n = n.words := by cases n <;> rfl

theorem Holds.newN {K s e} (H : Holds K s e) {n : Native} (hf : fits K.lim (IntProg.width n)) :
    ∃ s', s.newN K n = .ok s' ∧ Holds K s' (e ++ [some n.toInt]) := by
  rw [width_words] at hf
  obtain ⟨s', R, e1, e2, N⟩ := newN_mem H.inv n (lim_fits' _ _ hf)
  obtain ⟨z, e3, c, -, v, -⟩ := Native.toBig_spec K.lim n (lim_fits' _ _ hf)
  rw [e2] at e3; cases e3
  exact ⟨s', e1, H.new N c v⟩

theorem Holds.rep {K s e} (H : Holds K s e) {x : Nat} {a : Int} (h : look e x = some a) : ∃ X, Rep s x X ∧ X.Canon ∧ X.toInt = a :=
  H.get _ _ (look_some.1 h)

theorem Holds.fit1 {K s e} (H : Holds K s e) {x : Nat} {a : Int} (h : look e x = some a) : Cap.fits K.lim 1 = true := by
  obtain ⟨X, r, -⟩ := H.rep h
  exact r.fits_one H.inv

theorem toNat_val {X : Big} {a : Int} (h : X.toInt = a) (h0 : 0 ≤ a) : val X.ws = a.toNat := by rw [natAbs_of h]; omega

/-- The flag of growable storage, as the specification sees it. -/
def inlineOf (K : Kind) : Option Nat := if K.dyn then some K.N else none

theorem binop_spec {K : Kind} {s : BigSt} {e : Env} {z x y : Nat} {o : BOp} {a b r : Int} (fuel : Nat) (H : Holds K s e)
    (hx : look e x = some a) (hy : look e y = some b) (hz : live e z) (hb : IntProg.Bin o a b r) (hr : IntProg.Room K.lim o a b)
    (hal : z = x ∨ z = y → IntProg.RuleA (inlineOf K) o a b) (hn : o = .and ∨ o = .or → s.neg z = false ∨ r = 0)
    (hd : z = y → x = y) : ∃ s', o.run K fuel s z x y = .ok s' ∧ Holds K s' (put e z r) := by
  have inl : ∀ {P : Prop} {w : Nat}, (∀ N, inlineOf K = some N → P ∨ w ≤ N) → K.dyn = true → ¬ P → K.N < w → False := by
    intro P w h hd hp hw
    rcases h K.N (by unfold inlineOf; rw [hd]; rfl) with h | h
    · exact hp h
    · omega
  cases o with
  | add =>
    have he : eval e (.add z x y) = some (put e z r) := by simp only [eval, hx, hy]; rw [hb]; exact if_pos hz
    rcases exec_one fuel H _ he (fun a' b' ha hb' => by rw [hx] at ha; rw [hy] at hb'; cases ha; cases hb'; exact hr) trivial with h | ⟨h1, ⟨h2, h3⟩, -⟩
    · exact h
    · exact absurd (h3 a b hx hy).2 (fun hw => inl (hal h2) h1 (h3 a b hx hy).1 hw)
  | sub =>
    have he : eval e (.sub z x y) = some (put e z r) := by simp only [eval, hx, hy]; rw [hb]; exact if_pos hz
    rcases exec_one fuel H _ he (fun a' b' ha hb' => by rw [hx] at ha; rw [hy] at hb'; cases ha; cases hb'; exact hr) trivial with h | ⟨h1, ⟨h2, h3⟩, -⟩
    · exact h
    · exact absurd (h3 a b hx hy).2 (fun hw => inl (hal h2) h1 (h3 a b hx hy).1 hw)
  | mul =>
    have he : eval e (.mul z x y) = some (put e z r) := by simp only [eval, hx, hy]; rw [hb]; exact if_pos hz
    rcases exec_one fuel H _ he (fun a' b' ha hb' => by rw [hx] at ha; rw [hy] at hb'; cases ha; cases hb'; exact hr) trivial with h | ⟨h1, h2, -⟩
    · exact h
    · exact h2.elim
  | div =>
    have he : eval e (.div z x y) = some (put e z r) := by simp only [eval, hx, hy]; rw [hb.2]; exact if_pos ⟨hz, hb.1⟩
    rcases exec_one fuel H _ he trivial (fun a' b' ha hb' hzy => by
      have hxy := hd hzy
      subst hxy
      rw [ha] at hb'; cases hb'
      exact Or.inr (Or.inr (Nat.lt_size_self _))) with h | ⟨h1, h2, -⟩
    · exact h
    · exact h2.elim
  | mod =>
    have he : eval e (.mod z x y) = some (put e z r) := by simp only [eval, hx, hy]; rw [hb.2]; exact if_pos ⟨hz, hb.1⟩
    rcases exec_one fuel H _ he trivial trivial with h | ⟨h1, h2, -⟩
    · exact h
    · exact h2.elim
  | and =>
    obtain ⟨X, x1, x2, x3⟩ := H.rep hx
    obtain ⟨Y, y1, y2, y3⟩ := H.rep hy
    obtain ⟨Z, z1, z2⟩ := H.target hz
    obtain ⟨s', e1, P⟩ := andBit_spec H.inv x1 y1 z1
    obtain ⟨c, -, v⟩ := Big.andBit_spec Z.neg X Y x2 y2
    refine ⟨s', e1, H.post P c ?_⟩
    obtain ⟨b1, b2, b3⟩ := hb
    rw [toNat_val x3 b1, toNat_val y3 b2, ← b3] at v
    rw [v]
    rcases hn (Or.inl rfl) with h | h
    · rw [z1.neg_eq] at h; rw [h]; rfl
    · rw [h]; split <;> rfl
  | or =>
    obtain ⟨X, x1, x2, x3⟩ := H.rep hx
    obtain ⟨Y, y1, y2, y3⟩ := H.rep hy
    obtain ⟨Z, z1, z2⟩ := H.target hz
    obtain ⟨s', e1, P⟩ := orBit_spec H.inv x1 y1 z1
    obtain ⟨c, -, v⟩ := Big.orBit_spec Z.neg X Y x2 y2
    refine ⟨s', e1, H.post P c ?_⟩
    obtain ⟨b1, b2, b3⟩ := hb
    rw [toNat_val x3 b1, toNat_val y3 b2, ← b3] at v
    rw [v]
    rcases hn (Or.inr rfl) with h | h
    · rw [z1.neg_eq] at h; rw [h]; rfl
    · rw [h]; split <;> rfl

/-- The temporary that the operator makes for a native operand. -/
def tmpOf : Native → Env
  | .s32 _ | .u32 _ => []
  | n => [some n.toInt]

theorem run64_spec {K : Kind} {s : BigSt} {e : Env} {z x : Nat} {o : BOp} {n : Native} {a r : Int} (fuel : Nat) (H : Holds K s e)
    (hx : look e x = some a) (hz : live e z) (hb : IntProg.Bin o a n.toInt r) (hf : fits K.lim (IntProg.width n))
    (hr : IntProg.Room K.lim o a n.toInt) (hal : z = x → IntProg.RuleA (inlineOf K) o a n.toInt)
    (hn : o = .and ∨ o = .or → s.neg z = false ∨ r = 0) :
    ∃ s', BOp.run64 K fuel s z x n o = .ok s' ∧ Holds K s' (put e z r ++ [some n.toInt]) := by
  obtain ⟨s1, R, e1, e2, N⟩ := newN_mem H.inv n (lim_fits' _ _ (width_words n ▸ hf))
  obtain ⟨z', e3, c, -, v, -⟩ := Native.toBig_spec K.lim n (lim_fits' _ _ (width_words n ▸ hf))
  rw [e2] at e3; cases e3
  have H1 := H.new N c v
  obtain ⟨w, hw⟩ := Option.isSome_iff_exists.1 hz
  have hlt := look_lt hw
  obtain ⟨Z, z1, -⟩ := H.rep hw
  have ht : look (e ++ [some n.toInt]) e.length = some n.toInt := by
    rw [look_some, List.getElem?_append_right (Nat.le_refl _), Nat.sub_self]; rfl
  obtain ⟨s', e4, H4⟩ := binop_spec fuel H1 (look_append hx _) ht (live_of (look_append hw _)) hb hr
    (fun h => h.elim hal (fun h => absurd h (Nat.ne_of_lt hlt))) (fun h => by rw [(N.frame _ _ z1).neg_eq, ← z1.neg_eq]; exact hn h)
    (fun h => absurd h (Nat.ne_of_lt hlt))
  refine ⟨s', ?_, by rw [← put_append hlt]; exact H4⟩
  unfold BOp.run64
  dsimp only
  rw [e1, ok_bind, H.len]
  exact e4

theorem addWord_mem {K : Kind} {s : BigSt} {e : Env} {z x : Nat} {a : Int} (H : Holds K s e) (hx : look e x = some a) (hz : live e z)
    (hf : fits K.lim (words a + 1)) (w : Word) (b : Bool) :
    ∃ s', s.addu1Go K z x w b = .ok s' ∧ Holds K s' (put e z (if b then a - w.toNat else a + w.toNat)) := by
  have he : eval e (.addWord z x w b) = some (put e z (if b then a - w.toNat else a + w.toNat)) := by
    simp only [eval, hx]; exact if_pos hz
  rcases exec_one 0 H _ he (fun a' ha => by rw [hx] at ha; cases ha; exact hf) trivial with h | ⟨-, h, -⟩
  · exact h
  · exact h.elim

theorem runN_spec {K : Kind} {s : BigSt} {e : Env} {z x : Nat} {o : BOp} {n : Native} {a r : Int} {asg : Bool} (fuel : Nat) (H : Holds K s e)
    (hx : look e x = some a) (hz : live e z) (hb : IntProg.Bin o a n.toInt r) (hr : IntProg.RuleN K.lim o a n)
    (hal : z = x → asg = true) (ha : asg = true → IntProg.RuleAN (inlineOf K) o a n)
    (hn : o = .and ∨ o = .or → s.neg z = false ∨ r = 0) :
    ∃ s', o.runN K fuel asg s z x n = .ok s' ∧ Holds K s' (put e z r ++ tmpOf n) := by
  obtain ⟨X, x1, x2, x3⟩ := H.rep hx
  obtain ⟨Z, z1, z2⟩ := H.target hz
  have c1 : ∀ v : BitVec 32, ((cabs32 v).toNat : Int) = (v.toInt.natAbs : Int) := fun v => by
    rw [Big.cabs32_toNat, Int.abs_eq_natAbs]
  cases n with
  | s32 v =>
    show ∃ s', _ ∧ Holds K s' (put e z r ++ [])
    rw [List.append_nil]
    have hb' : IntProg.Bin o a v.toInt r := hb
    cases o with
    | add =>
      obtain ⟨s', e1, H1⟩ := addWord_mem H hx hz hr (cabs32 v) (decide (v.toInt < 0))
      refine ⟨s', e1, ?_⟩
      have : r = if decide (v.toInt < 0) = true then a - ((cabs32 v).toNat : Int) else a + ((cabs32 v).toNat : Int) := by
        rw [c1, show r = a + v.toInt from hb]; simp only [decide_eq_true_eq]; split <;> omega
      rw [this]; exact H1
    | sub =>
      obtain ⟨s', e1, H1⟩ := addWord_mem H hx hz hr (cabs32 v) (!decide (v.toInt < 0))
      refine ⟨s', e1, ?_⟩
      have : r = if (!decide (v.toInt < 0)) = true then a - ((cabs32 v).toNat : Int) else a + ((cabs32 v).toNat : Int) := by
        rw [c1, show r = a - v.toInt from hb]; simp only [Bool.not_eq_true', decide_eq_false_iff_not]; split <;> omega
      rw [this]; exact H1
    | mul =>
      have he : eval e (.muls1 z x v) = some (put e z r) := by simp only [eval, hx]; rw [show r = a * v.toInt from hb]; exact if_pos hz
      rcases exec_one fuel H _ he (fun a' ha => by rw [hx] at ha; cases ha; exact hr) trivial with h | ⟨-, h, -⟩
      · exact h
      · exact h.elim
    | div =>
      have he : eval e (.divs1 z x v) = some (put e z r) := by simp only [eval, hx]; rw [hb'.2]; exact if_pos ⟨hz, hb'.1⟩
      rcases exec_one fuel H _ he trivial trivial with h | ⟨-, h, -⟩
      · exact h
      · exact h.elim
    | mod =>
      obtain ⟨s', R, e1, e2, P⟩ := mods1_mem H.inv x1 z1 v hb'.1
      obtain ⟨R', e3, l, -, t⟩ := Big.mods1_spec X v hb'.1
      rw [e2] at e3; cases e3
      refine ⟨s', e1, H.post P ?_ (by rw [t, x3, hb'.2])⟩
      obtain ⟨w, hw⟩ := List.length_eq_one_iff.1 l
      unfold Big.Canon; rw [hw]; exact Big.canonW_single _
    | and => exact hr.elim
    | or => exact hr.elim
  | u32 v =>
    show ∃ s', _ ∧ Holds K s' (put e z r ++ [])
    rw [List.append_nil]
    have hb' : IntProg.Bin o a (v.toNat : Int) r := hb
    cases o with
    | add =>
      obtain ⟨s', e1, H1⟩ := addWord_mem H hx hz hr v false
      exact ⟨s', e1, by rw [show r = a + v.toNat from hb]; exact H1⟩
    | sub =>
      obtain ⟨s', e1, H1⟩ := addWord_mem H hx hz hr v true
      exact ⟨s', e1, by rw [show r = a - v.toNat from hb]; exact H1⟩
    | mul =>
      have he : eval e (.mulu1 z x v) = some (put e z r) := by simp only [eval, hx]; rw [show r = a * v.toNat from hb]; exact if_pos hz
      rcases exec_one fuel H _ he (fun a' ha => by rw [hx] at ha; cases ha; exact hr) trivial with h | ⟨-, h, -⟩
      · exact h
      · exact h.elim
    | div =>
      obtain ⟨q, e1, c, -, t⟩ := Big.divu1_spec K.lim X v x2 (H.fitsX x1) (by have := hb'.1; omega)
      have := divu1_spec H.inv x1 z1 v
      rw [e1] at this
      obtain ⟨s', e2, P⟩ := this
      refine ⟨s', e2, H.post P c ?_⟩
      rw [t, x3, abs_of_nonneg (show 0 ≤ a from hr)]; exact hb'.2.symm
    | mod => exact hr.elim
    | and =>
      obtain ⟨s', e1, P⟩ := andBitu1_spec H.inv x1 z1 v
      obtain ⟨c, -, t⟩ := Big.andBitu1_spec X v x2
      refine ⟨s', e1, H.post P c ?_⟩
      rw [t, toNat_val x3 hb'.1, hb'.2.2, Int.toNat_natCast]
    | or =>
      obtain ⟨s', e1, P⟩ := orBitu1_spec H.inv x1 z1 v
      obtain ⟨c, n1, -, t⟩ := Big.orBitu1_spec X v x2
      refine ⟨s', e1, H.post P c ?_⟩
      rcases (show 0 < a ∨ v = 0 from hr) with h | h
      · rw [Big.toInt, n1, Big.neg_of_toInt_pos (by rw [x3]; exact h), t, toNat_val x3 hb'.1, hb'.2.2, Int.toNat_natCast]; rfl
      · have : (Big.orBitu1 X v).toInt = X.toInt := by
          rw [Big.toInt, n1, t, h, Big.toInt]; simp
        rw [this, x3, hb'.2.2, h]; simp [hb'.1]
  | s64 v =>
    have gen : ∀ o', o' = o → o ≠ .mod ∨ asg = false → fits K.lim 2 → IntProg.Room K.lim o a v.toInt →
        (asg = true → IntProg.RuleA (inlineOf K) o a v.toInt) →
        ∃ s', BOp.run64 K fuel s z x (.s64 v) o' = .ok s' ∧ Holds K s' (put e z r ++ [some v.toInt]) := by
      intro o' ho _ h1 h2 h3
      subst ho
      exact run64_spec (n := .s64 v) fuel H hx hz hb h1 h2 (fun h => h3 (hal h)) hn
    cases o with
    | add => exact gen _ rfl (Or.inl (by decide)) hr.1 hr.2 ha
    | sub => exact gen _ rfl (Or.inl (by decide)) hr.1 hr.2 ha
    | mul => exact gen _ rfl (Or.inl (by decide)) hr.1 hr.2 ha
    | div => exact gen _ rfl (Or.inl (by decide)) hr.1 hr.2 ha
    | mod =>
      cases asg with
      | true => exact (ha rfl).elim
      | false => exact gen _ rfl (Or.inr rfl) hr.1 hr.2 (fun h => by cases h)
    | and => exact hr.elim
    | or => exact hr.elim
  | u64 v =>
    have gen : ∀ o', o' = o → o ≠ .mod ∨ asg = false → fits K.lim 2 → IntProg.Room K.lim o a v.toNat →
        (asg = true → IntProg.RuleA (inlineOf K) o a v.toNat) →
        ∃ s', BOp.run64 K fuel s z x (.u64 v) o' = .ok s' ∧ Holds K s' (put e z r ++ [some (v.toNat : Int)]) := by
      intro o' ho _ h1 h2 h3
      subst ho
      exact run64_spec (n := .u64 v) fuel H hx hz hb h1 h2 (fun h => h3 (hal h)) hn
    cases o with
    | add => exact gen _ rfl (Or.inl (by decide)) hr.1 hr.2 ha
    | sub => exact gen _ rfl (Or.inl (by decide)) hr.1 hr.2 ha
    | mul => exact gen _ rfl (Or.inl (by decide)) hr.1 hr.2 ha
    | div => exact gen _ rfl (Or.inl (by decide)) hr.1 hr.2 ha
    | mod =>
      cases asg with
      | true => exact (ha rfl).elim
      | false => exact gen _ rfl (Or.inr rfl) hr.1 hr.2 (fun h => by cases h)
    | and => exact gen _ rfl (Or.inl (by decide)) hr.1 hr.2 ha
    | or => exact gen _ rfl (Or.inl (by decide)) hr.1 hr.2 ha

/-! ## Expressions -/

theorem put_last (E : Env) (x : Option Int) (r : Int) : put (E ++ [x]) E.length r = E ++ [some r] := by
  unfold put; rw [List.set_append_right _ _ (Nat.le_refl _), Nat.sub_self]; rfl

theorem look_last (E : Env) (r : Int) (t : Env) : look (E ++ some r :: t) E.length = some r := by
  rw [look_some, List.getElem?_append_right (Nat.le_refl _), Nat.sub_self]; rfl

theorem result_spec {K : Kind} (elide : Bool) {e E : Env} {r : Int} {tmp : Env} (hE : ∃ ext, E = e ++ ext) :
    ∃ ext' p, look (e ++ ext') p = some r ∧ e.length ≤ p ∧ ∀ s, Holds K s (E ++ some r :: tmp) →
      ∃ s', s.ret K elide E.length = .ok (s', p) ∧ Holds K s' (e ++ ext') := by
  obtain ⟨ext, rfl⟩ := hE
  cases elide with
  | true =>
    refine ⟨ext ++ some r :: tmp, (e ++ ext).length, ?_, by simp, fun s H => ⟨s, rfl, ?_⟩⟩
    · rw [← List.append_assoc]; exact look_last _ _ _
    · rw [← List.append_assoc]; exact H
  | false =>
    refine ⟨ext ++ none :: tmp ++ [some r], (e ++ ext ++ some r :: tmp).length, ?_, by simp, fun s H => ?_⟩
    · have := look_last (e ++ (ext ++ none :: tmp)) r []
      simp only [List.append_assoc, List.length_append, List.length_cons, List.cons_append] at this ⊢
      exact this
    · obtain ⟨s', e1, H1⟩ := moveNew_spec H (look_some.1 (look_last (e ++ ext) r tmp))
      refine ⟨s', ?_, ?_⟩
      · unfold BigSt.ret
        rw [if_neg (by decide), e1, ok_bind, H.len]
      · rw [List.set_append_right _ _ (Nat.le_refl _), Nat.sub_self] at H1
        simpa using H1

theorem fresh_spec {K s e} (H : Holds K s e) {x : Nat} {a : Int} (hx : look e x = some a) :
    ∃ s', s.create K 0 = .ok s' ∧ Holds K s' (e ++ [some 0]) ∧ s'.neg e.length = false := by
  obtain ⟨s', e1, N⟩ := create_new H.inv (H.fit1 hx) 0
  refine ⟨s', e1, H.new N (Big.canonW_single _) rfl, ?_⟩
  have := N.res.neg_eq
  rw [H.len] at this
  exact this

/-- The variables are where they should be. -/
def Reads (vars : List Nat) (ρ : List Int) (e : Env) : Prop := ∀ (i : Nat) (a : Int), ρ[i]? = some a → ∃ p, vars[i]? = some p ∧ look e p = some a

theorem Reads.append {vars ρ e} (h : Reads vars ρ e) (x : Env) : Reads vars ρ (e ++ x) := fun i a ha => by
  obtain ⟨p, h1, h2⟩ := h i a ha
  exact ⟨p, h1, look_append h2 x⟩

theorem stmt_mem {K : Kind} {e e' : Env} (c : Stmt) (he : eval e c = some e') (hr : Ack.Spec.Prog.Room K.lim e c) (hd : DivSafe e c)
    (hn : ¬ AddsInto K.N e c) : ∀ s, Holds K s e → ∀ fuel, ∃ s', c.exec K fuel s = .ok s' ∧ Holds K s' e' := fun _ H fuel => by
  rcases exec_one fuel H c he hr hd with h | ⟨-, h, -⟩
  · exact h
  · exact absurd h hn

/-- Expressions without calls of `pow`, `modinv`, `gcd`, `lcm`, `modexp`. -/
def callFree : Ex → Bool
  | .var _ | .lit _ => true
  | .bin _ x y => callFree x && callFree y
  | .binN _ x _ | .neg x | .abs x | .shl x _ | .shr x _ => callFree x
  | .call .. | .modexp .. => false

theorem eval_spec {K : Kind} (elide : Bool) {vars : List Nat} {ρ : List Int} {x : Ex} {a : Int} (h : IntProg.Means K.lim (inlineOf K) ρ x a) :
    ∀ {e : Env}, Reads vars ρ e → ∃ F ext p, (callFree x = true → F = 0) ∧ look (e ++ ext) p = some a ∧ (e.length ≤ p ∨ ∃ v, x = .var v ∧ vars[v]? = some p) ∧
      ∀ s, Holds K s e → ∀ fuel, F ≤ fuel → ∃ s', x.eval K elide fuel vars s = .ok (s', p) ∧ Holds K s' (e ++ ext) := by
  induction h with
  | @var x a hx =>
    intro e hv
    obtain ⟨p, h1, h2⟩ := hv x a hx
    refine ⟨0, [], p, fun _ => rfl, by rw [List.append_nil]; exact h2, Or.inr ⟨x, rfl, h1⟩, fun s H fuel _ => ⟨s, ?_, by rw [List.append_nil]; exact H⟩⟩
    rw [Ex.eval, h1]
  | @lit n hf =>
    intro e hv
    refine ⟨0, [some n.toInt], e.length, fun _ => rfl, look_last _ _ _, Or.inl (Nat.le_refl _), fun s H fuel _ => ?_⟩
    obtain ⟨s', e1, H1⟩ := H.newN hf
    exact ⟨s', by rw [Ex.eval, e1, ok_bind, H.len], H1⟩
  | @bin o x y a b r hx hy hb hr ihx ihy =>
    intro e hv
    obtain ⟨F1, x1, p, f1, l1, -, ev1⟩ := ihx hv
    obtain ⟨F2, x2, q, f2, l2, -, ev2⟩ := ihy (hv.append x1)
    have l1 := look_append l1 x2
    have p1 := look_lt l1
    have q1 := look_lt l2
    obtain ⟨x3, t, l3, ht, ev3⟩ := result_spec (K := K) elide (r := r) (tmp := []) (e := e) (E := (e ++ x1) ++ x2) ⟨x1 ++ x2, by simp⟩
    refine ⟨max F1 F2, x3, t, fun h => by rw [callFree, Bool.and_eq_true] at h; rw [f1 h.1, f2 h.2]; rfl, l3, Or.inl ht, fun s H fuel hF => ?_⟩
    obtain ⟨s1, e1, H1⟩ := ev1 s H fuel (by omega)
    obtain ⟨s2, e2, H2⟩ := ev2 s1 H1 fuel (by omega)
    obtain ⟨s3, e3, H3, hn⟩ := fresh_spec H2 l1
    obtain ⟨s4, e4, H4⟩ := binop_spec fuel H3 (look_append l1 _) (look_append l2 _) (live_of (look_last _ _ [])) hb hr
      (fun h => by rcases h with h | h <;> omega) (fun _ => Or.inl hn) (fun h => by omega)
    rw [put_last] at H4
    obtain ⟨s5, e5, H5⟩ := ev3 s4 H4
    refine ⟨s5, ?_, H5⟩
    rw [Ex.eval, e1, ok_bind]
    dsimp only
    rw [e2, ok_bind]
    dsimp only
    rw [e3, ok_bind, H2.len, e4, ok_bind]
    exact e5
  | @binN o x n a r hx hb hr ihx =>
    intro e hv
    obtain ⟨F1, x1, p, f1, l1, -, ev1⟩ := ihx hv
    have p1 := look_lt l1
    obtain ⟨x3, t, l3, ht, ev3⟩ := result_spec (K := K) elide (r := r) (tmp := tmpOf n) (e := e) (E := e ++ x1) ⟨x1, rfl⟩
    refine ⟨F1, x3, t, f1, l3, Or.inl ht, fun s H fuel hF => ?_⟩
    obtain ⟨s1, e1, H1⟩ := ev1 s H fuel hF
    obtain ⟨s3, e3, H3, hn⟩ := fresh_spec H1 l1
    obtain ⟨s4, e4, H4⟩ := runN_spec (asg := false) fuel H3 (look_append l1 _) (live_of (look_last _ _ [])) hb hr
      (fun h => by omega) (fun h => by cases h) (fun _ => Or.inl hn)
    rw [put_last, List.append_assoc] at H4
    obtain ⟨s5, e5, H5⟩ := ev3 s4 H4
    refine ⟨s5, ?_, H5⟩
    rw [Ex.eval, e1, ok_bind]
    dsimp only
    rw [e3, ok_bind, H1.len, e4, ok_bind]
    exact e5
  | @neg x a hx ihx =>
    intro e hv
    obtain ⟨F1, x1, p, f1, l1, -, ev1⟩ := ihx hv
    obtain ⟨x3, t, l3, ht, ev3⟩ := result_spec (K := K) elide (r := -a) (tmp := []) (e := e) (E := e ++ x1) ⟨x1, rfl⟩
    refine ⟨F1, x3, t, f1, l3, Or.inl ht, fun s H fuel hF => ?_⟩
    obtain ⟨s1, e1, H1⟩ := ev1 s H fuel hF
    obtain ⟨s3, e3, H3, hn⟩ := fresh_spec H1 l1
    obtain ⟨s4, e4, H4⟩ := stmt_mem (.neg (e ++ x1).length p)
      (by simp only [eval, look_append l1]; exact if_pos (live_of (look_last _ _ []))) trivial trivial id s3 H3 fuel
    rw [put_last] at H4
    obtain ⟨s5, e5, H5⟩ := ev3 s4 H4
    refine ⟨s5, ?_, H5⟩
    rw [Ex.eval, e1, ok_bind]
    dsimp only
    rw [e3, ok_bind, H1.len]
    rw [show s3.negate K (e ++ x1).length p = _ from e4, ok_bind]
    exact e5
  | @abs x a hx ihx =>
    intro e hv
    obtain ⟨F1, x1, p, f1, l1, -, ev1⟩ := ihx hv
    obtain ⟨x3, t, l3, ht, ev3⟩ := result_spec (K := K) elide (r := (a.natAbs : Int)) (tmp := []) (e := e) (E := e ++ x1) ⟨x1, rfl⟩
    refine ⟨F1, x3, t, f1, l3, Or.inl ht, fun s H fuel hF => ?_⟩
    obtain ⟨s1, e1, H1⟩ := ev1 s H fuel hF
    obtain ⟨s3, e3, H3⟩ := stmt_mem (.copyNew p) (e' := e ++ x1 ++ [some a]) (by simp only [eval, l1]; rfl) trivial trivial id s1 H1 fuel
    obtain ⟨s4, e4, H4⟩ := stmt_mem (.abs (e ++ x1).length p)
      (by simp only [eval, look_append l1]; exact if_pos (live_of (look_last _ _ []))) trivial trivial id s3 H3 fuel
    rw [put_last] at H4
    obtain ⟨s5, e5, H5⟩ := ev3 s4 H4
    refine ⟨s5, ?_, H5⟩
    rw [Ex.eval, e1, ok_bind]
    dsimp only
    rw [H1.len, show s1.copyNew K p = _ from e3, ok_bind]
    rw [show s3.abs K (e ++ x1).length p = _ from e4, ok_bind]
    exact e5
  | @shl x n a hx hf ihx =>
    intro e hv
    obtain ⟨F1, x1, p, f1, l1, -, ev1⟩ := ihx hv
    obtain ⟨x3, t, l3, ht, ev3⟩ := result_spec (K := K) elide (r := a * 2 ^ n) (tmp := []) (e := e) (E := e ++ x1) ⟨x1, rfl⟩
    refine ⟨F1, x3, t, f1, l3, Or.inl ht, fun s H fuel hF => ?_⟩
    obtain ⟨s1, e1, H1⟩ := ev1 s H fuel hF
    obtain ⟨s3, e3, H3⟩ := stmt_mem (.copyNew p) (e' := e ++ x1 ++ [some a]) (by simp only [eval, l1]; rfl) trivial trivial id s1 H1 fuel
    obtain ⟨s4, e4, H4⟩ := stmt_mem (.shl (e ++ x1).length (e ++ x1).length n)
      (by simp only [eval, look_last]; exact if_pos (live_of (look_last _ _ [])))
      (fun a' ha => by rw [look_last] at ha; cases ha; exact hf) trivial id s3 H3 fuel
    rw [put_last] at H4
    obtain ⟨s5, e5, H5⟩ := ev3 s4 H4
    refine ⟨s5, ?_, H5⟩
    rw [Ex.eval, e1, ok_bind]
    dsimp only
    rw [H1.len, show s1.copyNew K p = _ from e3, ok_bind]
    rw [show s3.shl K (e ++ x1).length (e ++ x1).length n = _ from e4, ok_bind]
    exact e5
  | @shr x n a hx ihx =>
    intro e hv
    obtain ⟨F1, x1, p, f1, l1, -, ev1⟩ := ihx hv
    obtain ⟨x3, t, l3, ht, ev3⟩ := result_spec (K := K) elide (r := a.tdiv (2 ^ n)) (tmp := []) (e := e) (E := e ++ x1) ⟨x1, rfl⟩
    refine ⟨F1, x3, t, f1, l3, Or.inl ht, fun s H fuel hF => ?_⟩
    obtain ⟨s1, e1, H1⟩ := ev1 s H fuel hF
    obtain ⟨s3, e3, H3⟩ := stmt_mem (.copyNew p) (e' := e ++ x1 ++ [some a]) (by simp only [eval, l1]; rfl) trivial trivial id s1 H1 fuel
    obtain ⟨s4, e4, H4⟩ := stmt_mem (.shr (e ++ x1).length (e ++ x1).length n)
      (by simp only [eval, look_last]; exact if_pos (live_of (look_last _ _ []))) trivial trivial id s3 H3 fuel
    rw [put_last] at H4
    obtain ⟨s5, e5, H5⟩ := ev3 s4 H4
    refine ⟨s5, ?_, H5⟩
    rw [Ex.eval, e1, ok_bind]
    dsimp only
    rw [H1.len, show s1.copyNew K p = _ from e3, ok_bind]
    rw [show s3.shr K (e ++ x1).length (e ++ x1).length n = _ from e4, ok_bind]
    exact e5
  | @call f x y a b r hx hy hc hi ihx ihy =>
    intro e hv
    obtain ⟨F1, x1, p, f1, l1, -, ev1⟩ := ihx hv
    obtain ⟨F2, x2, q, f2, l2, -, ev2⟩ := ihy (hv.append x1)
    have l1 := look_append l1 x2
    have hz : live ((e ++ x1) ++ x2 ++ [some 0]) ((e ++ x1) ++ x2).length := live_of (look_last _ _ [])
    have hz' : ((e ++ x1) ++ x2).length < ((e ++ x1) ++ x2 ++ [some (0 : Int)]).length := by simp
    have lp := look_append l1 [some 0]
    have lq := look_append l2 [some 0]
    obtain ⟨x3, t, l3, ht, ev3⟩ := result_spec (K := K) elide (r := r) (tmp := []) (e := e) (E := (e ++ x1) ++ x2) ⟨x1 ++ x2, by simp⟩
    have two : ∀ (P : Int → Int → Prop), P a b →
        ∀ a' b', look ((e ++ x1) ++ x2 ++ [some 0]) p = some a' → look ((e ++ x1) ++ x2 ++ [some 0]) q = some b' → P a' b' := by
      intro P h a' b' h1 h2
      rw [lp] at h1; rw [lq] at h2; cases h1; cases h2; exact h
    obtain ⟨F3, ev4⟩ : ∃ F, ∀ s, Holds K s ((e ++ x1) ++ x2 ++ [some 0]) → ∀ fuel, F ≤ fuel →
        ∃ s', (f.stmt ((e ++ x1) ++ x2).length p q).exec K fuel s = .ok s' ∧ Holds K s' ((e ++ x1) ++ x2 ++ [some r]) := by
      rw [← put_last _ (some 0) r]
      cases f with
      | pow => exact execN_one _ ⟨a, b, lp, lq, hz, hc.1, by rw [← hc.2.1]⟩ (two _ hc.2.2) trivial (fun _ => trivial)
      | modinv =>
        exact execN_one _ ⟨a, b, r, lp, lq, hz', hc.1, hc.2.1, hc.2.2.1, hc.2.2.2.1, hc.2.2.2.2.1, rfl⟩ (two _ hc.2.2.2.2.2) trivial
          (fun hd m hm => by rw [lq] at hm; cases hm; exact hi K.N (by unfold inlineOf; rw [hd]; rfl))
      | gcd => exact execN_one _ ⟨a, b, lp, lq, hz', hc.1, hc.2.1, by rw [hc.2.2]⟩ trivial trivial (fun _ => trivial)
      | lcm =>
        exact execN_one _ ⟨a, b, lp, lq, hz, hc.1, hc.2.1, hc.2.2.1, by rw [← hc.2.2.2.1]⟩ (two _ hc.2.2.2.2.1) (two _ hc.2.2.2.2.2)
          (fun _ => trivial)
    refine ⟨max (max F1 F2) F3, x3, t, fun h => (by cases h), l3, Or.inl ht, fun s H fuel hF => ?_⟩
    obtain ⟨s1, e1, H1⟩ := ev1 s H fuel (by omega)
    obtain ⟨s2, e2, H2⟩ := ev2 s1 H1 fuel (by omega)
    obtain ⟨s3, e3, H3, hn⟩ := fresh_spec H2 l1
    obtain ⟨s4, e4, H4⟩ := ev4 s3 H3 fuel (by omega)
    obtain ⟨s5, e5, H5⟩ := ev3 s4 H4
    refine ⟨s5, ?_, H5⟩
    rw [Ex.eval, e1, ok_bind]
    dsimp only
    rw [e2, ok_bind]
    dsimp only
    rw [e3, ok_bind, H2.len, e4, ok_bind]
    exact e5
  | @modexp x y z a b m hx hy hm ha hb h0 hf ihx ihy ihm =>
    intro e hv
    obtain ⟨F1, x1, p, f1, l1, -, ev1⟩ := ihx hv
    obtain ⟨F2, x2, q, f2, l2, -, ev2⟩ := ihy (hv.append x1)
    obtain ⟨F5, x5, u, -, l5, -, ev5⟩ := ihm ((hv.append x1).append x2)
    have l1 := look_append (look_append l1 x2) x5
    have l2 := look_append l2 x5
    have hz : live (((e ++ x1) ++ x2) ++ x5 ++ [some 0]) (((e ++ x1) ++ x2) ++ x5).length := live_of (look_last _ _ [])
    have lp := look_append l1 [some 0]
    have lq := look_append l2 [some 0]
    have lu := look_append l5 [some 0]
    have u1 := look_lt l5
    obtain ⟨x3, t, l3, ht, ev3⟩ := result_spec (K := K) elide (r := a ^ b.toNat % m) (tmp := []) (e := e) (E := ((e ++ x1) ++ x2) ++ x5)
      ⟨x1 ++ (x2 ++ x5), by simp⟩
    obtain ⟨F3, ev4⟩ := execN_one (K := K) (NStmt.modexp (((e ++ x1) ++ x2) ++ x5).length p q u)
      ⟨a, b, m, lp, lq, lu, hz, by omega, ha, hb, h0, rfl⟩
      (fun a' n' h1 h2 => by rw [lp] at h1; rw [lu] at h2; cases h1; cases h2; exact hf) trivial (fun _ => trivial)
    rw [put_last] at ev4
    refine ⟨max (max F1 F2) (max F3 F5), x3, t, fun h => (by cases h), l3, Or.inl ht, fun s H fuel hF => ?_⟩
    obtain ⟨s1, e1, H1⟩ := ev1 s H fuel (by omega)
    obtain ⟨s2, e2, H2⟩ := ev2 s1 H1 fuel (by omega)
    obtain ⟨s6, e6, H6⟩ := ev5 s2 H2 fuel (by omega)
    obtain ⟨s3, e3, H3, hn⟩ := fresh_spec H6 l1
    obtain ⟨s4, e4, H4⟩ := ev4 s3 H3 fuel (by omega)
    obtain ⟨s5, e5, H5⟩ := ev3 s4 H4
    refine ⟨s5, ?_, H5⟩
    rw [Ex.eval, e1, ok_bind]
    dsimp only
    rw [e2, ok_bind]
    dsimp only
    rw [e6, ok_bind]
    dsimp only
    rw [e3, ok_bind, H6.len, e4, ok_bind]
    exact e5

/-! ## Conditions -/

theorem right_spec (o : Cmp) {c a b : Int} (h : Sgn c a b) : o.right c = decide (IntProg.Rel o a b) := by
  obtain ⟨h1, h2, h3⟩ := h
  refine bool_eq ?_
  cases o <;> simp only [Cmp.right, IntProg.Rel, beq_iff_eq, Bool.not_eq_true', beq_eq_false_iff_ne, decide_eq_true_eq, decide_eq_false_iff_not] <;>
    omega

theorem left_spec (o : Cmp) {c a b : Int} (h : Sgn c a b) : o.left c = decide (IntProg.Rel o b a) := by
  obtain ⟨h1, h2, h3⟩ := h
  refine bool_eq ?_
  cases o <;> simp only [Cmp.left, IntProg.Rel, beq_iff_eq, Bool.not_eq_true', beq_eq_false_iff_ne, decide_eq_true_eq, decide_eq_false_iff_not] <;>
    omega

theorem cmpNative_mem {K s e} (H : Holds K s e) {x : Nat} {a : Int} {n : Native} (hx : look e x = some a) (hr : IntProg.RuleC K.lim a n) :
    ∃ s' c, s.cmpNative K x n = .ok (s', c) ∧ Sgn c a n.toInt ∧ Holds K s' (e ++ tmpOf n) := by
  obtain ⟨X, x1, x2, x3⟩ := H.rep hx
  have nil : Holds K s (e ++ []) := by rw [List.append_nil]; exact H
  have big : ∀ n : Native, fits K.lim (IntProg.width n) → ∃ s' c,
      (do let t := s.mem.objs.length; let s ← s.newN K n; Except.ok (s, ← s.compare x t) : Res (BigSt × Int)) = .ok (s', c) ∧
        Sgn c a n.toInt ∧ Holds K s' (e ++ [some n.toInt]) := by
    intro n hf
    obtain ⟨s', e1, H1⟩ := H.newN hf
    obtain ⟨X', y1, y2, y3⟩ := H1.rep (look_append hx _)
    obtain ⟨Y, z1, z2, z3⟩ := H1.rep (look_last e n.toInt [])
    refine ⟨s', _, ?_, sgn_of (y3 ▸ z3 ▸ Big.compare_spec y2 z2), H1⟩
    dsimp only
    rw [e1, ok_bind, H.len, compare_eq y1 z1, ok_bind]
  cases n with
  | s32 v => exact ⟨s, _, by rw [BigSt.cmpNative, compares1_eq x1, ok_bind], sgn_of (x3 ▸ Big.compares1_spec x2 v), nil⟩
  | u32 v =>
    exact ⟨s, _, by rw [BigSt.cmpNative, compareu1_mem x1, ok_bind], sgn_of (x3 ▸ Big.compareu1_spec x2 v (fun _ => x3 ▸ hr)), nil⟩
  | s64 v => exact big (.s64 v) hr
  | u64 v => exact big (.u64 v) hr

/-- Conditions on expressions without calls. -/
def callFreeC : Cond → Bool
  | .cmp _ x y => callFree x && callFree y
  | .cmpR _ x _ | .cmpL _ _ x | .isZero x | .isOne x | .isNegative x | .isOdd x | .testBit x _ => callFree x
  | .not c => callFreeC c
  | .and c d | .or c d => callFreeC c && callFreeC d

theorem cond_spec {K : Kind} (elide : Bool) {vars : List Nat} {ρ : List Int} {c : Cond} {b : Bool} (h : IntProg.Truth K.lim (inlineOf K) ρ c b) :
    ∀ {e : Env}, Reads vars ρ e → ∃ F ext, (callFreeC c = true → F = 0) ∧ ∀ s, Holds K s e → ∀ fuel, F ≤ fuel →
      ∃ s', c.eval K elide fuel vars s = .ok (s', b) ∧ Holds K s' (e ++ ext) := by
  have one : ∀ {x : Ex} {a : Int} {e : Env} (g : BigSt → Nat → Res Bool) (f : Bool), IntProg.Means K.lim (inlineOf K) ρ x a → Reads vars ρ e →
      (∀ s p X, Rep s p X → X.Canon → X.toInt = a → g s p = .ok f) → ∃ F ext, (callFree x = true → F = 0) ∧ ∀ s, Holds K s e → ∀ fuel, F ≤ fuel →
        ∃ s', (do let (s, p) ← x.eval K elide fuel vars s; Except.ok (s, ← g s p) : Res (BigSt × Bool)) = .ok (s', f) ∧ Holds K s' (e ++ ext) := by
    intro x a e g f hx hv hg
    obtain ⟨F, ext, p, f0, l, -, ev⟩ := eval_spec elide hx hv
    refine ⟨F, ext, f0, fun s H fuel hF => ?_⟩
    obtain ⟨s1, e1, H1⟩ := ev s H fuel hF
    obtain ⟨X, x1, x2, x3⟩ := H1.rep l
    exact ⟨s1, by rw [e1, ok_bind]; dsimp only; rw [hg s1 p X x1 x2 x3, ok_bind], H1⟩
  induction h with
  | @cmp o x y a b hx hy =>
    intro e hv
    obtain ⟨F1, x1, p, f1, l1, -, ev1⟩ := eval_spec elide hx hv
    obtain ⟨F2, x2, q, f2, l2, -, ev2⟩ := eval_spec elide hy (hv.append x1)
    refine ⟨max F1 F2, x1 ++ x2, fun h => by rw [f1 (Bool.and_eq_true_iff.1 h).1, f2 (Bool.and_eq_true_iff.1 h).2]; rfl, fun s H fuel hF => ?_⟩
    obtain ⟨s1, e1, H1⟩ := ev1 s H fuel (by omega)
    obtain ⟨s2, e2, H2⟩ := ev2 s1 H1 fuel (by omega)
    obtain ⟨X, y1, y2, y3⟩ := H2.rep (look_append l1 x2)
    obtain ⟨Y, z1, z2, z3⟩ := H2.rep l2
    refine ⟨s2, ?_, by rw [← List.append_assoc]; exact H2⟩
    rw [Cond.eval, e1, ok_bind]
    dsimp only
    rw [e2, ok_bind]
    dsimp only
    rw [compare_eq y1 z1, ok_bind, right_spec o (sgn_of (y3 ▸ z3 ▸ Big.compare_spec y2 z2))]
  | @cmpR o x n a hx hr =>
    intro e hv
    obtain ⟨F1, x1, p, f1, l1, -, ev1⟩ := eval_spec elide hx hv
    refine ⟨F1, x1 ++ tmpOf n, f1, fun s H fuel hF => ?_⟩
    obtain ⟨s1, e1, H1⟩ := ev1 s H fuel hF
    obtain ⟨s2, c, e2, sg, H2⟩ := cmpNative_mem H1 l1 hr
    refine ⟨s2, ?_, by rw [← List.append_assoc]; exact H2⟩
    rw [Cond.eval, e1, ok_bind]
    dsimp only
    rw [e2, ok_bind]
    dsimp only
    rw [right_spec o sg]
  | @cmpL o x n a hx hr =>
    intro e hv
    obtain ⟨F1, x1, p, f1, l1, -, ev1⟩ := eval_spec elide hx hv
    refine ⟨F1, x1 ++ tmpOf n, f1, fun s H fuel hF => ?_⟩
    obtain ⟨s1, e1, H1⟩ := ev1 s H fuel hF
    obtain ⟨s2, c, e2, sg, H2⟩ := cmpNative_mem H1 l1 hr
    refine ⟨s2, ?_, by rw [← List.append_assoc]; exact H2⟩
    rw [Cond.eval, e1, ok_bind]
    dsimp only
    rw [e2, ok_bind]
    dsimp only
    rw [left_spec o sg]
  | @isZero x a hx =>
    intro e hv
    exact one BigSt.isZero _ hx hv (fun s p X h1 h2 h3 => by rw [isZero_eq h1, bool_eq (Big.isZero_iff h2), h3])
  | @isOne x a hx =>
    intro e hv
    exact one BigSt.isOne _ hx hv (fun s p X h1 h2 h3 => by rw [isOne_eq h1, bool_eq (Big.isOne_iff h2), h3])
  | @isNegative x a hx =>
    intro e hv
    exact one BigSt.isNegative _ hx hv (fun s p X h1 h2 h3 => by rw [isNegative_mem h1, bool_eq (Big.isNegative_iff h2), h3])
  | @isOdd x a hx =>
    intro e hv
    exact one BigSt.isOdd _ hx hv (fun s p X h1 h2 h3 => by rw [isOdd_mem h1, bool_eq (Big.isOdd_iff X), h3])
  | @testBit x i a hx =>
    intro e hv
    exact one (fun s p => s.testBit p i) _ hx hv (fun s p X h1 h2 h3 => by
      show s.testBit p i = _
      rw [testBit_eq h1, Big.testBit_spec, natAbs_of h3])
  | @not c b hc ih =>
    intro e hv
    obtain ⟨F, ext, f0, ev⟩ := ih hv
    refine ⟨F, ext, f0, fun s H fuel hF => ?_⟩
    obtain ⟨s1, e1, H1⟩ := ev s H fuel hF
    exact ⟨s1, by rw [Cond.eval, e1, ok_bind], H1⟩
  | @and_false c d hc ih =>
    intro e hv
    obtain ⟨F, ext, f0, ev⟩ := ih hv
    refine ⟨F, ext, fun h => f0 (Bool.and_eq_true_iff.1 h).1, fun s H fuel hF => ?_⟩
    obtain ⟨s1, e1, H1⟩ := ev s H fuel hF
    exact ⟨s1, by rw [Cond.eval, e1, ok_bind]; rfl, H1⟩
  | @and_true c d b hc hd ihc ihd =>
    intro e hv
    obtain ⟨F, ext, f0, ev⟩ := ihc hv
    obtain ⟨F', ext', f0', ev'⟩ := ihd (hv.append ext)
    refine ⟨max F F', ext ++ ext', fun h => by rw [f0 (Bool.and_eq_true_iff.1 h).1, f0' (Bool.and_eq_true_iff.1 h).2]; rfl, fun s H fuel hF => ?_⟩
    obtain ⟨s1, e1, H1⟩ := ev s H fuel (by omega)
    obtain ⟨s2, e2, H2⟩ := ev' s1 H1 fuel (by omega)
    exact ⟨s2, by rw [Cond.eval, e1, ok_bind]; exact e2, by rw [← List.append_assoc]; exact H2⟩
  | @or_true c d hc ih =>
    intro e hv
    obtain ⟨F, ext, f0, ev⟩ := ih hv
    refine ⟨F, ext, fun h => f0 (Bool.and_eq_true_iff.1 h).1, fun s H fuel hF => ?_⟩
    obtain ⟨s1, e1, H1⟩ := ev s H fuel hF
    exact ⟨s1, by rw [Cond.eval, e1, ok_bind]; rfl, H1⟩
  | @or_false c d b hc hd ihc ihd =>
    intro e hv
    obtain ⟨F, ext, f0, ev⟩ := ihc hv
    obtain ⟨F', ext', f0', ev'⟩ := ihd (hv.append ext)
    refine ⟨max F F', ext ++ ext', fun h => by rw [f0 (Bool.and_eq_true_iff.1 h).1, f0' (Bool.and_eq_true_iff.1 h).2]; rfl, fun s H fuel hF => ?_⟩
    obtain ⟨s1, e1, H1⟩ := ev s H fuel (by omega)
    obtain ⟨s2, e2, H2⟩ := ev' s1 H1 fuel (by omega)
    exact ⟨s2, by rw [Cond.eval, e1, ok_bind]; exact e2, by rw [← List.append_assoc]; exact H2⟩

/-! ## Commands -/

/-- The variables of a frame: at distinct positions, with their integers. -/
structure Sees (vars : List Nat) (ρ : List Int) (e : Env) : Prop where
  len : vars.length = ρ.length
  nodup : vars.Nodup
  reads : Reads vars ρ e

theorem Sees.lt {vars ρ e} (h : Sees vars ρ e) {q : Nat} (hq : q ∈ vars) : q < e.length := by
  obtain ⟨i, hi, rfl⟩ := List.getElem_of_mem hq
  obtain ⟨p, h1, h2⟩ := h.reads i _ (List.getElem?_eq_getElem (by rw [← h.len]; exact hi))
  rw [List.getElem?_eq_getElem hi] at h1
  cases h1
  exact look_lt h2

theorem Sees.get {vars ρ e} (h : Sees vars ρ e) {z : Nat} (hz : z < ρ.length) : ∃ i, vars[z]? = some i ∧ i ∈ vars ∧ i < e.length := by
  have hv : z < vars.length := by rw [h.len]; exact hz
  exact ⟨vars[z], List.getElem?_eq_getElem hv, List.getElem_mem hv, h.lt (List.getElem_mem hv)⟩

theorem Sees.append {vars ρ e} (h : Sees vars ρ e) (x : Env) : Sees vars ρ (e ++ x) := ⟨h.len, h.nodup, h.reads.append x⟩

theorem look_put_other {e : Env} {i q : Nat} {r b : Int} (h : q ≠ i) (hb : look e q = some b) : look (put e i r) q = some b :=
  look_put_ne (Ne.symm h) hb

theorem Sees.put {vars ρ e} (h : Sees vars ρ e) {z i : Nat} (hi : vars[z]? = some i) (r : Int) : Sees vars (ρ.set z r) (put e i r) := by
  refine ⟨by rw [List.length_set]; exact h.len, h.nodup, fun j b hb => ?_⟩
  by_cases hj : z = j
  · subst hj
    rw [List.getElem?_set, if_pos rfl] at hb
    split at hb
    · cases hb
      refine ⟨i, hi, ?_⟩
      have : i < e.length := h.lt (List.mem_of_getElem? hi)
      rw [look_some]; unfold Spec.Prog.put; rw [List.getElem?_set, if_pos rfl, if_pos this]
    · cases hb
  · rw [List.getElem?_set_ne hj] at hb
    obtain ⟨q, h1, h2⟩ := h.reads j b hb
    refine ⟨q, h1, look_put_other ?_ h2⟩
    rintro rfl
    obtain ⟨hz, e1⟩ := List.getElem?_eq_some_iff.1 hi
    obtain ⟨hj', e2⟩ := List.getElem?_eq_some_iff.1 h1
    exact hj ((List.Nodup.getElem_inj_iff h.nodup).1 (e1.trans e2.symm))

theorem Sees.kill {vars ρ e} (h : Sees vars ρ e) {p : Nat} (hp : p ∉ vars) : Sees vars ρ (e.set p none) := by
  refine ⟨h.len, h.nodup, fun j b hb => ?_⟩
  obtain ⟨q, h1, h2⟩ := h.reads j b hb
  refine ⟨q, h1, ?_⟩
  rw [look_some] at h2 ⊢
  rw [List.getElem?_set_ne]
  · exact h2
  · rintro rfl
    exact hp (List.mem_of_getElem? h1)

theorem Sees.snoc {vars ρ e} (h : Sees vars ρ e) {p : Nat} {a : Int} (hp : p ∉ vars) (ha : look e p = some a) : Sees (vars ++ [p]) (ρ ++ [a]) e := by
  refine ⟨by simp [h.len], ?_, fun j b hb => ?_⟩
  · rw [List.nodup_append]
    refine ⟨h.nodup, by simp, fun x hx y hy => ?_⟩
    rw [List.mem_singleton] at hy
    subst hy
    rintro rfl
    exact hp hx
  · rw [List.getElem?_append] at hb ⊢
    rw [h.len]
    split at hb
    · rename_i hj
      rw [if_pos hj]
      exact h.reads j b hb
    · rename_i hj
      rw [if_neg hj]
      rw [List.getElem?_singleton] at hb ⊢
      split at hb
      · cases hb; rename_i h0; exact ⟨p, by rw [if_pos h0], ha⟩
      · cases hb

theorem Sees.take {vars ρ e} (h : Sees vars ρ e) (n : Nat) : Sees (vars.take n) (ρ.take n) e := by
  refine ⟨by rw [List.length_take, List.length_take, h.len], h.nodup.sublist (List.take_sublist _ _), fun j b hb => ?_⟩
  rw [List.getElem?_take] at hb ⊢
  split at hb
  · rename_i hj
    rw [if_pos hj]
    exact h.reads j b hb
  · cases hb

theorem exec_decl {K : Kind} {elide : Bool} {n : Nat} {x : Ex} {f : Frame} (h : ∀ v, x ≠ .var v) :
    Cmd.exec K elide (n + 1) (.decl x) f = (do
      let (s, p) ← x.eval K elide n f.vars f.st
      .ok ⟨f.vars ++ [p], s⟩) := by
  cases x <;> first | rfl | exact absurd rfl (h _)

theorem exec_set {K : Kind} {elide : Bool} {n z : Nat} {x : Ex} {f : Frame} (h : ∀ v, x ≠ .var v) :
    Cmd.exec K elide (n + 1) (.set z x) f = (do
      let (s, p) ← x.eval K elide n f.vars f.st
      let i ← f.pos z
      let s ← s.moveAssign K i p
      .ok ⟨f.vars, s⟩) := by
  cases x <;> first | rfl | exact absurd rfl (h _)

theorem pos_ok {f : Frame} {z i : Nat} (h : f.vars[z]? = some i) : f.pos z = .ok i := by unfold Frame.pos; rw [h]

theorem neg_or_zero {K s e} (H : Holds K s e) {i : Nat} {o : BOp} {a b r : Int} (hi : look e i = some a) (hb : IntProg.Bin o a b r)
    (hr : o = .or → 0 < a ∨ b = 0) (ho : o = .and ∨ o = .or) : s.neg i = false ∨ r = 0 := by
  obtain ⟨X, x1, x2, x3⟩ := H.rep hi
  by_cases h : 0 < a
  · exact Or.inl (by rw [x1.neg_eq]; exact Big.neg_of_toInt_pos (by rw [x3]; exact h))
  · right
    rcases ho with rfl | rfl
    · obtain ⟨h1, h2, h3⟩ := hb
      have : a = 0 := by omega
      rw [h3, this]; simp
    · obtain ⟨h1, h2, h3⟩ := hb
      have ha : a = 0 := by omega
      have hb : b = 0 := (hr rfl).resolve_left h
      rw [h3, ha, hb]; rfl

/-- Commands that are done in one step. -/
def once : Cmd → Bool
  | .seq .. | .block .. | .ite .. | .loop .. => false
  | .decl x | .set _ x | .upd _ _ x => callFree x
  | _ => true

/-- What a command does, from any state that holds these integers. -/
def Does (K : Kind) (elide : Bool) (p : Cmd) (vars : List Nat) (e : Env) (ρ' : List Int) : Prop :=
  ∃ F e' more, (once p = true → F ≤ 1) ∧ Sees (vars ++ more) ρ' e' ∧
    ∀ s, Holds K s e → ∀ fuel, F ≤ fuel → ∃ s', p.exec K elide fuel ⟨vars, s⟩ = .ok ⟨vars ++ more, s'⟩ ∧ Holds K s' e'

/-- A command that declares nothing. -/
theorem Does.of {K : Kind} {elide : Bool} {p : Cmd} {vars : List Nat} {e e' : Env} {ρ' : List Int} (F : Nat) (f0 : once p = true → F = 0) (S : Sees vars ρ' e')
    (h : ∀ s, Holds K s e → ∀ n, F ≤ n → ∃ s', p.exec K elide (n + 1) ⟨vars, s⟩ = .ok ⟨vars, s'⟩ ∧ Holds K s' e') :
    Does K elide p vars e ρ' := by
  refine ⟨F + 1, e', [], fun h => (by rw [f0 h]), by rw [List.append_nil]; exact S, fun s H fuel hF => ?_⟩
  rw [List.append_nil]
  obtain ⟨n, rfl⟩ : ∃ n, fuel = n + 1 := ⟨fuel - 1, by omega⟩
  exact h s H n (by omega)

theorem Does.block {K : Kind} {elide : Bool} {p : Cmd} {vars : List Nat} {ρ : List Int} {e : Env} {ρ' : List Int} (S : Sees vars ρ e)
    (h : Does K elide p vars e ρ') : Does K elide (.block p) vars e (ρ'.take ρ.length) := by
  obtain ⟨F, e', more, -, S', ev⟩ := h
  refine Does.of (e' := e') F (fun h => by cases h) ?_ (fun s H n hn => ?_)
  · have := S'.take ρ.length
    rw [← S.len, List.take_left'] at this
    · rw [← S.len]; exact this
    · rfl
  · obtain ⟨s', e1, H1⟩ := ev s H n hn
    refine ⟨s', ?_, H1⟩
    rw [Cmd.exec, e1, ok_bind]
    show Except.ok (Frame.mk ((vars ++ more).take vars.length) s') = _
    rw [List.take_left']
    rfl

theorem cmd_spec {K : Kind} (elide : Bool) {p : Cmd} {ρ ρ' : List Int} (h : IntProg.Runs K.lim (inlineOf K) p ρ ρ') :
    ∀ {vars : List Nat} {e : Env}, Sees vars ρ e → Does K elide p vars e ρ' := by
  induction h with
  | skip => exact fun S => Does.of 0 (fun _ => rfl) S (fun s H n _ => ⟨s, rfl, H⟩)
  | seq _ _ ihp ihq =>
    intro vars e S
    obtain ⟨F1, e1, m1, -, S1, ev1⟩ := ihp S
    obtain ⟨F2, e2, m2, -, S2, ev2⟩ := ihq S1
    refine ⟨max F1 F2 + 1, e2, m1 ++ m2, fun h => (by cases h), by rw [← List.append_assoc]; exact S2, fun s H fuel hF => ?_⟩
    obtain ⟨n, rfl⟩ : ∃ n, fuel = n + 1 := ⟨fuel - 1, by omega⟩
    obtain ⟨s1, x1, H1⟩ := ev1 s H n (by omega)
    obtain ⟨s2, x2, H2⟩ := ev2 s1 H1 n (by omega)
    exact ⟨s2, by rw [Cmd.exec, x1, ok_bind, x2, List.append_assoc], H2⟩
  | block _ ih => exact fun S => Does.block S (ih S)
  | @ite c p q b ρ ρ' hc _ ih =>
    intro vars e S
    obtain ⟨F1, ext, -, ev1⟩ := cond_spec elide hc S.reads
    obtain ⟨F2, e2, m2, -, S2, ev2⟩ := Does.block (S.append ext) (ih (S.append ext))
    refine ⟨max F1 F2 + 1, e2, m2, fun h => (by cases h), S2, fun s H fuel hF => ?_⟩
    obtain ⟨n, rfl⟩ : ∃ n, fuel = n + 1 := ⟨fuel - 1, by omega⟩
    obtain ⟨s1, x1, H1⟩ := ev1 s H n (by omega)
    obtain ⟨s2, x2, H2⟩ := ev2 s1 H1 n (by omega)
    exact ⟨s2, by rw [Cmd.exec]; dsimp only; rw [x1, ok_bind]; exact x2, H2⟩
  | @loop_end c p ρ hc =>
    intro vars e S
    obtain ⟨F1, ext, -, ev1⟩ := cond_spec elide hc S.reads
    refine Does.of F1 (fun h => by cases h) (S.append ext) (fun s H n hn => ?_)
    obtain ⟨s1, x1, H1⟩ := ev1 s H n hn
    exact ⟨s1, by rw [Cmd.exec]; dsimp only; rw [x1, ok_bind]; rfl, H1⟩
  | @loop_step c p ρ ρ₁ ρ₂ hc _ _ ihp ihl =>
    intro vars e S
    obtain ⟨F1, ext, -, ev1⟩ := cond_spec elide hc S.reads
    obtain ⟨F2, e2, m2, -, S2, ev2⟩ := Does.block (S.append ext) (ihp (S.append ext))
    obtain ⟨F3, e3, m3, -, S3, ev3⟩ := ihl S2
    refine ⟨max F1 (max F2 F3) + 1, e3, m2 ++ m3, fun h => (by cases h), by rw [← List.append_assoc]; exact S3, fun s H fuel hF => ?_⟩
    obtain ⟨n, rfl⟩ : ∃ n, fuel = n + 1 := ⟨fuel - 1, by omega⟩
    obtain ⟨s1, x1, H1⟩ := ev1 s H n (by omega)
    obtain ⟨s2, x2, H2⟩ := ev2 s1 H1 n (by omega)
    obtain ⟨s3, x3, H3⟩ := ev3 s2 H2 n (by omega)
    refine ⟨s3, ?_, H3⟩
    rw [Cmd.exec]
    dsimp only
    rw [x1, ok_bind]
    dsimp only
    rw [if_pos rfl, x2, ok_bind, x3, List.append_assoc]
  | @decl x ρ a hx =>
    intro vars e S
    by_cases hv : ∃ v, x = .var v
    · obtain ⟨v, rfl⟩ := hv
      cases hx with
      | var hx =>
        obtain ⟨p, h1, h2⟩ := S.reads v a hx
        refine ⟨1, e ++ [some a], [e.length], fun _ => le_refl _, (S.append _).snoc (fun h => Nat.lt_irrefl _ (S.lt h)) (look_last _ _ _), fun s H fuel hF => ?_⟩
        obtain ⟨n, rfl⟩ : ∃ n, fuel = n + 1 := ⟨fuel - 1, by omega⟩
        obtain ⟨s', e1, H1⟩ := stmt_mem (.copyNew p) (e' := e ++ [some a]) (by simp only [eval, h2]; rfl) trivial trivial id s H 0
        refine ⟨s', ?_, H1⟩
        rw [Cmd.exec, pos_ok h1, ok_bind]
        dsimp only
        rw [show s.copyNew K p = _ from e1, ok_bind, H.len]
    · obtain ⟨F, ext, p, f0, l, hp, ev⟩ := eval_spec elide hx S.reads
      have hp : e.length ≤ p := hp.resolve_right (fun ⟨v, hv', _⟩ => hv ⟨v, hv'⟩)
      refine ⟨F + 1, e ++ ext, [p], fun h => (by rw [f0 h]), (S.append _).snoc (fun h => by have := S.lt h; omega) l, fun s H fuel hF => ?_⟩
      obtain ⟨n, rfl⟩ : ∃ n, fuel = n + 1 := ⟨fuel - 1, by omega⟩
      obtain ⟨s', e1, H1⟩ := ev s H n (by omega)
      exact ⟨s', by rw [exec_decl (fun v h => hv ⟨v, h⟩), e1, ok_bind], H1⟩
  | @set x z ρ a hx hz =>
    intro vars e S
    obtain ⟨i, hi, hm, hlt⟩ := S.get hz
    by_cases hv : ∃ v, x = .var v
    · obtain ⟨v, rfl⟩ := hv
      cases hx with
      | var hx =>
        obtain ⟨p, h1, h2⟩ := S.reads v a hx
        refine Does.of 0 (fun _ => rfl) (S.put hi a) (fun s H n _ => ?_)
        obtain ⟨s', e1, H1⟩ := stmt_mem (.assign i p) (e' := put e i a) (by simp only [eval, h2]; exact if_pos hlt) trivial trivial id s H 0
        refine ⟨s', ?_, H1⟩
        rw [Cmd.exec, pos_ok h1, ok_bind, pos_ok hi, ok_bind]
        dsimp only
        rw [show s.assign K i p = _ from e1, ok_bind]
    · obtain ⟨F, ext, p, f0, l, hp, ev⟩ := eval_spec elide hx S.reads
      have hp : e.length ≤ p := hp.resolve_right (fun ⟨v, hv', _⟩ => hv ⟨v, hv'⟩)
      have hpv : p ∉ vars := fun h => by have := S.lt h; omega
      refine Does.of F f0 (((S.append ext).put hi a).kill hpv) (fun s H n hn => ?_)
      obtain ⟨s1, e1, H1⟩ := ev s H n hn
      obtain ⟨s2, e2, H2⟩ := moveAssign_spec H1 (look_some.1 l) (z := i) (by rw [List.length_append]; omega)
      rw [if_neg (by omega)] at H2
      refine ⟨s2, ?_, H2⟩
      rw [exec_set (fun v h => hv ⟨v, h⟩), e1, ok_bind]
      dsimp only
      rw [pos_ok hi, ok_bind, e2, ok_bind]
  | @setN n z ρ hz hf =>
    intro vars e S
    obtain ⟨i, hi, hm, hlt⟩ := S.get hz
    refine Does.of 0 (fun _ => rfl) (S.put hi n.toInt) (fun s H k _ => ?_)
    obtain ⟨o, ho⟩ : ∃ o, s.mem.objs[i]? = some o := ⟨_, List.getElem?_eq_getElem (by rw [H.len]; exact hlt)⟩
    have hf' := lim_fits' _ _ (width_words n ▸ hf)
    obtain ⟨s', R, e1, e2, P⟩ := assignN_mem H.inv ho n hf'
    obtain ⟨R', e3, c, -, v, -⟩ := Native.toBig_spec K.lim n hf'
    rw [e2] at e3; cases e3
    refine ⟨s', ?_, H.post P c v⟩
    rw [Cmd.exec, pos_ok hi, ok_bind]
    dsimp only
    rw [e1, ok_bind]
  | @upd o x z ρ a b r ha hx hb hr hal =>
    intro vars e S
    obtain ⟨i, hi, hl⟩ := S.reads z a ha
    obtain ⟨F, ext, p, f0, l, -, ev⟩ := eval_spec elide hx S.reads
    refine Does.of F f0 ((S.append ext).put hi r) (fun s H n hn => ?_)
    obtain ⟨s1, e1, H1⟩ := ev s H n hn
    have hl' := look_append hl ext
    obtain ⟨s2, e2, H2⟩ := binop_spec n H1 hl' l (live_of hl') hb hr (fun _ => hal)
      (neg_or_zero H1 hl' hb (fun h => by subst h; exact hal)) (fun h => h)
    refine ⟨s2, ?_, H2⟩
    rw [Cmd.exec]
    dsimp only
    rw [e1, ok_bind]
    dsimp only
    rw [pos_ok hi, ok_bind, e2, ok_bind]
  | @updN o n z ρ a r ha hb hr hal =>
    intro vars e S
    obtain ⟨i, hi, hl⟩ := S.reads z a ha
    refine Does.of 0 (fun _ => rfl) ((S.put hi r).append (tmpOf n)) (fun s H k _ => ?_)
    have hor : o = .or → 0 < a ∨ n.toInt = 0 := by
      rintro rfl
      cases n with
      | s32 v => exact hr.elim
      | u32 v => exact hr.imp id (fun h => by rw [h]; rfl)
      | s64 v => exact hr.elim
      | u64 v => exact hal
    obtain ⟨s', e1, H1⟩ := runN_spec (asg := true) k H hl (live_of hl) hb hr (fun _ => rfl) (fun _ => hal) (neg_or_zero H hl hb hor)
    refine ⟨s', ?_, H1⟩
    rw [Cmd.exec, pos_ok hi, ok_bind]
    dsimp only
    rw [e1, ok_bind]
  | @shl z k ρ a ha hf =>
    intro vars e S
    obtain ⟨i, hi, hl⟩ := S.reads z a ha
    refine Does.of 0 (fun _ => rfl) (S.put hi _) (fun s H n _ => ?_)
    obtain ⟨s', e1, H1⟩ := stmt_mem (.shl i i k) (by simp only [eval, hl]; exact if_pos (live_of hl))
      (fun a' ha' => by rw [hl] at ha'; cases ha'; exact hf) trivial id s H 0
    refine ⟨s', ?_, H1⟩
    rw [Cmd.exec, pos_ok hi, ok_bind]
    dsimp only
    rw [show s.shl K i i k = _ from e1, ok_bind]
  | @shr z k ρ a ha =>
    intro vars e S
    obtain ⟨i, hi, hl⟩ := S.reads z a ha
    refine Does.of 0 (fun _ => rfl) (S.put hi _) (fun s H n _ => ?_)
    obtain ⟨s', e1, H1⟩ := stmt_mem (.shr i i k) (by simp only [eval, hl]; exact if_pos (live_of hl)) trivial trivial id s H 0
    refine ⟨s', ?_, H1⟩
    rw [Cmd.exec, pos_ok hi, ok_bind]
    dsimp only
    rw [show s.shr K i i k = _ from e1, ok_bind]
  | @step up z ρ a ha hf =>
    intro vars e S
    obtain ⟨i, hi, hl⟩ := S.reads z a ha
    refine Does.of 0 (fun _ => rfl) (S.put hi _) (fun s H n _ => ?_)
    obtain ⟨s', e1, H1⟩ := addWord_mem H hl (live_of hl) hf 1 (!up)
    refine ⟨s', ?_, by cases up <;> exact H1⟩
    rw [Cmd.exec, pos_ok hi, ok_bind]
    dsimp only
    rw [BigSt.bump, e1, ok_bind]
  | @post up z ρ a ha hf =>
    intro vars e S
    obtain ⟨i, hi, hl⟩ := S.reads z a ha
    have hlt := look_lt hl
    obtain ⟨ext, t, l, ht, ev⟩ := result_spec (K := K) elide (r := a) (tmp := []) (e := put e i (if up then a + 1 else a - 1))
      (E := put e i (if up then a + 1 else a - 1)) ⟨[], by simp⟩
    have hpl : (put e i (if up then a + 1 else a - 1)).length = e.length := List.length_set
    refine ⟨1, put e i (if up then a + 1 else a - 1) ++ ext, [t], fun _ => le_refl _,
      ((S.put hi _).append _).snoc (fun h => by have := S.lt h; omega) l, fun s H fuel hF => ?_⟩
    obtain ⟨n, rfl⟩ : ∃ n, fuel = n + 1 := ⟨fuel - 1, by omega⟩
    obtain ⟨s1, e1, H1⟩ := stmt_mem (.copyNew i) (e' := e ++ [some a]) (by simp only [eval, hl]; rfl) trivial trivial id s H 0
    have hl1 := look_append hl [some a]
    obtain ⟨s2, e2, H2⟩ := addWord_mem H1 hl1 (live_of hl1) hf 1 (!up)
    have H2' : Holds K s2 (put e i (if up then a + 1 else a - 1) ++ [some a]) := by
      rw [put_append hlt] at H2
      cases up <;> exact H2
    obtain ⟨s3, e3, H3⟩ := ev s2 H2'
    rw [hpl] at e3
    refine ⟨s3, ?_, H3⟩
    rw [Cmd.exec, pos_ok hi, ok_bind]
    dsimp only
    rw [show s.copyNew K i = _ from e1, ok_bind, BigSt.bump, e2, ok_bind, H.len, e3, ok_bind]
  | @swap x y ρ a b ha hb =>
    intro vars e S
    obtain ⟨i, hi, hl⟩ := S.reads x a ha
    obtain ⟨j, hj, hm⟩ := S.reads y b hb
    refine Does.of 0 (fun _ => rfl) ((S.put hi b).put hj a) (fun s H n _ => ?_)
    obtain ⟨s', e1, H1⟩ := stmt_mem (.swap i j) (e' := put (put e i b) j a) (by simp only [eval, hl, hm]; rfl) trivial trivial id s H 0
    refine ⟨s', ?_, H1⟩
    rw [Cmd.exec, pos_ok hi, ok_bind, pos_ok hj, ok_bind]
    dsimp only
    rw [show s.swap K i j = _ from e1, ok_bind]

end Ack.Mem
