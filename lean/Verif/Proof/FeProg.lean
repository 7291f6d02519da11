import Verif.Proof.KeyCode
import Verif.Proof.EcWhole
import Verif.Proof.Ecdsa
import Verif.Spec.FeProg
/-! # Programs on field elements -/
namespace Ack
open Big

/-- The last step of an addition. -/
theorem addFin_spec {cap : Cap} {p : Big} (r : Room cap p) (cp : p.Canon) {z : Big} (c : z.Canon) (f : Big.Fits cap z) (h0 : 0 ≤ z.toInt)
    (h2 : z.toInt < 2 * p.toInt) : Elt p (Fp.addFin cap z p) ∧ (Fp.addFin cap z p).toInt = z.toInt % p.toInt := by
  unfold Fp.addFin
  by_cases h : p.toInt ≤ z.toInt
  · rw [if_pos ((opGe_iff c cp).2 h)]
    obtain ⟨c2, -, h3⟩ := sub_spec cap z p c cp f r.fitsP
    have v2 : (Big.sub cap z p).toInt = z.toInt - p.toInt := by
      rcases h3 with h3 | ⟨-, h3, -⟩
      · exact h3
      · exfalso
        rw [neg_of_toInt_pos (by omega), neg_of_toInt_pos (x := p) (by omega)] at h3; cases h3
    refine ⟨⟨c2, by rw [v2]; omega, by rw [v2]; omega⟩, ?_⟩
    rw [v2, ← Int.sub_emod_right, Int.emod_eq_of_lt (by omega) (by omega)]
  · rw [if_neg (by rw [opGe_iff c cp]; exact h)]
    exact ⟨⟨c, by omega, by omega⟩, by rw [Int.emod_eq_of_lt (by omega) (by omega)]⟩

end Ack

namespace Ack.Mem
open Big (Byte)
open Ack.Spec.Ec (FitsBytes readInts)
open Ack.Spec.Fe

section
variable {K : Kind} {p : Big} {P fuel : ℕ} {s : BigSt}

/-! ### Native integers -/

theorem fpAddS_new (M : Mod K.lim p P) (I : Inv K s.mem) {a ip : Nat} {A : Big} (ra : Rep s a A) (rp : Rep s ip p) (ea : Elt p A)
    {k : BitVec 32} (k0 : 0 ≤ k.toInt) (k1 : k.toInt < P) :
    ∃ s' R, s.fpAddS K a k ip = .ok s' ∧ New K s s' R ∧ Elt p R ∧ R.toInt = (A.toInt + k.toInt) % p.toInt := by
  obtain ⟨s1, e1, N1⟩ := create_new I (Mod.fit1 M) 0
  obtain ⟨s2, R, e2, P2, S2⟩ := addu1Go_spec N1.inv (N1.frame _ _ ra) N1.res (cabs32 k) (decide (k.toInt < 0))
  obtain ⟨c, v⟩ := adds1_room M.room k ea.c (ea.len M.canon) (Canon.len_pos M.canon)
  have N2 := N1.post P2
  have vR : R.toInt = A.toInt + k.toInt := S2.toInt.trans v
  obtain ⟨s3, e3, N3⟩ := addFin_exact M N2 rp (S2.canon c)
  have h1 := ea.nn
  have h2 := ea.lt
  have h3 := M.eq
  obtain ⟨g1, g2⟩ := addFin_spec M.room M.canon (S2.canon c) (rep_fits N2.inv N2.res) (by omega) (by omega)
  refine ⟨s3, _, ?_, N3, g1, by rw [g2, vR]⟩
  unfold BigSt.fpAddS
  dsimp only
  rw [e1, ok_bind, e2, ok_bind, e3]

theorem fpSubS_new (M : Mod K.lim p P) (I : Inv K s.mem) {a ip : Nat} {A : Big} (ra : Rep s a A) (rp : Rep s ip p) (ea : Elt p A)
    {k : BitVec 32} (k0 : 0 ≤ k.toInt) (k1 : k.toInt < P) :
    ∃ s' R, s.fpSubS K a k ip = .ok s' ∧ New K s s' R ∧ Elt p R ∧ R.toInt = (A.toInt - k.toInt) % p.toInt := by
  obtain ⟨s1, e1, N1⟩ := create_new I (Mod.fit1 M) 0
  obtain ⟨s2, R, e2, P2, S2⟩ := addu1Go_spec N1.inv (N1.frame _ _ ra) N1.res (cabs32 k) (!decide (k.toInt < 0))
  obtain ⟨c, v⟩ := subs1_room M.room k ea.c (ea.len M.canon) (Canon.len_pos M.canon)
  have N2 := N1.post P2
  have vR : R.toInt = A.toInt - k.toInt := S2.toInt.trans v
  obtain ⟨s3, e3, N3⟩ := subFin_exact M N2 rp (S2.canon c)
  have h1 := ea.nn
  have h2 := ea.lt
  have h3 := M.eq
  obtain ⟨g1, g2⟩ := subFin_spec M.room M.canon (S2.canon c) (by omega) (by omega)
  refine ⟨s3, _, ?_, N3, g1, by rw [g2, vR]⟩
  unfold BigSt.fpSubS
  dsimp only
  rw [e1, ok_bind, e2, ok_bind, e3]

theorem fe_mulS_lt {D : Nat → Prop} (F : FC K p P fuel) (C : Ctx K D s) {a : FeR} {A : Fe} (h : FeSim D D p s a A) {k : BitVec 32}
    (k0 : 0 ≤ k.toInt) (k1 : k.toInt < P) : Sim K (FeSim D D p) s (a.mulS K k) (A.mulS K.lim k) := by
  unfold FeR.mulS Fe.mulS
  refine Sim.test C.inv (fe_isOne h) (Sim.ite (fun _ => ?_) fun _ => ?_)
  · refine Sim.deref h C.inv fun i r => ?_
    obtain ⟨s', e, N⟩ := createInt_new C.inv (Mod.fit1 F.M) k
    exact Sim.fin C r e N (elt_int F.M k0 k1)
  · by_cases hk : k = 1
    · rw [if_pos hk, if_pos hk]; exact fe_copy C h
    · rw [if_neg hk, if_neg hk]
      refine Sim.deref h C.inv fun i r => ?_
      obtain ⟨s', R, e, e', N⟩ := fpMulS_exact F.M C.inv h.v.rep r.rep h.elt.c (h.elt.fits F.M.room F.M.canon) k
      obtain ⟨z, h1, h2, -⟩ := fpMulS_spec (b := k) F.M.room F.M.canon h.elt k0
      rw [e'] at h1; cases h1
      rw [e']
      exact Sim.fin C r e N h2

/-! ### Results are new objects -/

/-- A result is a new object, with the modulus at position 0. -/
def GoodAt (s : BigSt) (m : M FeR) : Prop := ∀ r s', m s = .ok (r, s') → s.mem.objs.length ≤ r.v ∧ r.pm = some 0

theorem good_new {f : BigSt → Res BigSt} : GoodAt s (do let v ← newObj f; pure ⟨v, some 0⟩) := by
  intro r s' h
  cases e : f s with
  | error _ => rw [bind_err (newObj_err e)] at h; cases h
  | ok s1 =>
    rw [bind_run (newObj_run e)] at h
    cases h
    exact ⟨Nat.le_refl _, rfl⟩

theorem good_ask {α : Type} {f : BigSt → Res α} {k : α → M FeR} (h : ∀ b, GoodAt s (k b)) : GoodAt s (ask f >>= k) := by
  intro r s' e
  cases hf : f s with
  | error _ =>
    rw [bind_err (show ask f s = .error _ by unfold ask; rw [hf]; rfl)] at e; cases e
  | ok b =>
    rw [bind_run (Is.ask hf)] at e
    exact h b r s' e

theorem good_ite {c : Prop} [Decidable c] {m n : M FeR} (h1 : GoodAt s m) (h2 : GoodAt s n) : GoodAt s (if c then m else n) := by
  split
  · exact h1
  · exact h2

theorem deref0 {a : FeR} (h : a.pm = some 0) {k : Nat → M FeR} : (a.deref >>= k) = k 0 := by
  unfold FeR.deref; rw [h]; rfl

section
variable {a : FeR} (h : a.pm = some 0)
include h

theorem good_copy : GoodAt s (a.copy K) := by unfold FeR.copy; rw [h]; exact good_new
theorem good_addB {x : Nat} : GoodAt s (a.addB K x) := by unfold FeR.addB; rw [deref0 h]; exact good_new
theorem good_subB {x : Nat} : GoodAt s (a.subB K x) := by unfold FeR.subB; rw [deref0 h]; exact good_new
theorem good_mulB {x : Nat} : GoodAt s (a.mulB K x) := by
  unfold FeR.mulB FeR.isOne
  refine good_ask fun _ => good_ite ?_ (good_ask fun _ => good_ite (good_copy h) ?_)
  · rw [deref0 h]; exact good_new
  · rw [deref0 h]; exact good_new
theorem good_divB {x : Nat} : GoodAt s (a.divB K fuel x) := by
  unfold FeR.divB
  refine good_ask fun _ => good_ite (good_copy h) ?_
  rw [deref0 h]; exact good_new
theorem good_addS {k : BitVec 32} : GoodAt s (a.addS K k) := by unfold FeR.addS; rw [deref0 h]; exact good_new
theorem good_subS {k : BitVec 32} : GoodAt s (a.subS K k) := by unfold FeR.subS; rw [deref0 h]; exact good_new
theorem good_mulS {k : BitVec 32} : GoodAt s (a.mulS K k) := by
  unfold FeR.mulS FeR.isOne
  refine good_ask fun _ => good_ite ?_ (good_ite (good_copy h) ?_)
  · rw [deref0 h]; exact good_new
  · rw [deref0 h]; exact good_new
theorem good_neg : GoodAt s (a.neg K) := by unfold FeR.neg; rw [deref0 h]; exact good_new
theorem good_sqr : GoodAt s (a.sqr K) := by
  unfold FeR.sqr FeR.isOne
  refine good_ask fun _ => good_ite (good_copy h) ?_
  rw [deref0 h]; exact good_new
theorem good_inv : GoodAt s (a.inv K fuel) := by unfold FeR.inv; rw [deref0 h]; exact good_new

theorem good_sqrt [Fact P.Prime] (F : FC K p P fuel) (I : Inv K s.mem) {A : Big} (ra : Rep s a.v A) (ea : Elt p A) (rp : Rep s 0 p) :
    GoodAt s (a.sqrt K fuel) := by
  unfold FeR.sqrt FeR.isOne
  refine good_ask fun _ => good_ite (good_copy h) ?_
  rw [deref0 h]
  intro r s' e
  have C : Ctx K (fun i => i < s.mem.objs.length) s := ⟨I, fun _ h => h⟩
  have hs := sqrt_sim F C (n := a.v) (i := 0) (X := A) ⟨⟨ra, (fun h => h : ¬ D0 a.v)⟩, ea⟩ ⟨rp, (fun h => h : ¬ D0 0)⟩
  cases hv : Fp.sqrt K.lim A p with
  | error _ => rw [hv] at hs; rw [bind_err hs] at e; cases e
  | ok v =>
    rw [hv] at hs
    obtain ⟨i, s1, e1, -, r1⟩ := hs
    rw [bind_run e1] at e
    cases e
    exact ⟨Nat.not_lt.1 r1.rep.nd, rfl⟩

end

/-! ### The state of a program -/

/-- An element of the program. -/
structure EOk (p : Big) (s : BigSt) (a : FeR) (x : ZMod P) : Prop where
  pm : a.pm = some 0
  pos : a.v ≠ 0
  rep : ∃ A, Rep s a.v A ∧ Ack.Rep P p ⟨A, some p⟩ x

/-- The objects of the program hold its elements. -/
structure FInv (K : Kind) (p : Big) (s : BigSt) (v : FeVars) (e : FeEnv P) : Prop where
  inv : Inv K s.mem
  rp : Rep s 0 p
  len : v.els.length = e.els.length
  el : ∀ (i : ℕ) (a : FeR) (x : ZMod P), v.els[i]? = some a → e.els[i]? = some x → EOk p s a x
  inj : ∀ (i j : ℕ) (a b : FeR), v.els[i]? = some a → v.els[j]? = some b → a.v = b.v → i = j
  bools : v.bools = e.bools
  strs : v.strs = e.strs

theorem EOk.grow {s s' : BigSt} {a : FeR} {x : ZMod P} (h : EOk p s a x) (k : ∀ X, Rep s a.v X → Rep s' a.v X) : EOk p s' a x := by
  obtain ⟨A, r, h'⟩ := h.rep
  exact ⟨h.pm, h.pos, A, k _ r, h'⟩

theorem EOk.sim {a : FeR} {x : ZMod P} (h : EOk p s a x) (rp : Rep s 0 p) :
    ∃ A : Fe, FeSim D0 D0 p s a A ∧ Ack.Rep P p A x := by
  obtain ⟨A, r, h'⟩ := h.rep
  exact ⟨⟨A, some p⟩, ⟨⟨r, fun h => h⟩, h'.elt, Or.inr ⟨0, h.pm, rfl, rp, fun h => h⟩⟩, h'⟩

variable {v : FeVars} {e : FeEnv P}

theorem FInv.ctx (H : FInv K p s v e) : Ctx K D0 s := ⟨H.inv, fun _ h => h.elim⟩

/-- A declared variable. -/
theorem FInv.get (H : FInv K p s v e) {i : ℕ} (hi : i < e.els.length) :
    ∃ a x, v.els[i]? = some a ∧ e.els[i]? = some x ∧ v.el i s = .ok (a, s) ∧ EOk p s a x := by
  have h1 : v.els[i]? = some (v.els[i]'(by rw [H.len]; exact hi)) := List.getElem?_eq_getElem _
  have h2 : e.els[i]? = some (e.els[i]) := List.getElem?_eq_getElem _
  refine ⟨_, _, h1, h2, ?_, H.el _ _ _ h1 h2⟩
  unfold FeVars.el
  rw [h1]; rfl

theorem FInv.grow (H : FInv K p s v e) {s' : BigSt} (g : Grow K s s') : FInv K p s' v e :=
  ⟨g.inv, g.keep _ _ H.rp, H.len, fun i a x h1 h2 => (H.el i a x h1 h2).grow fun X h => g.keep _ _ h, H.inj, H.bools, H.strs⟩

/-- A new variable. -/
theorem FInv.push (H : FInv K p s v e) {s' : BigSt} (g : Grow K s s') {r : FeR} {z : ZMod P} (hr : EOk p s' r z)
    (hn : s.mem.objs.length ≤ r.v) : FInv K p s' { v with els := v.els ++ [r] } { e with els := e.els ++ [z] } := by
  have G := H.grow g
  have old : ∀ (i : ℕ) (a : FeR), v.els[i]? = some a → a.v < s.mem.objs.length := by
    intro i a hi
    have hl : i < e.els.length := by rw [← H.len]; exact (List.getElem?_eq_some_iff.1 hi).1
    obtain ⟨a', x, h1, h2, -, h4⟩ := H.get hl
    rw [hi] at h1; cases h1
    obtain ⟨A, rA, -⟩ := h4.rep
    exact rA.lt
  have cas : ∀ {α : Type} (l : List α) (y : α) (i : ℕ) (a : α), (l ++ [y])[i]? = some a → l[i]? = some a ∨ (i = l.length ∧ a = y) := by
    intro α l y i a h
    rcases Nat.lt_or_ge i l.length with hi | hi
    · left; rwa [List.getElem?_append_left hi] at h
    · right
      rw [List.getElem?_append_right hi] at h
      rcases Nat.eq_zero_or_pos (i - l.length) with h0 | h0
      · rw [h0] at h; exact ⟨by omega, by simpa using h.symm⟩
      · rw [List.getElem?_eq_none (by show 1 ≤ _; omega)] at h; cases h
  refine ⟨G.inv, G.rp, by simp [H.len], ?_, ?_, H.bools, H.strs⟩
  · intro i a x h1 h2
    rcases cas _ _ _ _ h1 with h1 | ⟨h1, rfl⟩
    · rcases cas _ _ _ _ h2 with h2 | ⟨h2, -⟩
      · exact G.el _ _ _ h1 h2
      · have := (List.getElem?_eq_some_iff.1 h1).1
        rw [H.len] at this; omega
    · rcases cas _ _ _ _ h2 with h2 | ⟨-, rfl⟩
      · have := (List.getElem?_eq_some_iff.1 h2).1
        rw [← H.len] at this; omega
      · exact hr
  · intro i j a b h1 h2 hv
    rcases cas _ _ _ _ h1 with k1 | ⟨k1, ka⟩
    · rcases cas _ _ _ _ h2 with k2 | ⟨k2, kb⟩
      · exact H.inj _ _ _ _ k1 k2 hv
      · have := old _ _ k1; rw [hv, kb] at this; omega
    · rcases cas _ _ _ _ h2 with k2 | ⟨k2, kb⟩
      · have := old _ _ k2; rw [← hv, ka] at this; omega
      · omega

/-- A variable gets a new value. -/
theorem FInv.update (H : FInv K p s v e) {s' : BigSt} (I : Inv K s'.mem) {i : ℕ} {a r : FeR} {z : ZMod P} (ha : v.els[i]? = some a)
    (hv : r.v = a.v) (k : ∀ j X, j ≠ a.v → Rep s j X → Rep s' j X) (hr : EOk p s' r z) :
    FInv K p s' { v with els := v.els.set i r } { e with els := e.els.set i z } := by
  have hil : i < v.els.length := (List.getElem?_eq_some_iff.1 ha).1
  have hpos : a.v ≠ 0 := hv ▸ hr.pos
  refine ⟨I, k _ _ hpos.symm H.rp, by simp [H.len], ?_, ?_, H.bools, H.strs⟩
  · intro j b x h1 h2
    rw [List.getElem?_set] at h1 h2
    by_cases hj : i = j
    · subst hj
      rw [if_pos rfl, if_pos hil] at h1
      rw [if_pos rfl, if_pos (by rw [← H.len]; exact hil)] at h2
      cases h1; cases h2
      exact hr
    · rw [if_neg hj] at h1 h2
      exact (H.el j b x h1 h2).grow fun X => k _ X fun h => hj (H.inj _ _ _ _ ha h1 h.symm)
  · intro j l b c h1 h2 hbc
    rw [List.getElem?_set] at h1 h2
    by_cases hj : i = j
    · by_cases hl : i = l
      · omega
      · subst hj
        rw [if_pos rfl, if_pos hil] at h1
        rw [if_neg hl] at h2
        cases h1
        exact H.inj _ _ _ _ ha h2 (by rw [← hv]; exact hbc)
    · by_cases hl : i = l
      · subst hl
        rw [if_pos rfl, if_pos hil] at h2
        rw [if_neg hj] at h1
        cases h2
        exact H.inj _ _ _ _ h1 ha (by rw [← hv]; exact hbc)
      · rw [if_neg hj] at h1
        rw [if_neg hl] at h2
        exact H.inj _ _ _ _ h1 h2 hbc

/-! ### Expressions -/

/-- `m` makes a new element with the value `z`. -/
def Makes (K : Kind) (p : Big) (s : BigSt) (m : M FeR) (z : ZMod P) : Prop :=
  ∃ r s', m s = .ok (r, s') ∧ Grow K s s' ∧ s.mem.objs.length ≤ r.v ∧ EOk p s' r z

theorem Makes.of (rp : Rep s 0 p) {m : M FeR} {z : ZMod P} (g : GoodAt s m) {V : Fe} (h : Sim K (FeSim D0 D0 p) s m (.ok V)) (hz : Ack.Rep P p V z) :
    Makes K p s m z := by
  obtain ⟨r, s', e, gr, hs⟩ := h
  obtain ⟨h1, h2⟩ := g _ _ e
  have := rp.lt
  obtain ⟨V, pm⟩ := V
  have hp : pm = some p := hz.pm
  subst hp
  exact ⟨r, s', e, gr, h1, h2, by omega, V, hs.v.rep, hz⟩

theorem Makes.via {s1 : BigSt} {m m' : M FeR} {z : ZMod P} (e : m s = m' s1) (g : Grow K s s1) (h : Makes K p s1 m' z) : Makes K p s m z := by
  obtain ⟨r, s', e', gr, h1, h2⟩ := h
  exact ⟨r, s', e.trans e', g.trans gr, Nat.le_trans g.len h1, h2⟩

theorem Makes.newObj (rp : Rep s 0 p) {f : BigSt → Res BigSt} {s' : BigSt} {R : Big} {z : ZMod P} (e : f s = .ok s') (N : New K s s' R)
    (hz : Ack.Rep P p ⟨R, some p⟩ z) : Makes K p s (do let v ← newObj f; pure ⟨v, some 0⟩) z := by
  have := rp.lt
  exact ⟨⟨s.mem.objs.length, some 0⟩, s', (bind_run (newObj_run e)).trans rfl, N.grow, Nat.le_refl _, rfl, by
    show s.mem.objs.length ≠ 0
    omega, R, N.res, hz⟩

/-- Bytes of a residue. -/
theorem res_bytes {x : Big} {n : ℕ} (hp : p.toInt = P) (c : x.Canon) (h : x.toInt = n) (hn : n < P) :
    Ack.Rep P p ⟨x, some p⟩ (n : ZMod P) :=
  ⟨rfl, ⟨c, by show 0 ≤ x.toInt; omega, by show x.toInt < _; omega⟩, by unfold res; show ((x.toInt : ℤ) : ZMod P) = _; rw [h, Int.cast_natCast]⟩

theorem emod_rep {R : Big} {n : ℤ} (hp : p.toInt = P) (el : Elt p R) (h : R.toInt = n % p.toInt) : Ack.Rep P p ⟨R, some p⟩ (n : ZMod P) :=
  ⟨rfl, el, res_emod hp h⟩

variable [hP : Fact P.Prime]

theorem op_run (F : FC K p P fuel) (H : FInv K p s v e) (f : FeOp) (hf : OpForm P e.els.length f) :
    (∃ z, OpDoes K.lim e f z ∧ Makes K p s (f.eval K fuel v) z) ∨ (OpStops K.lim e f ∧ f.eval K fuel v s = .error .abort) := by
  have M := F.M
  have rp := H.rp
  have C := H.ctx
  have h2 : P ≠ 2 := by have := F.big; omega
  cases f with
  | copy i =>
    obtain ⟨a, x, -, hx, e1, ok⟩ := H.get hf
    obtain ⟨A, sa, ra⟩ := ok.sim rp
    left
    refine ⟨_, .copy hx, Makes.via (bind_run e1) (Grow.refl H.inv) (Makes.of rp (good_copy ok.pm) (fe_copy C sa) ra)⟩
  | bin o i j =>
    obtain ⟨a, x, -, hx, e1, ok⟩ := H.get hf.1
    obtain ⟨b, y, -, hy, e2, ok'⟩ := H.get hf.2
    obtain ⟨A, sa, ra⟩ := ok.sim rp
    obtain ⟨B, sb, rb⟩ := ok'.sim rp
    have ev : FeOp.eval K fuel v (.bin o i j) s = (match (generalizing := false) o with
      | .add => a.add K b
      | .sub => a.sub K b
      | .mul => a.mul K b
      | .div => a.div K fuel b) s := by
      exact (bind_run e1).trans (bind_run e2)
    cases o with
    | add =>
      left
      obtain ⟨c, ec, rc⟩ := ra.add M rb
      have hs := fe_add F C sa sb
      rw [ec] at hs
      exact ⟨_, .bin .add hx hy (by simp), Makes.via ev (Grow.refl H.inv) (Makes.of rp (good_addB ok.pm) hs rc)⟩
    | sub =>
      left
      obtain ⟨c, ec, rc⟩ := ra.sub M rb
      have hs := fe_sub F C sa sb
      rw [ec] at hs
      exact ⟨_, .bin .sub hx hy (by simp), Makes.via ev (Grow.refl H.inv) (Makes.of rp (good_subB ok.pm) hs rc)⟩
    | mul =>
      left
      obtain ⟨c, ec, rc⟩ := ra.mul M rb
      have hs := fe_mul F C sa sb
      rw [ec] at hs
      exact ⟨_, .bin .mul hx hy (by simp), Makes.via ev (Grow.refl H.inv) (Makes.of rp (good_mulB ok.pm) hs rc)⟩
    | div =>
      have hs := fe_div F C sa sb
      by_cases h0 : y = 0
      · right
        subst h0
        refine ⟨.div hy, ev.trans ?_⟩
        have : Fe.div K.lim A B = .error .abort := ra.divB_zero M rb.elt rb.val
        rw [this] at hs
        exact hs
      · left
        obtain ⟨c, ec, rc⟩ := ra.div M rb h0
        rw [ec] at hs
        exact ⟨_, .bin .div hx hy fun _ => h0, Makes.via ev (Grow.refl H.inv) (Makes.of rp (good_divB ok.pm) hs rc)⟩
  | big o i d =>
    obtain ⟨a, x, -, hx, e1, ok⟩ := H.get hf.1
    have hd := ofBytes_exact H.inv (Mod.fit1 M) d
    rcases Ack.ofBytes_fits K.lim d (Mod.fit1 M) with ⟨fit, X, eX, cX, vX⟩ | ⟨fit, eX⟩
    · rw [eX] at hd
      obtain ⟨s1, e2, N⟩ := hd
      have g := N.grow
      have H1 := H.grow g
      have C1 := H1.ctx
      have rp1 := H1.rp
      have ok1 := ok.grow (fun X h => g.keep _ X h)
      obtain ⟨A, sa, ra⟩ := ok1.sim rp1
      have rx := res_bytes (P := P) M.eq cX vX hf.2
      have elX : Elt p X := rx.elt
      have hX : res P X = ((beVal d : ℕ) : ZMod P) := rx.val
      have sx := C.fresh N
      have ev : FeOp.eval K fuel v (.big o i d) s = (match (generalizing := false) o with
        | .add => a.addB K s.mem.objs.length
        | .sub => a.subB K s.mem.objs.length
        | .mul => a.mulB K s.mem.objs.length
        | .div => a.divB K fuel s.mem.objs.length) s1 := by
        exact (bind_run e1).trans (bind_run (newObj_run e2))
      cases o with
      | add =>
        left
        obtain ⟨c, ec, rc⟩ := ra.addB M elX
        have hs := fe_addB F C1 sa sx elX
        rw [ec] at hs
        rw [hX] at rc
        exact ⟨_, .big .add hx fit (by simp), Makes.via ev g (Makes.of rp1 (good_addB ok.pm) hs rc)⟩
      | sub =>
        left
        obtain ⟨c, ec, rc⟩ := ra.subB M elX
        have hs := fe_subB F C1 sa sx elX
        rw [ec] at hs
        rw [hX] at rc
        exact ⟨_, .big .sub hx fit (by simp), Makes.via ev g (Makes.of rp1 (good_subB ok.pm) hs rc)⟩
      | mul =>
        left
        obtain ⟨c, ec, rc⟩ := ra.mulB M elX
        have hs := fe_mulB F C1 sa sx elX
        rw [ec] at hs
        rw [hX] at rc
        exact ⟨_, .big .mul hx fit (by simp), Makes.via ev g (Makes.of rp1 (good_mulB ok.pm) hs rc)⟩
      | div =>
        have hs := fe_divB F C1 sa sx elX
        by_cases h0 : beVal d = 0
        · right
          refine ⟨.bigDiv i h0, ev.trans ?_⟩
          rw [ra.divB_zero M elX (by rw [hX, h0, Nat.cast_zero])] at hs
          exact hs
        · left
          have h0' : res P X ≠ 0 := by
            rw [Ne, res_eq_zero_iff M elX, vX]; exact_mod_cast h0
          obtain ⟨c, ec, rc⟩ := ra.divB M elX h0'
          rw [ec] at hs
          rw [hX] at rc
          exact ⟨_, .big .div hx fit (fun _ => h0), Makes.via ev g (Makes.of rp1 (good_divB ok.pm) hs rc)⟩
    · right
      rw [eX] at hd
      exact ⟨.big o i fit, (bind_run e1).trans (bind_err (newObj_err hd))⟩
  | int o i k =>
    obtain ⟨hi, k0, k1⟩ := hf
    obtain ⟨a, x, -, hx, e1, ok⟩ := H.get hi
    obtain ⟨A, rA, ra'⟩ := ok.rep
    have el : Elt p A := ra'.elt
    have vA : ((A.toInt : ℤ) : ZMod P) = x := ra'.val
    left
    cases o with
    | add =>
      obtain ⟨s', R, e2, N, er, vr⟩ := fpAddS_new M H.inv rA rp el k0 k1
      have hz := emod_rep (P := P) M.eq er vr
      rw [Int.cast_add, vA] at hz
      refine ⟨_, .int .add hx, Makes.via (bind_run e1) (Grow.refl H.inv) ?_⟩
      show Makes K p s (a.addS K k) _
      unfold FeR.addS
      rw [deref0 ok.pm]
      exact Makes.newObj rp e2 N hz
    | sub =>
      obtain ⟨s', R, e2, N, er, vr⟩ := fpSubS_new M H.inv rA rp el k0 k1
      have hz := emod_rep (P := P) M.eq er vr
      rw [Int.cast_sub, vA] at hz
      refine ⟨_, .int .sub hx, Makes.via (bind_run e1) (Grow.refl H.inv) ?_⟩
      show Makes K p s (a.subS K k) _
      unfold FeR.subS
      rw [deref0 ok.pm]
      exact Makes.newObj rp e2 N hz
    | mul =>
      obtain ⟨A, sa, ra⟩ := ok.sim rp
      obtain ⟨c, ec, rc⟩ := ra.mulS M k0 k1
      have hs := fe_mulS_lt F C sa k0 k1
      rw [ec] at hs
      rw [mul_comm] at rc
      exact ⟨_, .int .mul hx, Makes.via (bind_run e1) (Grow.refl H.inv) (Makes.of rp (good_mulS ok.pm) hs rc)⟩
  | un o i =>
    obtain ⟨a, x, -, hx, e1, ok⟩ := H.get hf
    obtain ⟨A, sa, ra⟩ := ok.sim rp
    have g := Grow.refl H.inv
    cases o with
    | neg =>
      left
      obtain ⟨c, ec, rc⟩ := ra.neg M
      have hs := fe_neg F C sa
      rw [ec] at hs
      exact ⟨_, .neg hx, Makes.via (bind_run e1) g (Makes.of rp (good_neg ok.pm) hs rc)⟩
    | sqr =>
      left
      obtain ⟨c, ec, rc⟩ := ra.sqr M
      have hs := fe_sqr F C sa
      rw [ec] at hs
      exact ⟨_, .sqr hx, Makes.via (bind_run e1) g (Makes.of rp (good_sqr ok.pm) hs rc)⟩
    | inv =>
      have hs := fe_inv F C sa
      by_cases h0 : x = 0
      · right
        subst h0
        rw [ra.inv_zero M rfl] at hs
        exact ⟨.inv hx, (bind_run e1).trans hs⟩
      · left
        obtain ⟨c, ec, rc⟩ := ra.inv M h0
        rw [ec] at hs
        exact ⟨_, .inv hx h0, Makes.via (bind_run e1) g (Makes.of rp (good_inv ok.pm) hs rc)⟩
    | sqrt =>
      left
      obtain ⟨c, y, ec, rc, y1, y2⟩ := ra.sqrt M h2
      have hs := fe_sqrt F C sa
      rw [ec] at hs
      exact ⟨_, .sqrt hx y1 y2, Makes.via (bind_run e1) g (Makes.of rp (good_sqrt ok.pm F H.inv sa.v.rep ra.elt rp) hs rc)⟩

/-! ### Statements -/

omit hP in
theorem setTo_run (H : FInv K p s v e) {i : ℕ} {a : FeR} {x : ZMod P} (ha : v.els[i]? = some a) (ok : EOk p s a x) {m : M FeR} {z : ZMod P}
    (h : Makes K p s m z) :
    ∃ r s', a.setTo K m s = .ok (r, s') ∧ FInv K p s' { v with els := v.els.set i r } { e with els := e.els.set i z } := by
  obtain ⟨r, s1, e1, g, hn, hr⟩ := h
  obtain ⟨A, rA, -⟩ := ok.rep
  obtain ⟨R, rR, hR⟩ := hr.rep
  have hlt := rA.lt
  obtain ⟨s2, e2, I2, r2, k2, l2⟩ := moveAssign_rep g.inv rR (g.keep _ _ rA).lt (show a.v ≠ r.v by omega)
  refine ⟨⟨a.v, r.pm⟩, s2.drop s.mem.objs.length, ?_, ?_⟩
  · unfold FeR.setTo
    rw [e1, ok_bind]
    dsimp only
    rw [e2, ok_bind]
  · refine H.update (drop_inv I2 _) ha rfl ?_ ⟨hr.pm, ok.pos, R, drop_rep I2 r2 hlt, hR⟩
    intro j X hj hX
    have := hX.lt
    exact drop_rep I2 (k2 j X hj (by omega) (g.keep _ _ hX)) this

omit hP in
theorem setTo_err {a : FeR} {m : M FeR} {er : Err} (h : m s = .error er) : a.setTo K m s = .error er := by
  unfold FeR.setTo; rw [h]; rfl

/-- An element made of bytes. -/
theorem bytes_run (F : FC K p P fuel) (H : FInv K p s v e) (d : List Byte) (ck : Bool) (hd : ck = false → beVal d < P) :
    (FitsBytes K.lim d ∧ beVal d < P ∧ Makes K p s (FeR.ofBytes K 0 d ck) ((beVal d : ℕ) : ZMod P)) ∨
    ((¬ FitsBytes K.lim d ∨ ck = true ∧ P ≤ beVal d) ∧ FeR.ofBytes K 0 d ck s = .error .abort) := by
  have M := F.M
  have hx := ofBytes_exact H.inv (Mod.fit1 M) d
  have hl := H.rp.lt
  rcases Ack.ofBytes_fits K.lim d (Mod.fit1 M) with ⟨fit, X, eX, cX, vX⟩ | ⟨fit, eX⟩
  · rw [eX] at hx
    obtain ⟨s1, e2, N⟩ := hx
    have rp1 := N.frame _ _ H.rp
    have e3 : FeR.isValid ⟨s.mem.objs.length, some 0⟩ s1 = .ok (Fp.isValid X p, s1) := by
      unfold FeR.isValid Fp.isValid
      exact Is.bind (Is.ask (ltS_mem N.res 0)) (Is.and (Is.ask (opLt_mem N.res rp1)))
    have hv := fp_isValid_iff cX M.canon
    rw [vX, M.eq] at hv
    by_cases hb : beVal d < P
    · left
      refine ⟨fit, hb, ⟨s.mem.objs.length, some 0⟩, s1, ?_, N.grow, Nat.le_refl _, rfl, by show s.mem.objs.length ≠ 0; omega, X, N.res,
        res_bytes M.eq cX vX hb⟩
      unfold FeR.ofBytes
      rw [bind_run (newObj_run e2)]
      cases ck with
      | false => rfl
      | true =>
        rw [if_pos rfl, bind_run e3, hv.2 ⟨by omega, by exact_mod_cast hb⟩]
        rfl
    · right
      cases ck with
      | false => exact absurd (hd rfl) hb
      | true =>
        refine ⟨Or.inr ⟨rfl, by omega⟩, ?_⟩
        unfold FeR.ofBytes
        rw [bind_run (newObj_run e2), if_pos rfl, bind_run e3]
        have : Fp.isValid X p = false := by
          rw [← Bool.not_eq_true, hv]
          rintro ⟨-, h⟩
          exact hb (by exact_mod_cast h)
        rw [this]
        rfl
  · right
    rw [eX] at hx
    refine ⟨Or.inl fit, ?_⟩
    unfold FeR.ofBytes
    exact bind_err (newObj_err hx)

omit hP in
theorem rep_val_eq (M : Mod K.lim p P) {a : Fe} {x : ZMod P} (h : Ack.Rep P p a x) : a.v.toInt = x.val := by
  have h1 := h.elt.nn
  have h2 := h.elt.lt
  rw [M.eq] at h2
  rw [← h.val]
  unfold res
  rw [← Int.toNat_of_nonneg h1, Int.cast_natCast, ZMod.val_natCast, Nat.mod_eq_of_lt (by omega)]

omit hP in
theorem cmp_run (M : Mod K.lim p P) {a b : FeR} {x y : ZMod P} (ha : EOk p s a x) (hb : EOk p s b y) (o : FeCmp) :
    ∃ r, Is s (FeR.cmp o a b) r ∧ (r = true ↔ Spec.Fe.cmp o x.val y.val) := by
  obtain ⟨A, rA, hA⟩ := ha.rep
  obtain ⟨B, rB, hB⟩ := hb.rep
  have ca : A.Canon := hA.elt.c
  have cb : B.Canon := hB.elt.c
  have va : A.toInt = x.val := rep_val_eq M hA
  have vb : B.toInt = y.val := rep_val_eq M hB
  cases o with
  | eq => exact ⟨_, Is.ask (opEq_mem rA rB), by rw [opEq_iff ca cb, va, vb]; exact Int.ofNat_inj⟩
  | ne =>
    refine ⟨_, Is.bind (Is.ask (opEq_mem rA rB)) (Is.pure _), ?_⟩
    rw [Bool.not_eq_true', ← Bool.not_eq_true, opEq_iff ca cb, va, vb]
    exact not_congr Int.ofNat_inj
  | lt => exact ⟨_, Is.ask (opLt_mem rA rB), by rw [opLt_iff ca cb, va, vb]; exact Int.ofNat_lt⟩
  | le =>
    refine ⟨_, Is.bind (Is.ask (opGt_mem rA rB)) (Is.pure _), ?_⟩
    rw [Bool.not_eq_true', ← Bool.not_eq_true, opGt_iff ca cb, va, vb, not_lt]
    exact Int.ofNat_le
  | gt => exact ⟨_, Is.ask (opGt_mem rA rB), by rw [opGt_iff ca cb, va, vb]; exact Int.ofNat_lt⟩
  | ge => exact ⟨_, Is.ask (opGe_mem rA rB), by rw [opGe_iff ca cb, va, vb]; exact Int.ofNat_le⟩

omit hP in
theorem byteLen_eq {x : Big} {n : ℕ} (c : x.Canon) (h : x.toInt = n) : x.byteLength = byteLen n := by
  unfold byteLen
  rcases Nat.eq_zero_or_pos n with h0 | h0
  · subst h0
    have h1 := Big.byteLength_pos c
    have h2 := Big.byteLength_le c 1 (by decide) (by
      have := Big.abs_toInt x
      rw [h] at this
      have h3 : val x.ws = 0 := by simpa using this.symm
      rw [h3]; decide)
    simp
    omega
  · rw [byteLength_eq_size c h h0]
    have := Nat.size_pos.2 h0
    omega

omit hP in
theorem FInv.answer (H : FInv K p s v e) {s' : BigSt} (g : Grow K s s') (b : Bool) :
    FInv K p s' { v with bools := v.bools ++ [b] } { e with bools := e.bools ++ [b] } := by
  have G := H.grow g
  exact ⟨G.inv, G.rp, G.len, G.el, G.inj, by show _ ++ _ = _ ++ _; rw [H.bools], G.strs⟩

omit hP in
theorem FInv.string (H : FInv K p s v e) {s' : BigSt} (g : Grow K s s') (l : List Byte) :
    FInv K p s' { v with strs := v.strs ++ [l] } { e with strs := e.strs ++ [l] } := by
  have G := H.grow g
  exact ⟨G.inv, G.rp, G.len, G.el, G.inj, G.bools, by show _ ++ _ = _ ++ _; rw [H.strs]⟩

theorem step_run (F : FC K p P fuel) (H : FInv K p s v e) (t : FeStmt) (ht : StForm P e.els.length t) :
    (∃ e' v' s', FeDoes K.lim e t e' ∧ feStep K fuel 0 v t s = .ok (v', s') ∧ FInv K p s' v' e' ∧ e'.els.length = after e.els.length t) ∨
    (FeStops K.lim e t ∧ feStep K fuel 0 v t s = .error .abort) := by
  have M := F.M
  cases t with
  | elem d ck =>
    rcases bytes_run F H d ck ht with ⟨fit, hb, r, s', e1, g, hn, hr⟩ | ⟨h, e1⟩
    · exact Or.inl ⟨_, _, s', .elem ck fit hb, (bind_run e1).trans rfl, H.push g hr hn, by simp [after]⟩
    · refine Or.inr ⟨?_, bind_err e1⟩
      rcases h with h | ⟨rfl, h⟩
      · exact .elem ck h
      · exact .elemRange h
  | new f =>
    rcases op_run F H f ht with ⟨z, hz, r, s', e1, g, hn, hr⟩ | ⟨h, e1⟩
    · exact Or.inl ⟨_, _, s', .new hz, (bind_run e1).trans rfl, H.push g hr hn, by simp [after]⟩
    · exact Or.inr ⟨.new h, bind_err e1⟩
  | set i f =>
    obtain ⟨a, x, ha, hx, e0, ok⟩ := H.get ht.1
    rcases op_run F H f ht.2 with ⟨z, hz, hm⟩ | ⟨h, e1⟩
    · obtain ⟨r, s', e1, H'⟩ := setTo_run H ha ok hm
      exact Or.inl ⟨_, _, s', .set i hz, (bind_run e0).trans ((bind_run e1).trans rfl), H', by simp [after]⟩
    · exact Or.inr ⟨.set i h, (bind_run e0).trans (bind_err (setTo_err e1))⟩
  | copySet i j =>
    obtain ⟨a, x, ha, hx, e0, ok⟩ := H.get ht.1
    obtain ⟨b, y, hb, hy, e1, ok'⟩ := H.get ht.2
    obtain ⟨A, rA, -⟩ := ok.rep
    obtain ⟨B, rB, hB⟩ := ok'.rep
    obtain ⟨s', e2, Q⟩ := assign_spec H.inv rB rA
    refine Or.inl ⟨_, _, s', .copySet i hy, (bind_run e0).trans ((bind_run e1).trans ((bind_run (m := a.copySet K b)
      ((bind_run (change_run e2)).trans rfl)).trans rfl)), ?_, by simp [after]⟩
    exact H.update Q.inv ha rfl Q.frame ⟨ok'.pm, ok.pos, B, Q.res, hB⟩
  | put i d ck =>
    obtain ⟨a, x, ha, hx, e0, ok⟩ := H.get ht.1
    have hp : a.put K d ck = a.setTo K (FeR.ofBytes K 0 d ck) := by
      unfold FeR.put FeR.ofBytes
      rw [ok.pm]
    rcases bytes_run F H d ck ht.2 with ⟨fit, hb, hm⟩ | ⟨h, e1⟩
    · obtain ⟨r, s', e1, H'⟩ := setTo_run H ha ok hm
      rw [← hp] at e1
      exact Or.inl ⟨_, _, s', .put i ck fit hb, (bind_run e0).trans ((bind_run e1).trans rfl), H', by simp [after]⟩
    · have e2 := setTo_err (K := K) (a := a) e1
      rw [← hp] at e2
      refine Or.inr ⟨?_, (bind_run e0).trans (bind_err e2)⟩
      rcases h with h | ⟨rfl, h⟩
      · exact .put i ck h
      · exact .putRange i h
  | cmp o i j =>
    obtain ⟨a, x, ha, hx, e0, ok⟩ := H.get ht.1
    obtain ⟨b, y, hb, hy, e1, ok'⟩ := H.get ht.2
    obtain ⟨r, e2, hr⟩ := cmp_run M ok ok' o
    exact Or.inl ⟨_, _, s, .cmp hx hy hr, (bind_run e0).trans ((bind_run e1).trans ((bind_run e2).trans rfl)), H.answer (Grow.refl H.inv) r, rfl⟩
  | isZero i =>
    obtain ⟨a, x, ha, hx, e0, ok⟩ := H.get ht
    obtain ⟨A, sa, ra⟩ := ok.sim H.rp
    exact Or.inl ⟨_, _, s, .isZero hx (ra.isZero_iff M), (bind_run e0).trans ((bind_run (fe_isZero sa)).trans rfl), H.answer (Grow.refl H.inv) _, rfl⟩
  | isOne i =>
    obtain ⟨a, x, ha, hx, e0, ok⟩ := H.get ht
    obtain ⟨A, sa, ra⟩ := ok.sim H.rp
    exact Or.inl ⟨_, _, s, .isOne hx (ra.isOne_iff M), (bind_run e0).trans ((bind_run (fe_isOne sa)).trans rfl), H.answer (Grow.refl H.inv) _, rfl⟩
  | isValid i =>
    obtain ⟨a, x, ha, hx, e0, ok⟩ := H.get ht
    obtain ⟨A, sa, ra⟩ := ok.sim H.rp
    have e1 := fe_isValid sa
    rw [ra.isValid M] at e1
    exact Or.inl ⟨_, _, s, .isValid hx, (bind_run e0).trans ((bind_run e1).trans rfl), H.answer (Grow.refl H.inv) _, rfl⟩
  | toBytes i =>
    obtain ⟨a, x, ha, hx, e0, ok⟩ := H.get ht
    obtain ⟨A, sa, ra⟩ := ok.sim H.rp
    obtain ⟨l, s', e1, g, hl⟩ := fe_toBytes F H.ctx sa
    obtain ⟨l1, l2⟩ := ra.toBytes_len M (A.maxByteLength K.lim)
    have hv := rep_val_eq M ra
    obtain ⟨cs, vs⟩ := subs1_room M.room 1 M.canon le_rfl (Canon.len_pos M.canon)
    have h8 := F.big
    have vs' : (Big.subs1 K.lim p 1).toInt = ((P - 1 : ℕ) : ℤ) := by
      rw [vs, M.eq, show (BitVec.toInt (1 : BitVec 32)) = 1 from rfl]; omega
    have hm : A.maxByteLength K.lim = byteLen (P - 1) := (max_byteLength M ra).trans (byteLen_eq cs vs')
    have hle : A.v.byteLength ≤ byteLen (P - 1) := by
      have hlt := ZMod.val_lt x
      rw [byteLen_eq ra.elt.c hv]
      unfold byteLen
      have := Nat.size_le_size (m := x.val) (n := P - 1) (by omega)
      omega
    subst hl
    refine Or.inl ⟨_, _, s', .toBytes hx ?_ ?_, (bind_run e0).trans ((bind_run e1).trans rfl), H.string g _, rfl⟩
    · show (A.toBytesLen (A.maxByteLength K.lim)).length = _
      rw [l1, hm]; omega
    · show beVal (A.toBytesLen (A.maxByteLength K.lim)) = _
      rw [hv] at l2
      exact_mod_cast l2
  | toBytesLen i n =>
    obtain ⟨a, x, ha, hx, e0, ok⟩ := H.get ht
    obtain ⟨A, sa, ra⟩ := ok.sim H.rp
    obtain ⟨l1, l2⟩ := ra.toBytes_len M n
    have hv := rep_val_eq M ra
    have e1 : Is s (a.toBytesLen n) (A.toBytesLen n) := by
      unfold FeR.toBytesLen Fe.toBytesLen
      refine Is.bind (fe_isValid sa) ?_
      rw [ra.isValid M, if_pos rfl, if_pos rfl]
      exact Is.bind (Is.ask (toBytes_eq sa.v.rep ra.elt.c)) (Is.pure _)
    refine Or.inl ⟨_, _, s, .toBytesLen hx ?_ ?_, (bind_run e0).trans ((bind_run e1).trans rfl), H.string (Grow.refl H.inv) _, rfl⟩
    · rw [l1, byteLen_eq ra.elt.c hv]
    · rw [hv] at l2
      exact_mod_cast l2

theorem exec_run (F : FC K p P fuel) : ∀ (ts : List FeStmt) (s : BigSt) (v : FeVars) (e : FeEnv P), FInv K p s v e →
    FeForm P e.els.length ts →
    (∃ e' v' s', FeRuns K.lim e ts e' ∧ feExec K fuel 0 ts v s = .ok (v', s') ∧ FInv K p s' v' e') ∨
    ((∃ ts1 t ts2 e', ts = ts1 ++ t :: ts2 ∧ FeRuns K.lim e ts1 e' ∧ FeStops K.lim e' t) ∧ feExec K fuel 0 ts v s = .error .abort) := by
  intro ts
  induction ts with
  | nil => intro s v e H _; exact Or.inl ⟨e, v, s, .nil e, rfl, H⟩
  | cons t ts ih =>
    intro s v e H hf
    rcases step_run F H t hf.1 with ⟨e1, v1, s1, d1, r1, H1, l1⟩ | ⟨d1, r1⟩
    · rcases ih s1 v1 e1 H1 (by rw [l1]; exact hf.2) with ⟨e2, v2, s2, d2, r2, H2⟩ | ⟨⟨ts1, t', ts2, e2, h1, h2, h3⟩, r2⟩
      · exact Or.inl ⟨e2, v2, s2, .cons d1 d2, (bind_run r1).trans r2, H2⟩
      · exact Or.inr ⟨⟨t :: ts1, t', ts2, e2, by rw [h1]; rfl, .cons d1 h2, h3⟩, (bind_run r1).trans r2⟩
    · exact Or.inr ⟨⟨[], t, ts, e, rfl, .nil e, d1⟩, bind_err r1⟩

omit hP in
theorem readEls (M : Mod K.lim p P) : ∀ (l : List FeR) (L : List (ZMod P)), l.length = L.length →
    (∀ (i : ℕ) (a : FeR) (x : ZMod P), l[i]? = some a → L[i]? = some x → EOk p s a x) →
    Is s (readInts (l.map (·.v))) (L.map fun x => (x.val : ℤ))
  | [], [], _, _ => Is.pure _
  | a :: l, x :: L, hl, h => by
    obtain ⟨A, rA, hA⟩ := (h 0 a x rfl rfl).rep
    have v1 := Ack.Props.value_of rA
    rw [rep_val_eq M hA] at v1
    exact Is.bind (Is.ask v1) (Is.bind (readEls M l L (by simpa using hl) fun i a x h1 h2 => h (i + 1) a x h1 h2) (Is.pure _))
  | [], _ :: _, hl, _ => by cases hl
  | _ :: _, [], hl, _ => by cases hl

theorem sees_run {d : List Byte} (S : FeSetting K d P) (hf : Spec.Passes P fuel) (ts : List FeStmt) (ht : FeForm P 0 ts) :
    (∃ e : FeEnv P, FeRuns K.lim ⟨[], [], []⟩ ts e ∧ feSees K fuel d ts = .ok (e.els.map fun x => (x.val : ℤ), e.bools, e.strs)) ∨
    ((∃ ts1 t ts2, ∃ e : FeEnv P, ts = ts1 ++ t :: ts2 ∧ FeRuns K.lim ⟨[], [], []⟩ ts1 e ∧ FeStops K.lim e t) ∧
      feSees K fuel d ts = .error .abort) := by
  have h8 := S.big
  have f1 : Cap.fits K.lim 1 = true := Big.fits_mono S.room (by unfold Spec.Prog.words; omega)
  have I : Inv K BigSt.init.mem := init_inv K
  have hd := ofBytes_exact I f1 d
  rcases Ack.ofBytes_fits K.lim d f1 with ⟨-, p, ep, cp, vp⟩ | ⟨h, -⟩
  swap
  · exact absurd S.fits h
  rw [ep] at hd
  obtain ⟨s1, e1, N⟩ := hd
  rw [S.p] at vp
  have wp := words_nat cp vp
  have M : Mod K.lim p P := ⟨by unfold Room; rw [wp]; exact S.room, cp, vp, by omega⟩
  have F : FC K p P fuel := ⟨M, h8, fun h => by rw [wp]; exact S.inline h, hf⟩
  have H : FInv K p s1 ⟨[], [], []⟩ (⟨[], [], []⟩ : FeEnv P) :=
    ⟨N.inv, N.res, rfl, fun i a x h => by simp at h, fun i j a b h => by simp at h, rfl, rfl⟩
  have hp : ∀ ts, feProgram K fuel d ts BigSt.init = feExec K fuel 0 ts ⟨[], [], []⟩ s1 := fun ts => bind_run (newObj_run e1)
  rcases exec_run F ts s1 _ _ H ht with ⟨e', v', s', h1, h2, h3⟩ | ⟨h1, h2⟩
  · refine Or.inl ⟨e', h1, ?_⟩
    unfold feSees
    rw [bind_run ((hp ts).trans h2), bind_run (readEls M _ _ h3.len h3.el), h3.bools, h3.strs]
    rfl
  · refine Or.inr ⟨h1, ?_⟩
    unfold feSees
    rw [bind_err ((hp ts).trans h2)]
    rfl

/-- Doing and stopping exclude each other. -/
theorem op_excl {cap : Cap} {f : FeOp} {z : ZMod P} (h : OpDoes cap e f z) : ¬ OpStops cap e f := by
  intro hs
  cases h with
  | copy _ => cases hs
  | bin o hx hy h0 =>
    cases hs with
    | div h => rw [hy] at h; cases h; exact h0 rfl rfl
  | big o hx fit h0 =>
    cases hs with
    | big _ _ h => exact h fit
    | bigDiv _ h => exact h0 rfl h
  | int o _ => cases hs
  | neg _ => cases hs
  | sqr _ => cases hs
  | inv hx h0 =>
    cases hs with
    | inv h => rw [hx] at h; cases h; exact h0 rfl
  | sqrt _ _ _ => cases hs

theorem does_excl {cap : Cap} {t : FeStmt} {e' : FeEnv P} (h : FeDoes cap e t e') : ¬ FeStops cap e t := by
  intro hs
  cases hs with
  | elem ck hn => cases h with | elem _ hf _ => exact hn hf
  | elemRange hn => cases h with | elem _ _ hl => omega
  | new hn => cases h with | new hd => exact op_excl hd hn
  | set x hn => cases h with | set _ hd => exact op_excl hd hn
  | put x ck hn => cases h with | put _ _ hf _ => exact hn hf
  | putRange x hn => cases h with | put _ _ _ hl => omega

end
end Ack.Mem
