import Verif.Model.PtProg
import Verif.Spec.PtProg
import Verif.Proof.EcWhole
import Verif.Proof.EcTotal
import Verif.Proof.KeySqrt
/-! # Programs that assign to points: the objects of distinct variables stay distinct, and the storage follows the value model -/
namespace Ack.Mem
open Ack.Spec.Ec Ack.Spec.Prog Ack.Props
open Big (Byte)

/-- The integer objects of all variables. -/
def EcVars.cells (v : EcVars) : List Nat := v.ints ++ v.pts.flatMap PtR.cells

/-- The objects from `n` on. -/
def From (n : Nat) : Nat → Prop := fun i => n ≤ i

/-- Only the objects in `Z` may have changed or ended. -/
structure Upd (K : Kind) (Z : Nat → Prop) (s s' : BigSt) : Prop where
  inv : Inv K s'.mem
  keep : ∀ i X, ¬ Z i → Rep s i X → Rep s' i X

section
variable {K : Kind} {D D1 D2 E E1 Z : Nat → Prop} {p : Big} {P N fuel : ℕ} {s s' s1 : BigSt} {C' : Curve} {v : EcVars} {V : EcVals} {n B : ℕ}

theorem Grow.upd (g : Grow K s s') : Upd K Z s s' := ⟨g.inv, fun i X _ r => g.keep i X r⟩
theorem Upd.trans (u : Upd K Z s s1) (w : Upd K Z s1 s') : Upd K Z s s' := ⟨w.inv, fun i X h r => w.keep i X h (u.keep i X h r)⟩
theorem Upd.drop (I : Inv K s.mem) : Upd K (From n) s (s.drop n) :=
  ⟨drop_inv I n, fun i _ h r => drop_rep I r (by unfold From at h; omega)⟩

theorem RepD.upd {i : Nat} {X : Big} (h : RepD E s i X) (u : Upd K Z s s') (z : ∀ i, Z i → E i) : RepD E s' i X :=
  ⟨u.keep _ _ (fun e => h.nd (z _ e)) h.rep, h.nd⟩

theorem RepD.weak {i : Nat} {X : Big} (h : RepD D s i X) (w : ∀ i, D1 i → D i) : RepD D1 s i X := ⟨h.rep, fun e => h.nd (w _ e)⟩
theorem FeSim.weak {a : FeR} {A : Fe} (h : FeSim D E p s a A) (w : ∀ i, D1 i → D i) (w' : ∀ i, E1 i → E i) : FeSim D1 E1 p s a A :=
  ⟨h.v.weak w, h.elt, h.pm.imp id fun ⟨i, h1, h2, h3⟩ => ⟨i, h1, h2, h3.weak w'⟩⟩
theorem CSim.weak {c : CurveR} (h : CSim E p s c C') (w : ∀ i, i < s.mem.objs.length → E1 i → E i) : CSim E1 p s c C' := by
  have r : ∀ {i : Nat} {X : Big}, RepD E s i X → RepD E1 s i X := fun h => ⟨h.rep, fun e => h.nd (w _ h.rep.lt e)⟩
  have f : ∀ {a : FeR} {A : Fe}, FeSim E E p s a A → FeSim E1 E1 p s a A := fun h =>
    ⟨r h.v, h.elt, h.pm.imp id fun ⟨i, h1, h2, h3⟩ => ⟨i, h1, h2, r h3⟩⟩
  obtain ⟨x1, x2, x3, x4, x5, x6, x7, x8, x9, x10, x11, x12, x13, x14, x15⟩ := h
  exact ⟨x1, x2, r x3, r x4, r x5, f x6, f x7, r x8, x9, x10, x11, r x12, x13, x14, x15⟩

theorem OSim.weak {c : Option CurveR} {C : Option Curve} (h : OSim E p s c C) (w : ∀ i, E1 i → E i) : OSim E1 p s c C :=
  h.imp id fun ⟨c', C', h1, h2, h3⟩ => ⟨c', C', h1, h2, h3.weak fun i _ => w i⟩

theorem PtSim.weak {q : PtR} {Q : PtV} (h : PtSim D E p s q Q) (w : ∀ i, D1 i → D i) (w' : ∀ i, E1 i → E i) : PtSim D1 E1 p s q Q := by
  cases q <;> cases Q <;> first | exact False.elim h | skip
  · obtain ⟨c, x, y, d⟩ := h; exact ⟨c.weak w', x.weak w w', y.weak w w', d⟩
  · obtain ⟨c, x, y, z, d1, d2, d3⟩ := h; exact ⟨c.weak w', x.weak w w', y.weak w w', z.weak w w', d1, d2, d3⟩
  · obtain ⟨c, x, y, z, d1, d2, d3⟩ := h; exact ⟨c.weak w', x.weak w w', y.weak w w', z.weak w w', d1, d2, d3⟩

theorem VSim.weak (h : VSim D E p C' s v V) (w : ∀ i, D1 i → D i) (w' : ∀ i, E1 i → E i) : VSim D1 E1 p C' s v V :=
  ⟨h.ints.imp fun _ _ r => r.weak w, h.canon, h.pts.imp fun _ _ r => r.weak w w', h.own, h.bools⟩

theorem Added.weak {v' : EcVars} {V' : EcVals} (h : Added D E p C' v V s v' V') (w : ∀ i, D1 i → D i) : Added D1 E p C' v V s v' V' := by
  rcases h with ⟨x, X, r, h⟩ | ⟨q, Q, r, h⟩ | h
  · exact .inl ⟨x, X, r.weak w, h⟩
  · exact .inr (.inl ⟨q, Q, r.weak w fun _ h => h, h⟩)
  · exact .inr (.inr h)

section
variable (u : Upd K Z s s') (z : ∀ i, Z i → E i)
include u z

theorem FeSim.upd {a : FeR} {A : Fe} (h : FeSim D E p s a A) (ha : ¬ Z a.v) : FeSim D E p s' a A :=
  ⟨⟨u.keep _ _ ha h.v.rep, h.v.nd⟩, h.elt, h.pm.imp id fun ⟨i, h1, h2, h3⟩ => ⟨i, h1, h2, h3.upd u z⟩⟩

/-- The value of an element moved or copied to another object. -/
theorem FeSim.put {a : FeR} {A : Fe} (h : FeSim D E p s a A) {i : Nat} (hi : ¬ D1 i) (r : Rep s' i A.v) : FeSim D1 E p s' ⟨i, a.pm⟩ A :=
  ⟨⟨r, hi⟩, h.elt, h.pm.imp id fun ⟨i, h1, h2, h3⟩ => ⟨i, h1, h2, h3.upd u z⟩⟩

theorem CSim.upd {c : CurveR} (h : CSim E p s c C') : CSim E p s' c C' := by
  have f : ∀ {a : FeR} {A : Fe}, FeSim E E p s a A → FeSim E E p s' a A := fun h => h.upd u z fun e => h.v.nd (z _ e)
  obtain ⟨x1, x2, x3, x4, x5, x6, x7, x8, x9, x10, x11, x12, x13, x14, x15⟩ := h
  exact ⟨x1, x2, x3.upd u z, x4.upd u z, x5.upd u z, f x6, f x7, x8.upd u z, x9, x10, x11, x12.upd u z, x13, x14, x15⟩

theorem OSim.upd {c : Option CurveR} {C : Option Curve} (h : OSim E p s c C) : OSim E p s' c C :=
  h.imp id fun ⟨c', C', h1, h2, h3⟩ => ⟨c', C', h1, h2, h3.upd u z⟩

theorem PtSim.upd {q : PtR} {Q : PtV} (h : PtSim D E p s q Q) (hq : ∀ i ∈ q.cells, ¬ Z i) : PtSim D E p s' q Q := by
  cases q <;> cases Q <;> first | exact False.elim h | skip
  all_goals simp only [PtR.cells, List.forall_mem_cons] at hq
  · obtain ⟨c, x, y, d⟩ := h; exact ⟨c.upd u z, x.upd u z hq.1, y.upd u z hq.2.1, d⟩
  · obtain ⟨c, x, y, w, d1, d2, d3⟩ := h; exact ⟨c.upd u z, x.upd u z hq.1, y.upd u z hq.2.1, w.upd u z hq.2.2.1, d1, d2, d3⟩
  · obtain ⟨c, x, y, w, d1, d2, d3⟩ := h; exact ⟨c.upd u z, x.upd u z hq.1, y.upd u z hq.2.1, w.upd u z hq.2.2.1, d1, d2, d3⟩
end

theorem PtSim.cells_rep {q : PtR} {Q : PtV} (h : PtSim D E p s q Q) : ∀ i ∈ q.cells, ∃ X, RepD D s i X := by
  cases q <;> cases Q <;> first | exact False.elim h | skip
  all_goals simp only [PtR.cells, List.forall_mem_cons, List.not_mem_nil, false_implies, implies_true, and_true]
  · exact ⟨⟨_, h.x.v⟩, _, h.y.v⟩
  · exact ⟨⟨_, h.x.v⟩, ⟨_, h.y.v⟩, _, h.z.v⟩
  · exact ⟨⟨_, h.x.v⟩, ⟨_, h.y.v⟩, _, h.z.v⟩

theorem PtSim.value {q : PtR} {Q : PtV} (h : PtSim D E p s q Q) : List.Forall₂ (fun i X => s.value i = .ok (Big.toInt X)) q.cells Q.cells := by
  cases q <;> cases Q <;> first | exact False.elim h | skip
  · exact .cons (value_of h.x.v.rep) (.cons (value_of h.y.v.rep) .nil)
  · exact .cons (value_of h.x.v.rep) (.cons (value_of h.y.v.rep) (.cons (value_of h.z.v.rep) .nil))
  · exact .cons (value_of h.x.v.rep) (.cons (value_of h.y.v.rep) (.cons (value_of h.z.v.rep) .nil))

theorem PtSim.nodup {q : PtR} {Q : PtV} (h : PtSim D E p s q Q) : q.cells.Nodup := by
  cases q <;> cases Q <;> first | exact False.elim h | skip
  · have := ASim.xy h; simp only [PtR.cells]; simp [this]
  · have := PSim.xy h; have := PSim.xz h; have := PSim.yz h; simp only [PtR.cells]; simp [*]
  · have := JSim.xy h; have := JSim.xz h; have := JSim.yz h; simp only [PtR.cells]; simp [*]

/-! ### Assignments -/

/-- One coordinate is moved. -/
theorem move_one {x z : Nat} {X : Big} (I : Inv K s.mem) (hx : Rep s x X) (hz : z < s.mem.objs.length) (hzx : z ≠ x) (h1 : Z z) (h2 : Z x) :
    ∃ s', change (fun s => s.moveAssign K z x) s = .ok ((), s') ∧ Rep s' z X ∧ Upd K Z s s' ∧
      (∀ i Y, i ≠ z → i ≠ x → Rep s i Y → Rep s' i Y) ∧ s'.mem.objs.length = s.mem.objs.length := by
  obtain ⟨s', e, I', r, k, l⟩ := moveAssign_rep I hx hz hzx
  exact ⟨s', change_run e, r, ⟨I', fun i Y hi h => k i Y (fun e => hi (e ▸ h1)) (fun e => hi (e ▸ h2)) h⟩, k, l⟩

/-- One coordinate is copied. -/
theorem copy_one {x z : FeR} {X : Big} (I : Inv K s.mem) (hx : Rep s x.v X) (hz : z.v < s.mem.objs.length) (h1 : Z z.v) :
    ∃ s', z.copySet K x s = .ok (⟨z.v, x.pm⟩, s') ∧ Rep s' z.v X ∧ Upd K Z s s' ∧
      (∀ i Y, i ≠ z.v → Rep s i Y → Rep s' i Y) ∧ s'.mem.objs.length = s.mem.objs.length := by
  obtain ⟨s', e, p⟩ := assign_new I hx hz
  exact ⟨s', (bind_run (change_run e)).trans rfl, p.res, ⟨p.inv, fun i Y hi h => p.frame i Y (fun e => hi (e ▸ h1)) h⟩, p.frame, p.len⟩

/-- Move assignment of a point made of newer objects. -/
theorem moveFrom_run {q r : PtR} {Q R : PtV} (I : Inv K s.mem) (h : PtSim D1 E1 p s q Q) (hr : PtSim (Since n) E p s r R)
    (hq : ∀ i ∈ q.cells, i < n ∧ ¬ D i ∧ E i) (hn : ∀ i, n ≤ i → E i) :
    match Q.become R with
    | .error e => q.moveFrom K r s = .error e
    | .ok A => A = R ∧ ∃ a s', q.moveFrom K r s = .ok (a, s') ∧ a.cells = q.cells ∧ Upd K (fun i => i ∈ q.cells ∨ n ≤ i) s s' ∧ PtSim D E p s' a R ∧
        s'.mem.objs.length = s.mem.objs.length := by
  have hZ : ∀ i, (i ∈ q.cells ∨ n ≤ i) → E i := fun i h => h.elim (fun h => (hq i h).2.2) (hn i)
  cases q <;> cases Q <;> first | exact False.elim h | skip
  all_goals cases r <;> cases R <;> first | exact False.elim hr | skip
  all_goals first | rfl | refine ⟨rfl, ?_⟩
  · rename_i q Q r R
    simp only [PtR.cells, List.forall_mem_cons, List.not_mem_nil, false_implies, implies_true, and_true] at hq
    obtain ⟨⟨q1, q2, q3⟩, y1, y2, y3⟩ := hq
    have rx := Nat.not_lt.1 hr.x.v.nd
    have ry := Nat.not_lt.1 hr.y.v.nd
    obtain ⟨s1, e1, x1, u1, k1, l1⟩ := move_one (Z := fun i => i ∈ PtR.cells (.aff q) ∨ n ≤ i) I hr.x.v.rep h.x.v.rep.lt (z := q.x.v) (by omega)
      (.inl (by simp [PtR.cells])) (.inr rx)
    obtain ⟨s2, e2, x2, u2, k2, l2⟩ := move_one (Z := fun i => i ∈ PtR.cells (.aff q) ∨ n ≤ i) u1.inv
      (k1 _ _ (by omega) (Ne.symm hr.xy) hr.y.v.rep) (by rw [l1]; exact h.y.v.rep.lt) (z := q.y.v) (by omega)
      (.inl (by simp [PtR.cells])) (.inr ry)
    have u := u1.trans u2
    have x1 := k2 _ _ h.xy (by omega) x1
    refine ⟨_, s2, (bind_run e1).trans ((bind_run e2).trans rfl), rfl, u, ⟨hr.c.upd u hZ, hr.x.put u hZ q2 x1, hr.y.put u hZ y2 x2, h.xy⟩, by rw [l2, l1]⟩
  · rename_i q Q r R
    simp only [PtR.cells, List.forall_mem_cons, List.not_mem_nil, false_implies, implies_true, and_true] at hq
    obtain ⟨⟨q1, q2, q3⟩, ⟨y1, y2, y3⟩, z1, z2, z3⟩ := hq
    have rx := Nat.not_lt.1 hr.x.v.nd
    have ry := Nat.not_lt.1 hr.y.v.nd
    have rz := Nat.not_lt.1 hr.z.v.nd
    obtain ⟨s1, e1, x1, u1, k1, l1⟩ := move_one (Z := fun i => i ∈ PtR.cells (.proj q) ∨ n ≤ i) I hr.x.v.rep h.x.v.rep.lt (z := q.x.v) (by omega)
      (.inl (by simp [PtR.cells])) (.inr rx)
    obtain ⟨s2, e2, x2, u2, k2, l2⟩ := move_one (Z := fun i => i ∈ PtR.cells (.proj q) ∨ n ≤ i) u1.inv
      (k1 _ _ (by omega) (Ne.symm hr.xy) hr.y.v.rep) (by rw [l1]; exact h.y.v.rep.lt) (z := q.y.v) (by omega)
      (.inl (by simp [PtR.cells])) (.inr ry)
    obtain ⟨s3, e3, x3, u3, k3, l3⟩ := move_one (Z := fun i => i ∈ PtR.cells (.proj q) ∨ n ≤ i) u2.inv
      (k2 _ _ (by omega) (Ne.symm hr.yz) (k1 _ _ (by omega) (Ne.symm hr.xz) hr.z.v.rep)) (by rw [l2, l1]; exact h.z.v.rep.lt) (z := q.z.v) (by omega)
      (.inl (by simp [PtR.cells])) (.inr rz)
    have u := (u1.trans u2).trans u3
    have x2 := k3 _ _ h.yz (by omega) x2
    have x1 := k3 _ _ h.xz (by omega) (k2 _ _ h.xy (by omega) x1)
    refine ⟨_, s3, (bind_run e1).trans ((bind_run e2).trans ((bind_run e3).trans rfl)), rfl, u, ⟨hr.c.upd u hZ, hr.x.put u hZ q2 x1, hr.y.put u hZ y2 x2,
      hr.z.put u hZ z2 x3, h.xy, h.xz, h.yz⟩, by rw [l3, l2, l1]⟩
  · rename_i q Q r R
    simp only [PtR.cells, List.forall_mem_cons, List.not_mem_nil, false_implies, implies_true, and_true] at hq
    obtain ⟨⟨q1, q2, q3⟩, ⟨y1, y2, y3⟩, z1, z2, z3⟩ := hq
    have rx := Nat.not_lt.1 hr.x.v.nd
    have ry := Nat.not_lt.1 hr.y.v.nd
    have rz := Nat.not_lt.1 hr.z.v.nd
    obtain ⟨s1, e1, x1, u1, k1, l1⟩ := move_one (Z := fun i => i ∈ PtR.cells (.jac q) ∨ n ≤ i) I hr.x.v.rep h.x.v.rep.lt (z := q.x.v) (by omega)
      (.inl (by simp [PtR.cells])) (.inr rx)
    obtain ⟨s2, e2, x2, u2, k2, l2⟩ := move_one (Z := fun i => i ∈ PtR.cells (.jac q) ∨ n ≤ i) u1.inv
      (k1 _ _ (by omega) (Ne.symm hr.xy) hr.y.v.rep) (by rw [l1]; exact h.y.v.rep.lt) (z := q.y.v) (by omega)
      (.inl (by simp [PtR.cells])) (.inr ry)
    obtain ⟨s3, e3, x3, u3, k3, l3⟩ := move_one (Z := fun i => i ∈ PtR.cells (.jac q) ∨ n ≤ i) u2.inv
      (k2 _ _ (by omega) (Ne.symm hr.yz) (k1 _ _ (by omega) (Ne.symm hr.xz) hr.z.v.rep)) (by rw [l2, l1]; exact h.z.v.rep.lt) (z := q.z.v) (by omega)
      (.inl (by simp [PtR.cells])) (.inr rz)
    have u := (u1.trans u2).trans u3
    have x2 := k3 _ _ h.yz (by omega) x2
    have x1 := k3 _ _ h.xz (by omega) (k2 _ _ h.xy (by omega) x1)
    refine ⟨_, s3, (bind_run e1).trans ((bind_run e2).trans ((bind_run e3).trans rfl)), rfl, u, ⟨hr.c.upd u hZ, hr.x.put u hZ q2 x1, hr.y.put u hZ y2 x2,
      hr.z.put u hZ z2 x3, h.xy, h.xz, h.yz⟩, by rw [l3, l2, l1]⟩

/-- Copy assignment. -/
theorem copyFrom_run {q r : PtR} {Q R : PtV} (I : Inv K s.mem) (h : PtSim D1 E1 p s q Q) (hr : PtSim D2 E p s r R)
    (hd : q = r ∨ ∀ i ∈ q.cells, i ∉ r.cells) (hq : ∀ i ∈ q.cells, ¬ D i ∧ E i) :
    match Q.become R with
    | .error e => q.copyFrom K r s = .error e
    | .ok A => A = R ∧ ∃ a s', q.copyFrom K r s = .ok (a, s') ∧ a.cells = q.cells ∧ Upd K (fun i => i ∈ q.cells) s s' ∧ PtSim D E p s' a R ∧
        s'.mem.objs.length = s.mem.objs.length := by
  have hZ : ∀ i, i ∈ q.cells → E i := fun i h => (hq i h).2
  cases q <;> cases Q <;> first | exact False.elim h | skip
  all_goals cases r <;> cases R <;> first | exact False.elim hr | skip
  all_goals first | rfl | refine ⟨rfl, ?_⟩
  · rename_i q Q r R
    simp only [PtR.cells, List.forall_mem_cons, List.not_mem_nil, false_implies, implies_true, and_true] at hq
    obtain ⟨⟨q2, q3⟩, y2, y3⟩ := hq
    have hd : r.y.v ≠ q.x.v := by
      rcases hd with e | e
      · cases e
        exact Ne.symm h.xy
      · simp only [PtR.cells, List.forall_mem_cons, List.mem_cons, List.not_mem_nil, or_false, not_or] at e
        exact Ne.symm (e _ (.inl rfl)).2
    obtain ⟨s1, e1, x1, u1, k1, l1⟩ := copy_one (Z := fun i => i ∈ PtR.cells (.aff q)) I hr.x.v.rep h.x.v.rep.lt (by simp [PtR.cells])
    obtain ⟨s2, e2, x2, u2, k2, l2⟩ := copy_one (Z := fun i => i ∈ PtR.cells (.aff q)) u1.inv
      (k1 _ _ hd hr.y.v.rep) (by rw [l1]; exact h.y.v.rep.lt) (z := q.y) (by simp [PtR.cells])
    have u := u1.trans u2
    have x1 := k2 _ _ h.xy x1
    refine ⟨_, s2, (bind_run e1).trans ((bind_run e2).trans rfl), rfl, u,
      ⟨hr.c.upd u hZ, hr.x.put u hZ q2 x1, hr.y.put u hZ y2 x2, h.xy⟩, by rw [l2, l1]⟩
  · rename_i q Q r R
    simp only [PtR.cells, List.forall_mem_cons, List.not_mem_nil, false_implies, implies_true, and_true] at hq
    obtain ⟨⟨q2, q3⟩, ⟨y2, y3⟩, z2, z3⟩ := hq
    have hd : r.y.v ≠ q.x.v ∧ r.z.v ≠ q.x.v ∧ r.z.v ≠ q.y.v := by
      rcases hd with e | e
      · cases e
        exact ⟨Ne.symm h.xy, Ne.symm h.xz, Ne.symm h.yz⟩
      · simp only [PtR.cells, List.forall_mem_cons, List.mem_cons, List.not_mem_nil, or_false, not_or] at e
        exact ⟨Ne.symm (e _ (.inl rfl)).2.1, Ne.symm (e _ (.inl rfl)).2.2, Ne.symm (e _ (.inr (.inl rfl))).2.2⟩
    obtain ⟨s1, e1, x1, u1, k1, l1⟩ := copy_one (Z := fun i => i ∈ PtR.cells (.proj q)) I hr.x.v.rep h.x.v.rep.lt (by simp [PtR.cells])
    obtain ⟨s2, e2, x2, u2, k2, l2⟩ := copy_one (Z := fun i => i ∈ PtR.cells (.proj q)) u1.inv
      (k1 _ _ hd.1 hr.y.v.rep) (by rw [l1]; exact h.y.v.rep.lt) (z := q.y) (by simp [PtR.cells])
    obtain ⟨s3, e3, x3, u3, k3, l3⟩ := copy_one (Z := fun i => i ∈ PtR.cells (.proj q)) u2.inv
      (k2 _ _ hd.2.2 (k1 _ _ hd.2.1 hr.z.v.rep)) (by rw [l2, l1]; exact h.z.v.rep.lt) (z := q.z) (by simp [PtR.cells])
    have u := (u1.trans u2).trans u3
    have x2 := k3 _ _ h.yz x2
    have x1 := k3 _ _ h.xz (k2 _ _ h.xy x1)
    refine ⟨_, s3, (bind_run e1).trans ((bind_run e2).trans ((bind_run e3).trans rfl)), rfl, u,
      ⟨hr.c.upd u hZ, hr.x.put u hZ q2 x1, hr.y.put u hZ y2 x2, hr.z.put u hZ z2 x3, h.xy, h.xz, h.yz⟩, by rw [l3, l2, l1]⟩
  · rename_i q Q r R
    simp only [PtR.cells, List.forall_mem_cons, List.not_mem_nil, false_implies, implies_true, and_true] at hq
    obtain ⟨⟨q2, q3⟩, ⟨y2, y3⟩, z2, z3⟩ := hq
    have hd : r.y.v ≠ q.x.v ∧ r.z.v ≠ q.x.v ∧ r.z.v ≠ q.y.v := by
      rcases hd with e | e
      · cases e
        exact ⟨Ne.symm h.xy, Ne.symm h.xz, Ne.symm h.yz⟩
      · simp only [PtR.cells, List.forall_mem_cons, List.mem_cons, List.not_mem_nil, or_false, not_or] at e
        exact ⟨Ne.symm (e _ (.inl rfl)).2.1, Ne.symm (e _ (.inl rfl)).2.2, Ne.symm (e _ (.inr (.inl rfl))).2.2⟩
    obtain ⟨s1, e1, x1, u1, k1, l1⟩ := copy_one (Z := fun i => i ∈ PtR.cells (.jac q)) I hr.x.v.rep h.x.v.rep.lt (by simp [PtR.cells])
    obtain ⟨s2, e2, x2, u2, k2, l2⟩ := copy_one (Z := fun i => i ∈ PtR.cells (.jac q)) u1.inv
      (k1 _ _ hd.1 hr.y.v.rep) (by rw [l1]; exact h.y.v.rep.lt) (z := q.y) (by simp [PtR.cells])
    obtain ⟨s3, e3, x3, u3, k3, l3⟩ := copy_one (Z := fun i => i ∈ PtR.cells (.jac q)) u2.inv
      (k2 _ _ hd.2.2 (k1 _ _ hd.2.1 hr.z.v.rep)) (by rw [l2, l1]; exact h.z.v.rep.lt) (z := q.z) (by simp [PtR.cells])
    have u := (u1.trans u2).trans u3
    have x2 := k3 _ _ h.yz x2
    have x1 := k3 _ _ h.xz (k2 _ _ h.xy x1)
    refine ⟨_, s3, (bind_run e1).trans ((bind_run e2).trans ((bind_run e3).trans rfl)), rfl, u,
      ⟨hr.c.upd u hZ, hr.x.put u hZ q2 x1, hr.y.put u hZ y2 x2, hr.z.put u hZ z2 x3, h.xy, h.xz, h.yz⟩, by rw [l3, l2, l1]⟩
/-! ### Lists -/

theorem forall₂_mem {α β : Type} {R S : α → β → Prop} : ∀ {l : List α} {m : List β}, List.Forall₂ R l m → (∀ a b, a ∈ l → R a b → S a b) → List.Forall₂ S l m
  | _, _, .nil, _ => .nil
  | _, _, .cons h t, k => .cons (k _ _ List.mem_cons_self h) (forall₂_mem t fun a b ha => k a b (List.mem_cons_of_mem _ ha))

theorem forall₂_put {α β : Type} {R S : α → β → Prop} {a' : α} {b' : β} (h' : S a' b') : ∀ {l : List α} {m : List β}, List.Forall₂ R l m → ∀ q : Nat,
    (∀ i a b, i ≠ q → l[i]? = some a → R a b → S a b) → List.Forall₂ S (l.set q a') (m.set q b')
  | _, _, .nil, _, _ => .nil
  | _, _, .cons h t, 0, k => .cons h' (forall₂_mem t fun a b ha r => by
      obtain ⟨i, hi⟩ := List.mem_iff_getElem?.1 ha
      exact k (i + 1) a b (Nat.succ_ne_zero i) (by simpa using hi) r)
  | _, _, .cons h t, q + 1, k => .cons (k 0 _ _ (Nat.succ_ne_zero q).symm rfl h)
      (forall₂_put h' t q fun i a b hi e => k (i + 1) a b (by omega) (by simpa using e))

theorem flatMap_disj {α β : Type} {f : α → List β} {l : List α} (h : (l.flatMap f).Nodup) {i j : Nat} {a b : α} (hij : i ≠ j) (ha : l[i]? = some a)
    (hb : l[j]? = some b) : ∀ x ∈ f a, x ∉ f b := by
  have hp := List.pairwise_iff_getElem.1 (List.nodup_flatMap.1 h).2
  obtain ⟨la, rfl⟩ := List.getElem?_eq_some_iff.1 ha
  obtain ⟨lb, rfl⟩ := List.getElem?_eq_some_iff.1 hb
  intro x h1 h2
  rcases Nat.lt_or_gt_of_ne hij with h | h
  · exact hp i j la lb h h1 h2
  · exact hp j i lb la h h2 h1

theorem flatMap_set {α β : Type} {f : α → List β} {l : List α} {i : Nat} {a a' : α} (ha : l[i]? = some a) (h : f a' = f a) :
    (l.set i a').flatMap f = l.flatMap f := by
  have : (l.set i a').map f = l.map f := by
    apply List.ext_getElem?
    intro j
    rw [List.map_set, List.getElem?_set]
    split
    · rename_i e
      subst e
      split
      · rw [List.getElem?_map, ha, h]; rfl
      · rename_i hl; rw [List.getElem?_eq_none (by simpa using hl)]
    · rfl
  rw [List.flatMap_def, List.flatMap_def, this]

/-! ### The invariant -/

/-- The curve is made of objects below `B`, the variables of distinct objects from `B` on. -/
structure MInv (K : Kind) (B : Nat) (p : Big) (C : Curve) (s : BigSt) (c : CurveR) (v : EcVars) (V : EcVals) : Prop where
  inv : Inv K s.mem
  len : B ≤ s.mem.objs.length
  cur : CSim (From B) p s c C
  vars : VSim (Since B) (From B) p C s v V
  nd : v.cells.Nodup

theorem VSim.cells_rep (h : VSim D E p C' s v V) : ∀ i ∈ v.cells, ∃ X, RepD D s i X := by
  intro i hi
  rcases List.mem_append.1 hi with hi | hi
  · obtain ⟨j, hj⟩ := List.mem_iff_getElem?.1 hi
    rcases forall₂_get h.ints j with ⟨e, -⟩ | ⟨a, b, e1, e2, r⟩
    · rw [e] at hj; cases hj
    · rw [e1] at hj; cases hj; exact ⟨_, r⟩
  · obtain ⟨q, hq, hi⟩ := List.mem_flatMap.1 hi
    obtain ⟨j, hj⟩ := List.mem_iff_getElem?.1 hq
    rcases forall₂_get h.pts j with ⟨e, -⟩ | ⟨a, b, e1, e2, r⟩
    · rw [e] at hj; cases hj
    · rw [e1] at hj; cases hj; exact r.cells_rep i hi

theorem Added.nodup {v' : EcVars} {V' : EcVals} (a : Added (Since n) E p C' v V s v' V') (hl : ∀ i ∈ v.cells, i < n) (h : v.cells.Nodup) :
    v'.cells.Nodup := by
  rcases a with ⟨x, X, r, -, rfl, -⟩ | ⟨q, Q, r, -, rfl, -⟩ | ⟨b, rfl, -⟩
  · show ((v.ints ++ [x]) ++ v.pts.flatMap PtR.cells).Nodup
    rw [List.append_assoc]
    refine (List.perm_middle.nodup_iff).2 (List.nodup_cons.2 ⟨fun hx => ?_, h⟩)
    exact r.nd (hl x hx)
  · show (v.ints ++ (v.pts ++ [q]).flatMap PtR.cells).Nodup
    rw [List.flatMap_append, List.flatMap_cons, List.flatMap_nil, List.append_nil, ← List.append_assoc]
    refine List.nodup_append'.2 ⟨h, r.nodup, fun i h1 h2 => ?_⟩
    obtain ⟨X, hX⟩ := r.cells_rep i h2
    exact hX.nd (hl i h1)
  · exact h

theorem MInv.lt {c : CurveR} (M : MInv K B p C' s c v V) : ∀ i ∈ v.cells, i < s.mem.objs.length := fun i hi => by
  obtain ⟨X, h⟩ := M.vars.cells_rep i hi
  exact h.rep.lt

theorem pt_cells {i j : Nat} {a : PtR} (ha : v.pts[i]? = some a) (hj : j ∈ a.cells) : j ∈ v.cells :=
  List.mem_append.2 (.inr (List.mem_flatMap.2 ⟨a, List.mem_of_getElem? ha, hj⟩))

/-- A declaration. -/
theorem MInv.add {c : CurveR} (M : MInv K B p C' s c v V) {v' : EcVars} {V' : EcVals} (g : Grow K s s')
    (a : Added (Since s.mem.objs.length) (From B) p C' v V s' v' V') : MInv K B p C' s' c v' V' :=
  ⟨g.inv, Nat.le_trans M.len g.len, M.cur.mono g,
    (a.weak fun _ h => Nat.lt_of_lt_of_le h M.len).vars (M.vars.mono g), a.nodup M.lt M.nd⟩

/-- An assignment. -/
theorem MInv.put {c : CurveR} (M : MInv K B p C' s c v V) {q : Nat} {a a' : PtR} {R : PtV} (ha : v.pts[q]? = some a) (hc : a'.cells = a.cells)
    (u : Upd K (fun i => i ∈ a.cells) s s') (hl : s'.mem.objs.length = s.mem.objs.length) (hs : PtSim (Since B) (From B) p s' a' R) (ho : OwnV C' R) :
    MInv K B p C' s' c { v with pts := v.pts.set q a' } { V with pts := V.pts.set q R } := by
  have hZ : ∀ i, i ∈ a.cells → From B i := fun i hi => by
    obtain ⟨X, h⟩ := M.vars.cells_rep i (pt_cells ha hi)
    exact Nat.not_lt.1 h.nd
  have hd := (List.nodup_append'.1 M.nd)
  refine ⟨u.inv, hl ▸ M.len, M.cur.upd u hZ, ⟨?_, M.vars.canon, ?_, ?_, M.vars.bools⟩, ?_⟩
  · refine forall₂_mem M.vars.ints fun i X hi r => ⟨u.keep _ _ (fun h => ?_) r.rep, r.nd⟩
    exact hd.2.2 hi (List.mem_flatMap.2 ⟨a, List.mem_of_getElem? ha, h⟩)
  · exact forall₂_put hs M.vars.pts q fun i b X hi hb r => r.upd u hZ fun j hj => flatMap_disj hd.2.1 hi hb ha j hj
  · intro Q hQ
    rcases List.mem_or_eq_of_mem_set hQ with h | rfl
    · exact M.vars.own Q h
    · exact ho
  · show (v.ints ++ (v.pts.set q a').flatMap PtR.cells).Nodup
    rw [flatMap_set ha hc]
    exact M.nd

theorem EcVals.setPt_ok {q : Nat} {A : PtV} {w : Res EcVals} {V' : EcVals} (hA : V.pts[q]? = some A) (e : w = .ok V') :
    V.setPt q w = match V'.pts[V.pts.length]? with
      | some R => A.become R >>= fun R => .ok { V with pts := V.pts.set q R }
      | none => .error .ub := by
  unfold EcVals.setPt EcVals.pt
  rw [hA]
  dsimp only
  rw [ok_bind, e, ok_bind]
  cases V'.pts[V.pts.length]? <;> rfl

theorem vstep_set {cap : Cap} {q : Nat} {A : PtV} {t : EcStmt} {V' : EcVals} (hA : V.pts[q]? = some A) (e : evStep cap C' V t = .ok V') :
    setStepV cap C' V q t = match V'.pts[V.pts.length]? with
      | some R => A.become R >>= fun R => .ok { V with pts := V.pts.set q R }
      | none => .error .ub := EcVals.setPt_ok hA e

theorem EcVars.setPt_ok {q : Nat} {a : PtR} {m : M EcVars} {v' : EcVars} (ha : v.pts[q]? = some a) (e : m s = .ok (v', s1)) :
    v.setPt K q m s = match v'.pts[v.pts.length]? with
      | some r => match a.moveFrom K r s1 with
        | .ok (a', s2) => .ok ({ v with pts := v.pts.set q a' }, s2.drop s.mem.objs.length)
        | .error e => .error e
      | none => .error .ub := by
  unfold EcVars.setPt EcVars.pt
  rw [ha]
  refine (bind_run rfl).trans ?_
  cases h : v'.pts[v.pts.length]? with
  | none => refine bind_err ?_; unfold PtR.setTo; rw [e, ok_bind]; dsimp only; rw [h]
  | some r =>
    dsimp only
    cases h' : a.moveFrom K r s1 with
    | error x => refine bind_err ?_; unfold PtR.setTo; rw [e, ok_bind]; dsimp only; rw [h]; dsimp only; rw [h']; rfl
    | ok y =>
      obtain ⟨a', s2⟩ := y
      have : a.setTo K v.pts.length m s = .ok (a', s2.drop s.mem.objs.length) := by
        unfold PtR.setTo; rw [e, ok_bind]; dsimp only; rw [h]; dsimp only; rw [h']; rfl
      exact (bind_run this).trans rfl

theorem step_copy {c : CurveR} {q r : Nat} {a b : PtR} (ha : v.pts[q]? = some a) (hb : v.pts[r]? = some b) :
    ptStep K fuel c v (.copy q r) s = match a.copyFrom K b s with
      | .ok (a', s2) => .ok ({ v with pts := v.pts.set q a' }, s2)
      | .error e => .error e := by
  unfold ptStep EcVars.pt
  dsimp only
  rw [ha, hb]
  refine (bind_run rfl).trans ((bind_run rfl).trans ?_)
  cases h' : a.copyFrom K b s with
  | error x => exact bind_err h'
  | ok y => exact (bind_run h').trans rfl

/-- An assignment whose right side declares at most one variable. -/
theorem set_run {c : CurveR} (M : MInv K B p C' s c v V) (q : Nat) {m : Ack.Mem.M EcVars} {w : Res EcVals}
    (hs : Sim K (fun s v' V' => Added (Since n) (From B) p C' v V s v' V' ∨ v' = v ∧ V' = V) s m w) (hn : n = s.mem.objs.length) :
    match V.setPt q w with
    | .error e => v.setPt K q m s = .error e
    | .ok V' => ∃ v' s', v.setPt K q m s = .ok (v', s') ∧ MInv K B p C' s' c v' V' := by
  subst hn
  have none_pt : ∀ {q : Nat} {α β : Type} {f : PtV → Res α} {g : PtR → Ack.Mem.M β}, v.pts[q]? = none → V.pts[q]? = none →
      (V.pt q >>= f) = .error .ub ∧ (v.pt q >>= g) s = .error .ub := by
    intro q _ _ f g e1 e2
    unfold EcVals.pt EcVars.pt
    rw [e1, e2]
    exact ⟨rfl, bind_err rfl⟩
  rcases forall₂_get M.vars.pts q with ⟨e1, e2⟩ | ⟨a, A, e1, e2, ra⟩
  · unfold EcVals.setPt EcVars.setPt
    rw [(none_pt (α := EcVals) (β := EcVars) (g := fun _ => halt .ub) e1 e2).1]
    exact (none_pt (α := EcVals) (f := fun _ => .error .ub) e1 e2).2
  cases w with
  | error x =>
    have hs : m s = .error x := hs
    unfold EcVals.setPt EcVars.setPt EcVals.pt EcVars.pt
    rw [e1, e2]
    dsimp only
    rw [ok_bind]
    refine (bind_run rfl).trans (bind_err ?_)
    unfold PtR.setTo
    rw [hs]; rfl
  | ok V' =>
    obtain ⟨v', s1, e', g, ad⟩ := hs
    rw [EcVals.setPt_ok e2 rfl, EcVars.setPt_ok e1 e']
    rcases ad with (⟨x, Y, -, -, rfl, rfl⟩ | ⟨r, R, hr, hR, rfl, rfl⟩ | ⟨b, rfl, rfl⟩) | ⟨rfl, rfl⟩
    · rw [List.getElem?_eq_none (Nat.le_refl _), List.getElem?_eq_none (Nat.le_refl _)]
    · rw [List.getElem?_concat_length, List.getElem?_concat_length]
      dsimp only
      have hc : ∀ i ∈ a.cells, i < s.mem.objs.length ∧ ¬ Since B i ∧ From B i := fun i hi => by
        obtain ⟨Y, h⟩ := M.vars.cells_rep i (pt_cells e1 hi)
        exact ⟨h.rep.lt, h.nd, Nat.not_lt.1 h.nd⟩
      have hm := moveFrom_run (D := Since B) (g.inv) (ra.mono g) hr hc fun i hi => Nat.le_trans M.len hi
      cases eb : A.become R with
      | error x => rw [eb] at hm; dsimp only at hm; rw [hm]; rfl
      | ok R' =>
        rw [eb] at hm
        obtain ⟨rfl, a', s2, em, hcell, u, ps, l2⟩ := hm
        rw [ok_bind, em]
        refine ⟨_, _, rfl, M.put e1 hcell ⟨drop_inv u.inv _, ?_⟩ (drop_len (by rw [l2]; exact g.len)) ?_ hR⟩
        · intro i Y hi hY
          have := hY.lt
          exact drop_rep u.inv (u.keep _ _ (by rintro (h | h); exacts [hi h, by omega]) (g.keep _ _ hY)) this
        · refine PtSim.upd (Upd.drop u.inv) (fun i hi => Nat.le_trans M.len hi) ps ?_
          rw [hcell]
          exact fun i hi h => absurd (hc i hi).1 (Nat.not_lt.2 h)
    · rw [List.getElem?_eq_none (Nat.le_refl _), List.getElem?_eq_none (Nat.le_refl _)]
    · rw [List.getElem?_eq_none (Nat.le_refl _), List.getElem?_eq_none (Nat.le_refl _)]

theorem Sim.imp {α β : Type} {R S : BigSt → α → β → Prop} {m : Ack.Mem.M α} {w : Res β} (h : Sim K R s m w) (k : ∀ s a b, R s a b → S s a b) :
    Sim K S s m w := by
  cases w with
  | error e => exact h
  | ok b =>
    obtain ⟨a, s', e, g, r⟩ := h
    exact ⟨a, s', e, g, k _ _ _ r⟩

theorem set_step (H : PC K p P N fuel C') {c : CurveR} (M : MInv K B p C' s c v V) (q : Nat) (t : EcStmt) :
    match setStepV K.lim C' V q t with
    | .error e => setStep K fuel c v q t s = .error e
    | .ok V' => ∃ v' s', setStep K fuel c v q t s = .ok (v', s') ∧ MInv K B p C' s' c v' V' :=
  set_run M q ((step_add H ⟨M.inv, fun _ h => h⟩ M.cur M.vars t).imp fun _ _ _ h => .inl h) rfl

theorem pt_step (H : PC K p P N fuel C') {c : CurveR} (M : MInv K B p C' s c v V) (t : PtStmt) :
    match pvStep K.lim C' V t with
    | .error e => ptStep K fuel c v t s = .error e
    | .ok V' => ∃ v' s', ptStep K fuel c v t s = .ok (v', s') ∧ MInv K B p C' s' c v' V' := by
  have X : Ctx K (Since s.mem.objs.length) s := ⟨M.inv, fun _ h => h⟩
  have none_pt : ∀ {q : Nat} {α β : Type} {f : PtV → Res α} {g : PtR → Ack.Mem.M β}, v.pts[q]? = none → V.pts[q]? = none →
      (V.pt q >>= f) = .error .ub ∧ (v.pt q >>= g) s = .error .ub := by
    intro q _ _ f g e1 e2
    unfold EcVals.pt EcVars.pt
    rw [e1, e2]
    exact ⟨rfl, bind_err rfl⟩
  cases t with
  | decl t =>
    have hs := step_add H X M.cur M.vars t
    unfold pvStep ptStep
    dsimp only
    cases e : evStep K.lim C' V t with
    | error x => rw [e] at hs; exact hs
    | ok V' =>
      rw [e] at hs
      obtain ⟨v', s', e', g, a⟩ := hs
      exact ⟨v', s', e', M.add g a⟩
  | set q t => exact set_step H M q t
  | addTo q r => exact set_step H M q (.add q r)
  | subFrom q r => exact set_step H M q (.sub q r)
  | mulBy q x => exact set_step H M q (.mul q x)
  | copy q r =>
    rcases forall₂_get M.vars.pts q with ⟨e1, e2⟩ | ⟨a, A, e1, e2, ra⟩
    · unfold pvStep ptStep
      dsimp only
      rw [(none_pt (α := EcVals) (β := EcVars) (g := fun _ => halt .ub) e1 e2).1]
      exact (none_pt (α := EcVals) (f := fun _ => .error .ub) e1 e2).2
    rcases forall₂_get M.vars.pts r with ⟨e3, e4⟩ | ⟨b, R, e3, e4, rb⟩
    · unfold pvStep ptStep EcVals.pt EcVars.pt
      dsimp only
      rw [e1, e2, e3, e4]
      dsimp only
      rw [ok_bind]
      exact (bind_run rfl).trans (bind_err rfl)
    rw [step_copy e1 e3]
    have ev : pvStep K.lim C' V (.copy q r) = A.become R >>= fun R => .ok { V with pts := V.pts.set q R } := by
      unfold pvStep EcVals.pt
      dsimp only
      rw [e2, e4]
      rfl
    rw [ev]
    have hc : ∀ i ∈ a.cells, ¬ Since B i ∧ From B i := fun i hi => by
      obtain ⟨Y, h⟩ := M.vars.cells_rep i (pt_cells e1 hi)
      exact ⟨h.nd, Nat.not_lt.1 h.nd⟩
    have hd : a = b ∨ ∀ i ∈ a.cells, i ∉ b.cells := by
      by_cases h : q = r
      · subst h; rw [e1] at e3; cases e3; exact .inl rfl
      · exact .inr (flatMap_disj (List.nodup_append'.1 M.nd).2.1 h e1 e3)
    have hm := copyFrom_run (K := K) (D := Since B) M.inv ra rb hd hc
    cases eb : A.become R with
    | error x => rw [eb] at hm; dsimp only at hm; rw [hm]; rfl
    | ok R' =>
      rw [eb] at hm
      obtain ⟨rfl, a', s2, em, hcell, u, ps, l2⟩ := hm
      rw [ok_bind, em]
      exact ⟨_, _, rfl, M.put e1 hcell u l2 ps (M.vars.own _ (List.mem_of_getElem? e4))⟩

theorem pt_exec (H : PC K p P N fuel C') {c : CurveR} : ∀ (ts : List PtStmt) {s : BigSt} {v : EcVars} {V : EcVals}, MInv K B p C' s c v V →
    match pvExec K.lim C' ts V with
    | .error e => ptExec K fuel c ts v s = .error e
    | .ok V' => ∃ v' s', ptExec K fuel c ts v s = .ok (v', s') ∧ MInv K B p C' s' c v' V'
  | [], s, v, V, M => ⟨v, s, rfl, M⟩
  | t :: ts, s, v, V, M => by
    have h := pt_step H M t
    unfold pvExec ptExec
    cases e : pvStep K.lim C' V t with
    | error x => rw [e] at h; exact bind_err h
    | ok V1 =>
      rw [e] at h
      obtain ⟨v1, s1, e1, M1⟩ := h
      rw [ok_bind, bind_run e1]
      exact pt_exec H ts M1

/-! ### Whole programs -/

variable {d : DomBytes}

theorem Params.start (r : Params K d P N) : startCurveV K.lim d = r.make := by
  unfold startCurveV
  rw [r.ep, ok_bind, r.ea, ok_bind, r.eb, ok_bind, r.ex, ok_bind, r.ey, ok_bind, r.en, ok_bind]
  rfl

theorem start_sim (r : Params K d P N) (S : EcSetting K d P N) {fuel : ℕ} (hP : Spec.Passes P fuel) :
    Sim K (CSim D0 r.p) BigSt.init (startCurve K d) r.make := by
  have f1 := cap_fit1 r.mp
  unfold startCurve
  have C := ctx_init (K := K)
  refine Sim.newBytes C f1 r.ep fun s' _ g h1 => ?_
  lift g
  refine Sim.newBytes C f1 r.ea fun s' _ g h2 => ?_
  lift g
  refine Sim.newBytes C f1 r.eb fun s' _ g h3 => ?_
  lift g
  refine Sim.newBytes C f1 r.ex fun s' _ g h4 => ?_
  lift g
  refine Sim.newBytes C f1 r.ey fun s' _ g h5 => ?_
  lift g
  refine Sim.newBytes C f1 r.en fun s' _ g h6 => ?_
  lift g
  exact make_sim (r.fc S hP) C 1 d.h h1 h2 h3 h4 h5 h6 r.la r.lb r.cx r.cy

/-- **A whole program.** -/
theorem pt_program (r : Params K d P N) (S : EcSetting K d P N) {fuel : ℕ} (hP : Spec.Passes P fuel) (hN : N.size ≤ fuel) (ts : List PtStmt) :
    match pvProgram K.lim d ts with
    | .error e => ptProgram K fuel d ts BigSt.init = .error e
    | .ok V => ∃ v s C B c, ptProgram K fuel d ts BigSt.init = .ok (v, s) ∧ r.make = .ok C ∧ MInv K B r.p C s c v V := by
  have hm := start_sim r S hP
  unfold pvProgram ptProgram
  rw [r.start]
  cases e : r.make with
  | error x => rw [e] at hm; exact bind_err hm
  | ok Cv =>
    rw [e] at hm
    obtain ⟨c, s1, em, g, hc⟩ := hm
    rw [ok_bind, bind_run em]
    have M : MInv K s1.mem.objs.length r.p Cv s1 c ⟨[], [], []⟩ ⟨[], [], []⟩ :=
      ⟨g.inv, Nat.le_refl _, hc.weak fun i hi h => absurd h (Nat.not_le.2 hi),
        ⟨.nil, fun _ h => absurd h List.not_mem_nil, .nil, fun _ h => absurd h List.not_mem_nil, rfl⟩, List.nodup_nil⟩
    have h := pt_exec (r.pc S hP hN e) ts M
    cases e1 : pvExec K.lim Cv ts ⟨[], [], []⟩ with
    | error x => rw [e1] at h; exact h
    | ok V =>
      rw [e1] at h
      obtain ⟨v, s, e2, M'⟩ := h
      exact ⟨v, s, Cv, _, c, e2, rfl, M'⟩

theorem MInv.plain {c : CurveR} (M : MInv K B p C' s c v V) : VSim D0 D0 p C' s v V :=
  M.vars.weak (fun _ h => h.elim) (fun _ h => h.elim)

end

/-! ### The group -/

section
variable {P : ℕ} [Fact P.Prime] {N : ℕ} {cap : Cap} {C : Curve} {G : C.Pt P} {V : EcVals} {e : EcEnv (C.W P)}

theorem PtDen.become {A R : PtV} {k : Kd} {Q T : C.Pt P} (h : PtDen C A (k, Q)) (h' : PtDen C R (k, T)) : A.become R = .ok R := by
  cases A <;> cases k <;> first | exact False.elim h | skip
  all_goals cases R <;> first | exact False.elim h' | rfl

theorem den_get {l : List PtV} {m : List (Kd × C.Pt P)} (h : List.Forall₂ (PtDen C) l m) {i : ℕ} {k : Kd} {Q : C.Pt P} (hi : m[i]? = some (k, Q)) :
    ∃ A, l[i]? = some A ∧ PtDen C A (k, Q) := by
  rcases forall₂_get h i with ⟨-, e⟩ | ⟨a, b, e1, e2, r⟩
  · rw [e] at hi; cases hi
  · rw [e2] at hi; cases hi; exact ⟨a, e1, r⟩

theorem Den.put (h : Den C V e) {q : ℕ} {R : PtV} {k : Kd} {T : C.Pt P} (hR : PtDen C R (k, T)) :
    Den C { V with pts := V.pts.set q R } { e with pts := e.pts.set q (k, T) } :=
  ⟨h.ints, forall₂_put hR h.pts q fun _ _ _ _ _ r => r, h.bools⟩

theorem pden_set (D : AnyDomain N cap C G) (h : Den C V e) {q : ℕ} {k : Kd} {Q R : C.Pt P} {t : EcStmt} (hq : e.pts[q]? = some (k, Q))
    (ht : EcDoes cap N G e t { e with pts := e.pts ++ [(k, R)] }) :
    ∃ V', setStepV cap C V q t = .ok V' ∧ Den C V' { e with pts := e.pts.set q (k, R) } := by
  obtain ⟨A, eA, dA⟩ := den_get h.pts hq
  obtain ⟨V', e', d'⟩ := den_step D h ht
  rw [vstep_set eA e']
  obtain ⟨R', eR, dR⟩ := den_get d'.pts (i := V.pts.length) (k := k) (Q := R) (by rw [h.pts.length_eq]; exact List.getElem?_concat_length)
  rw [eR]
  dsimp only
  rw [dA.become dR]
  exact ⟨_, rfl, h.put dR⟩

theorem pden_step (D : AnyDomain N cap C G) (h : Den C V e) {t : PtStmt} {e' : EcEnv (C.W P)} (ht : PtDoes cap N G e t e') :
    ∃ V', pvStep cap C V t = .ok V' ∧ Den C V' e' := by
  cases ht with
  | decl ht => exact den_step D h ht
  | set hq ht => exact pden_set D h hq ht
  | addTo hq hr => exact pden_set D h hq (.add hq hr)
  | subFrom hq hr => exact pden_set D h hq (.sub hq hr)
  | mulBy hq hx hr => exact pden_set D h hq (.mul hq hx hr)
  | @copy q r k Q R hq hr =>
    obtain ⟨A, eA, dA⟩ := den_get h.pts hq
    obtain ⟨B, eB, dB⟩ := den_get h.pts hr
    refine ⟨_, ?_, h.put dB⟩
    unfold pvStep EcVals.pt
    dsimp only
    rw [eA, eB]
    dsimp only
    rw [ok_bind, ok_bind, dA.become dB]
    rfl

theorem pden_stop (D : AnyDomain N cap C G) (h : Den C V e) {t : PtStmt} (ht : PtStops cap N e t) : pvStep cap C V t = .error .abort := by
  cases ht with
  | decl ht => exact den_stop D h ht
  | @set q k Q t hq ht =>
    obtain ⟨A, eA, dA⟩ := den_get h.pts hq
    unfold pvStep setStepV EcVals.setPt EcVals.pt
    dsimp only
    rw [eA]
    dsimp only
    rw [ok_bind, den_stop D h ht]
    rfl

theorem pden_runs (D : AnyDomain N cap C G) {ts : List PtStmt} {e' : EcEnv (C.W P)} (ht : PtRuns cap N G e ts e') :
    ∀ V, Den C V e → ∃ V', pvExec cap C ts V = .ok V' ∧ Den C V' e' := by
  induction ht with
  | nil e => exact fun V h => ⟨V, rfl, h⟩
  | cons h1 _ ih =>
    intro V h
    obtain ⟨V1, e1, d1⟩ := pden_step D h h1
    obtain ⟨V2, e2, d2⟩ := ih V1 d1
    exact ⟨V2, by unfold pvExec; rw [e1]; exact e2, d2⟩

theorem pvExec_stop {us : List PtStmt} {t : PtStmt} {x : Err} : ∀ {ts : List PtStmt} {V0 : EcVals}, pvExec cap C ts V0 = .ok V → pvStep cap C V t = .error x →
    pvExec cap C (ts ++ t :: us) V0 = .error x := by
  intro ts
  induction ts with
  | nil =>
    intro V0 h0 h
    cases h0
    rw [List.nil_append]
    unfold pvExec
    rw [h]
    rfl
  | cons t' ts ih =>
    intro V0 h0 h
    rw [List.cons_append]
    unfold pvExec at h0 ⊢
    cases h1 : pvStep cap C V0 t' with
    | error x => rw [h1] at h0; cases h0
    | ok V1 => rw [h1] at h0; rw [ok_bind]; exact ih h0 h

end

/-! ### Arbitrary points -/

section
variable {P : ℕ} [Fact P.Prime] {N : ℕ} {cap : Cap} {C : Curve} {G : C.Pt P} {V : EcVals} {xs : List ℤ} {ks : List Kd}

omit [Fact P.Prime] in
theorem PtAny.become {A R : PtV} {k : Kd} (h : PtAny P C A k) (h' : PtAny P C R k) : A.become R = .ok R := by
  cases A <;> cases k <;> first | exact False.elim h | skip
  all_goals cases R <;> first | exact False.elim h' | rfl

omit [Fact P.Prime] in
theorem any_get {l : List PtV} {m : List Kd} (h : List.Forall₂ (PtAny P C) l m) {i : ℕ} {k : Kd} (hi : m[i]? = some k) :
    ∃ A, l[i]? = some A ∧ PtAny P C A k := by
  rcases forall₂_get h i with ⟨-, e⟩ | ⟨a, b, e1, e2, r⟩
  · rw [e] at hi; cases hi
  · rw [e2] at hi; cases hi; exact ⟨a, e1, r⟩

omit [Fact P.Prime] in
theorem Shape.put (h : Shape P cap C V xs ks) {q : ℕ} {R : PtV} {k : Kd} (hk : ks[q]? = some k) (hR : PtAny P C R k) :
    Shape P cap C { V with pts := V.pts.set q R } xs ks := by
  have := forall₂_put hR h.pts q fun _ _ _ _ _ r => r
  obtain ⟨hl, rfl⟩ := List.getElem?_eq_some_iff.1 hk
  rw [List.set_getElem_self] at this
  exact ⟨h.ints, this⟩

theorem pform_set (D : AnyDomain N cap C G) (h : Shape P cap C V xs ks) {q : ℕ} {k : Kd} {t : EcStmt} (hq : ks[q]? = some k)
    (ht : EcForm xs ks t xs (ks ++ [k])) :
    (∃ V', setStepV cap C V q t = .ok V' ∧ Shape P cap C V' xs ks) ∨ setStepV cap C V q t = .error .abort ∧ ¬ EcPasses cap P N xs t := by
  obtain ⟨A, eA, dA⟩ := any_get h.pts hq
  rcases form_step D h ht with ⟨V', e', d'⟩ | ⟨e', n'⟩
  · left
    rw [vstep_set eA e']
    obtain ⟨R', eR, dR⟩ := any_get d'.pts (i := V.pts.length) (k := k) (by rw [h.pts.length_eq]; exact List.getElem?_concat_length)
    rw [eR]
    dsimp only
    rw [dA.become dR]
    exact ⟨_, rfl, h.put hq dR⟩
  · right
    refine ⟨?_, n'⟩
    unfold setStepV EcVals.setPt EcVals.pt
    rw [eA]
    dsimp only
    rw [ok_bind, e']
    rfl

theorem pform_step (D : AnyDomain N cap C G) (h : Shape P cap C V xs ks) {t : PtStmt} {ys : List ℤ} {ls : List Kd}
    (ht : PtForm xs ks t ys ls) :
    (∃ V', pvStep cap C V t = .ok V' ∧ Shape P cap C V' ys ls) ∨ pvStep cap C V t = .error .abort ∧ ¬ PtPasses cap P N xs t := by
  cases ht with
  | decl ht => exact form_step D h ht
  | set hq ht => exact pform_set D h hq ht
  | addTo hq hr => exact pform_set D h hq (.add hq hr)
  | subFrom hq hr => exact pform_set D h hq (.sub hq hr)
  | mulBy hq hx => exact pform_set D h hq (.mul hq hx)
  | @copy q r k hq hr =>
    left
    obtain ⟨A, eA, dA⟩ := any_get h.pts hq
    obtain ⟨B, eB, dB⟩ := any_get h.pts hr
    refine ⟨_, ?_, h.put hq dB⟩
    unfold pvStep EcVals.pt
    dsimp only
    rw [eA, eB]
    dsimp only
    rw [ok_bind, ok_bind, dA.become dB]
    rfl

theorem pform_runs (D : AnyDomain N cap C G) {A : List ℤ → PtStmt → Prop} {ts : List PtStmt} {ys : List ℤ} {ls : List Kd}
    (ht : PtForms A xs ks ts ys ls) :
    ∀ V, Shape P cap C V xs ks → (∃ V', pvExec cap C ts V = .ok V' ∧ Shape P cap C V' ys ls) ∨
      pvExec cap C ts V = .error .abort ∧ ¬ ∀ xs t, A xs t → PtPasses cap P N xs t := by
  induction ht with
  | nil xs ks => exact fun V h => .inl ⟨V, rfl, h⟩
  | cons h1 hA _ ih =>
    intro V h
    unfold pvExec
    rcases pform_step D h h1 with ⟨V1, e1, d1⟩ | ⟨e1, n1⟩
    · rw [e1, ok_bind]; exact ih V1 d1
    · rw [e1]; exact .inr ⟨rfl, fun hh => n1 (hh _ _ hA)⟩

end
end Ack.Mem
