import Verif.Proof.Ecdsa
/-!
# Jacobian arithmetic on arbitrary coordinates

The functions complete for all points whose coordinates are field elements, whether or not these satisfy the curve
equation.  The scalar multiplications are generic in the group refined, so totality follows from the trivial group.
-/
namespace Ack
open Big WeierstrassCurve

section
variable {P N : ℕ} [Fact P.Prime] {cap : Cap} {C : Curve} {G : C.Pt P}

/-- The coordinates of an affine point of curve `C` are field elements, or the point is the identity. -/
def APt.Any (P : ℕ) (C : Curve) (q : APt) : Prop :=
  q.isIdentity = false → q.curve = some C ∧ ∃ X Y : ZMod P, Ack.Rep P C.p q.x X ∧ Ack.Rep P C.p q.y Y

/-- The coordinates of a Jacobian point of curve `C` are field elements, or the point is the identity. -/
def JPt.Any (P : ℕ) (C : Curve) (q : JPt) : Prop :=
  q.isIdentity = false → q.curve = some C ∧ ∃ X Y Z : ZMod P, Ack.Rep P C.p q.x X ∧ Ack.Rep P C.p q.y Y ∧ Ack.Rep P C.p q.z Z ∧ Z ≠ 0

theorem JPt.Any.identity : JPt.identity.Any P C := by intro h; exact absurd h (by decide)

theorem JPt.Any.mk (K : CurveOk P cap C) {x y z : Fe} {X Y Z : ZMod P} (hx : Ack.Rep P C.p x X) (hy : Ack.Rep P C.p y Y)
    (hz : Ack.Rep P C.p z Z) : (⟨some C, x, y, z⟩ : JPt).Any P C := by
  intro h
  refine ⟨rfl, X, Y, Z, hx, hy, hz, fun h0 => ?_⟩
  unfold JPt.isIdentity at h
  rw [show (⟨some C, x, y, z⟩ : JPt).z.isZero = true from isZero_true K hz h0] at h
  simp at h

theorem JPt.ofAffine_any (K : CurveOk P cap C) {q : APt} (h : q.Any P C) : ∃ r, JPt.ofAffine q = .ok r ∧ r.Any P C := by
  unfold JPt.ofAffine
  by_cases hi : q.isIdentity = true
  · rw [hi]; exact ⟨_, rfl, .identity⟩
  · rw [Bool.not_eq_true] at hi
    obtain ⟨hc, X, Y, hx, hy⟩ := h hi
    rw [hi, hc, if_pos (by rfl), curveOf_some, ok_bind]
    exact ⟨_, rfl, .mk K hx hy (Z := 1) ⟨rfl, one_elt K.M.one_lt, res_one⟩⟩

theorem JPt.inverted_any (K : CurveOk P cap C) {q : JPt} (h : q.Any P C) : ∃ r, q.inverted cap = .ok r ∧ r.Any P C := by
  unfold JPt.inverted
  by_cases hi : q.isIdentity = true
  · rw [if_pos hi]; exact ⟨q, rfl, h⟩
  · obtain ⟨hc, X, Y, Z, hx, hy, hz, hZ⟩ := h (by simpa using hi)
    rw [if_neg hi, hc, curveOf_some, ok_bind]
    step r hr := hy.neg K.M
    exact ⟨_, rfl, .mk K hx hr hz⟩

theorem JPt.doubled_any (K : CurveOk P cap C) (h8 : 8 < P) {q : JPt} (h : q.Any P C) : ∃ r, q.doubled cap = .ok r ∧ r.Any P C := by
  unfold JPt.doubled
  by_cases hi : q.isIdentity = true
  · rw [if_pos hi]; exact ⟨q, rfl, h⟩
  · obtain ⟨hc, X, Y, Z, hx, hy, hz, hZ⟩ := h (by simpa using hi)
    rw [if_neg hi]
    by_cases h0 : q.y.eqS 0 = true
    · rw [if_pos h0]; exact ⟨_, rfl, .identity⟩
    rw [if_neg h0]
    step m r1 := JPt.tangent_spec K hc hx hz
    step y2 r2 := hy.sqr K.M
    step x4 r3 := hx.mulLit K h8 (k := 4) (by decide) (by decide)
    step s r4 := r3.mul K.M r2
    step m2 r5 := r1.sqr K.M
    step s2 r6 := r4.mul2 K
    step x3 r7 := r5.sub K.M r6
    step d r8 := r4.sub K.M r7
    step md r9 := r1.mul K.M r8
    step y4 r10 := r2.sqr K.M
    step y8 r11 := r10.mulLit K h8 (k := 8) (by decide) (by decide)
    step y3 r12 := r9.sub K.M r11
    step dy r13 := hy.mul2 K
    step z3 r14 := r13.mul K.M hz
    rw [hc, curveOf_some, ok_bind]
    exact ⟨_, rfl, .mk K r7 r12 r14⟩

theorem JPt.addex_any (K : CurveOk P cap C) (h8 : 8 < P) {p q : JPt} {u1 u2 s1 s2 Z1 Z2 : ZMod P} {U1 U2 S1 S2 : Fe}
    (hp : p.Any P C) (hc : p.curve = some C) (pz : Ack.Rep P C.p p.z Z1) (qz : Ack.Rep P C.p q.z Z2) (hu1 : Ack.Rep P C.p U1 u1)
    (hu2 : Ack.Rep P C.p U2 u2) (hs1 : Ack.Rep P C.p S1 s1) (hs2 : Ack.Rep P C.p S2 s2) :
    ∃ r, JPt.addex cap p q U1 U2 S1 S2 = .ok r ∧ r.Any P C := by
  unfold JPt.addex
  step H r1 := hu2.sub K.M hu1
  step R r2 := hs2.sub K.M hs1
  by_cases h1 : H.isZero = true
  · rw [if_pos h1]
    by_cases h2 : R.isZero = true
    · rw [if_pos h2]; exact JPt.doubled_any K h8 hp
    · rw [if_neg h2]; exact ⟨_, rfl, .identity⟩
  rw [if_neg h1]
  step H2 r3 := r1.sqr K.M
  step H3 r4 := r3.mul K.M r1
  step V r5 := hu1.mul K.M r3
  step R2 r6 := r2.sqr K.M
  step t r7 := r6.sub K.M r4
  step V2 r8 := r5.mul2 K
  step X3 r9 := r7.sub K.M r8
  step d r10 := r5.sub K.M r9
  step rd r11 := r2.mul K.M r10
  step sh r12 := hs1.mul K.M r4
  step Y3 r13 := r11.sub K.M r12
  step Z3 r14 := mul_unless_one K r1 pz
  step Z3' r15 := mul_unless_one K r14 qz
  rw [hc, curveOf_some, ok_bind]
  exact ⟨_, rfl, .mk K r9 r13 r15⟩

theorem JPt.addZ2One_any (K : CurveOk P cap C) (h8 : 8 < P) {p q : JPt} (hp : p.Any P C) (ip : p.isIdentity = false) (hq : q.Any P C)
    (iq : q.isIdentity = false) : ∃ r, JPt.addZ2One cap p q = .ok r ∧ r.Any P C := by
  obtain ⟨pc, X1, Y1, Z1, px, py, pz, -⟩ := hp ip
  obtain ⟨qc, X2, Y2, Z2, qx, qy, qz, -⟩ := hq iq
  unfold JPt.addZ2One
  step pz2 r1 := pz.sqr K.M
  step u2 r2 := qx.mul K.M r1
  step s2 r3 := qy.mul K.M r1
  step s2' r4 := r3.mul K.M pz
  exact JPt.addex_any K h8 hp pc pz qz px r2 py r4

theorem JPt.add_any (K : CurveOk P cap C) (h8 : 8 < P) {p q : JPt} (hp : p.Any P C) (hq : q.Any P C) :
    ∃ r, p.add cap q = .ok r ∧ r.Any P C := by
  unfold JPt.add
  by_cases ip : p.isIdentity = true
  · rw [if_pos ip]; exact ⟨q, rfl, hq⟩
  rw [if_neg ip]
  by_cases iq : q.isIdentity = true
  · rw [if_pos iq]; exact ⟨p, rfl, hp⟩
  rw [if_neg iq]
  rw [Bool.not_eq_true] at ip iq
  obtain ⟨pc, X1, Y1, Z1, px, py, pz, -⟩ := hp ip
  obtain ⟨qc, X2, Y2, Z2, qx, qy, qz, -⟩ := hq iq
  by_cases h1 : (p.z.isOne && q.z.isOne) = true
  · rw [if_pos h1]; exact JPt.addex_any K h8 hp pc pz qz px qx py qy
  rw [if_neg h1]
  by_cases h2 : p.z.isOne = true
  · rw [if_pos h2]; exact JPt.addZ2One_any K h8 hq iq hp ip
  rw [if_neg h2]
  by_cases h3 : q.z.isOne = true
  · rw [if_pos h3]; exact JPt.addZ2One_any K h8 hp ip hq iq
  rw [if_neg h3]
  unfold JPt.addNe
  step pz2 r1 := pz.sqr K.M
  step qz2 r2 := qz.sqr K.M
  step u1 r3 := px.mul K.M r2
  step u2 r4 := qx.mul K.M r1
  step s1 r5 := py.mul K.M r2
  step s1' r6 := r5.mul K.M qz
  step s2 r7 := qy.mul K.M r1
  step s2' r8 := r7.mul K.M pz
  exact JPt.addex_any K h8 hp pc pz qz r3 r4 r6 r8

theorem JPt.toAffine_any (K : CurveOk P cap C) {q : JPt} (h : q.Any P C) : ∃ r, q.toAffine cap = .ok r ∧ r.Any P C := by
  unfold JPt.toAffine
  by_cases hi : q.isIdentity = true
  · rw [if_pos hi]; exact ⟨_, rfl, fun h => absurd h (by decide)⟩
  rw [if_neg hi]
  obtain ⟨hc, X, Y, Z, hx, hy, hz, hZ⟩ := h (by simpa using hi)
  by_cases h1 : q.z.isOne = true
  · rw [if_pos h1, hc, curveOf_some, ok_bind]
    exact ⟨_, rfl, fun _ => ⟨rfl, X, Y, hx, hy⟩⟩
  rw [if_neg h1]
  step zi r1 := hz.inv K.M hZ
  step zi2 r2 := r1.sqr K.M
  rw [hc, curveOf_some, ok_bind]
  step x' r3 := hx.mul K.M r2
  step y' r4 := hy.mul K.M r2
  step y'' r5 := r4.mul K.M r1
  exact ⟨_, rfl, fun _ => ⟨rfl, _, _, r3, r5⟩⟩

theorem JPt.opsAny (K : CurveOk P cap C) (h8 : 8 < P) : OpsOk (G := PUnit) (JPt.ops cap) (fun q _ => q.Any P C) where
  id := .identity
  inv := fun h => JPt.inverted_any K h
  add := fun h h' => JPt.add_any K h8 h h'
  dbl := fun h => JPt.doubled_any K h8 h

theorem APt.Rep.any (K : CurveOk P cap C) {q : APt} {Q : C.Pt P} (h : q.Rep C Q) : q.Any P C := by
  intro hi
  cases Q with
  | zero => rw [show q.isIdentity = true from h] at hi; cases hi
  | some x y hn => exact ⟨h.1, x, y, h.2.1, h.2.2⟩

/-- Verification completes for every public key with coordinates in the field. -/
theorem ecdsaVerify_total (D : AnyDomain N cap C G) {q : APt} (hq : q.Any P C) (msg : List Byte) {r s : Big} (cr : r.Canon) (cs : s.Canon) :
    ∃ b, ecdsaVerify cap q msg r s = .ok b ∧ (b = true → q.isIdentity = false ∧ 1 ≤ r.toInt ∧ r.toInt < N ∧ 1 ≤ s.toInt ∧ s.toInt < N) := by
  unfold ecdsaVerify
  by_cases h0 : q.isIdentity = true
  · rw [if_pos h0]; exact ⟨false, rfl, by simp⟩
  rw [if_neg h0]
  have hq' := hq
  obtain ⟨hc, -⟩ := hq (by simpa using h0)
  rw [hc, curveOf_some, ok_bind]
  by_cases hr : (ltS r 1 || opGe r C.n || ltS s 1 || opGe s C.n) = true
  · rw [if_pos hr]; exact ⟨false, rfl, by simp⟩
  rw [if_neg hr]
  obtain ⟨⟨r1, r2⟩, s1, s2⟩ := (range_iff D.Mn cr cs).1 (by simpa using hr)
  obtain ⟨e, ee, ce, le, ve⟩ := msgInt_spec D.Mn msg
  obtain ⟨w, ew, hw, hi⟩ := inv_spec D.Mn D.np cs s1 s2
  have e0 : 0 ≤ e.toInt := by rw [ve]; split <;> omega
  obtain ⟨u1, eu1, hu1, -⟩ := mulmod_spec D.Mn ce le e0 hw
  have lr : r.ws.length ≤ C.n.ws.length := Elt.len (p := C.n) D.Mn.canon ⟨cr, by omega, by rw [D.Mn.eq]; exact r2⟩
  obtain ⟨u2, eu2, hu2, -⟩ := mulmod_spec D.Mn cr lr (by omega) hw
  rw [ee, ok_bind, ew, ok_bind, eu1, ok_bind, eu2, ok_bind]
  step jg hg := JPt.ofAffine_any D.K (D.g.any D.K)
  step jq hjq := JPt.ofAffine_any D.K hq'
  have hp := Canon.len_pos D.Mn.canon
  have l1 := hu1.len D.Mn.canon
  have l2 := hu2.len D.Mn.canon
  obtain ⟨j, ej, hj⟩ := mulAddFast_spec (JPt.opsAny D.K D.P8) cap (g := PUnit.unit) (h := PUnit.unit) hg hjq hu1.c hu2.c hu1.nn hu2.nn
    (D.Mn.room.fits (by omega)) (D.Mn.room.fits (by omega))
  rw [ej, ok_bind]
  step R hR := JPt.toAffine_any D.K hj
  by_cases hI : R.isIdentity = true
  · rw [if_pos hI]; exact ⟨false, rfl, by simp⟩
  rw [if_neg hI]
  obtain ⟨-, X, Y, hx, -⟩ := hR (by simpa using hI)
  have fin : ∃ x, (if opGe R.x.v C.n = true then R.x.subB cap C.n else .ok R.x) = .ok x := by
    by_cases h : opGe R.x.v C.n = true
    · rw [if_pos h]; unfold Fe.subB; rw [hx.deref]; exact ⟨_, rfl⟩
    · rw [if_neg h]; exact ⟨_, rfl⟩
  obtain ⟨x, ex⟩ := fin
  rw [ex, ok_bind]
  exact ⟨_, rfl, fun _ => ⟨by simpa using h0, r1, r2, s1, s2⟩⟩

end
end Ack
