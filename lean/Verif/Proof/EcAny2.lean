import Verif.Proof.EcAny
import Verif.Proof.EcCurve
/-!
# Affine and projective arithmetic on arbitrary coordinates

Continues `Proof/EcAny.lean` with the other two classes, the predicates and the comparisons.
-/
namespace Ack
open Big WeierstrassCurve

/-- The expansion is computed on every storage, also where there is no room for a carry (the digits are then not those of the number). -/
theorem nafGo_total (cap : Cap) : ∀ (k f : Nat) (num : Big), num.Canon → num.neg = false → Fits cap num → val num.ws ≤ 2^k → k + 2 ≤ f →
    ∃ l, nafGo cap f num = .ok l ∧ ∀ d ∈ l, d = 0#8 ∨ d = 1#8 ∨ d = 255#8 := by
  intro k f
  induction f generalizing k with
  | zero => intro num _ _ _ _ h; omega
  | succ f ih =>
    intro num hc hn hfits hk hf
    have htoI : num.toInt = val num.ws := by unfold toInt; rw [hn]; rfl
    have zero : ∀ {x : Big} {f : Nat}, x.Canon → x.neg = false → val x.ws = 0 → 1 ≤ f → nafGo cap f x = .ok [] := by
      intro x f cx nx h0 hf
      obtain ⟨g, rfl⟩ : ∃ g, f = g + 1 := ⟨f - 1, by omega⟩
      rw [nafGo, if_neg]
      rw [compareu1_spec cx 0 (by simp [nx]), show x.toInt = 0 by unfold toInt; rw [nx, h0]; rfl]; simp
    by_cases h0 : val num.ws = 0
    · exact ⟨[], zero hc hn h0 (by omega), by simp⟩
    have next : ∀ {x : Big}, x.Canon → x.neg = false → Fits cap x → val x.ws ≤ val num.ws + 1 → (val num.ws % 2 = 0 → val x.ws ≤ val num.ws) →
        (val num.ws = 1 → val x.ws ≤ 1) →
        ∃ l, nafGo cap f (shr x 1) = .ok l ∧ ∀ d ∈ l, d = 0#8 ∨ d = 1#8 ∨ d = 255#8 := by
      intro x cx nx fx hx he h1
      obtain ⟨rc, rv, rl⟩ := shr_spec x 1 cx
      have rneg : (shr x 1).neg = false := by
        unfold shr; split
        · rfl
        · unfold trim; rw [nx]; simp
      have hrv : val (shr x 1).ws = val x.ws / 2 := by
        unfold toInt at rv; rw [rneg, nx] at rv
        simp only [Bool.false_eq_true, if_false, pow_one] at rv
        have e2 : (2 : Int) = ((2:Nat):Int) := rfl
        rw [e2, ← Int.ofNat_tdiv] at rv
        exact_mod_cast rv
      cases k with
      | zero => exact ⟨[], zero rc rneg (by rw [hrv]; simp at hk; have := h1 (by omega); omega) (by omega), by simp⟩
      | succ j =>
        have hpow : 2^(j+1) = 2 * 2^j := by rw [pow_succ]; ring
        refine ih j (shr x 1) rc rneg (fun N hN => ?_) (by rw [hrv]; omega) (by omega)
        have := rc.w.length_le cx.1 (by rw [hrv]; omega)
        have := fx N hN
        omega
    rw [nafGo, if_pos (by rw [compareu1_spec hc 0 (by simp [hn]), htoI, if_neg (by simp), if_neg (by simpa using h0)]; decide)]
    by_cases hodd : num.isOdd = true
    · rw [if_pos hodd]
      rw [isOdd_iff, htoI] at hodd
      obtain ⟨r, e, g⟩ := mods1_four hn
      rw [e]
      simp only [ok_bind, g]
      set nd : BitVec 32 := 2 - BitVec.ofNat 32 (val num.ws % 4) with hnd
      have hd : (nd = 1#32 ∧ val num.ws % 4 = 1) ∨ (nd = 4294967295#32 ∧ val num.ws % 4 = 3) := by
        have hm : val num.ws % 4 = 1 ∨ val num.ws % 4 = 3 := by omega
        rcases hm with h | h
        · left; rw [hnd, h]; exact ⟨by decide, rfl⟩
        · right; rw [hnd, h]; exact ⟨by decide, rfl⟩
      obtain ⟨sc, sf, sv⟩ := subs1_spec cap num nd hc hfits
      have sneg : (subs1 cap num nd).neg = false := by
        apply sub_neg_false hn hc
        rcases hd with h | h
        · right; rw [h.1]; have : (1#32).toInt = 1 := by decide
          rw [this]; omega
        · left; rw [h.1]; decide
      have hv : (subs1 cap num nd).toInt = val (subs1 cap num nd).ws := by unfold toInt; rw [sneg]; rfl
      have hnd1 : (1#32).toInt = 1 := by decide
      have hnd3 : (4294967295#32).toInt = -1 := by decide
      have hb : (val (subs1 cap num nd).ws ≤ val num.ws + 1) ∧ (val num.ws = 1 → val (subs1 cap num nd).ws ≤ 1) := by
        rw [hv, htoI] at sv
        rcases hd with ⟨h1, h2⟩ | ⟨h1, h2⟩ <;> rw [h1] at sv ⊢ <;> [rw [hnd1] at sv; rw [hnd3] at sv] <;> omega
      obtain ⟨l, el, dl⟩ := next sc sneg sf hb.1 (fun h => by omega) hb.2
      rw [el, ok_bind]
      refine ⟨_, rfl, ?_⟩
      intro d hdm
      rcases List.mem_cons.1 hdm with rfl | hdm
      · rcases hd with ⟨h1, -⟩ | ⟨h1, -⟩ <;> rw [h1] <;> decide
      · exact dl d hdm
    · rw [if_neg hodd]
      obtain ⟨l, el, dl⟩ := next hc hn hfits (by omega) (fun _ => le_rfl) (by omega)
      rw [el, ok_bind]
      refine ⟨_, rfl, ?_⟩
      intro d hdm
      rcases List.mem_cons.1 hdm with rfl | hdm
      · left; rfl
      · exact dl d hdm

theorem toRnaf_total (cap : Cap) (s : Big) (hs : s.Canon) (fs : Fits cap s) :
    ∃ l, toRnaf cap s = .ok l ∧ ∀ d ∈ l, d = 0#8 ∨ d = 1#8 ∨ d = 255#8 := by
  by_cases hn : s.neg = false
  · obtain ⟨l, e, dg⟩ := nafGo_total cap s.bitLength (s.bitLength + 2) s hs hn fs (lt_two_pow_bitLength hs).le le_rfl
    exact ⟨l.reverse, by unfold toRnaf toNaf; rw [e]; rfl, fun d hd => dg d (by simpa using hd)⟩
  · exact ⟨[], toRnaf_neg cap s (by simpa using hn), by simp⟩

section
variable {P N : ℕ} [Fact P.Prime] {cap : Cap} {C : Curve} {G : C.Pt P}

/-- The coordinates of a projective point of curve `C` are field elements, or the point is the identity. -/
def PPt.Any (P : ℕ) (C : Curve) (q : PPt) : Prop :=
  q.isIdentity = false → q.curve = some C ∧ ∃ X Y Z : ZMod P, Ack.Rep P C.p q.x X ∧ Ack.Rep P C.p q.y Y ∧ Ack.Rep P C.p q.z Z ∧ Z ≠ 0

theorem APt.Any.identity : APt.identity.Any P C := by intro h; exact absurd h (by decide)
theorem PPt.Any.identity : PPt.identity.Any P C := by intro h; exact absurd h (by decide)

theorem APt.Any.mk {x y : Fe} {X Y : ZMod P} (hx : Ack.Rep P C.p x X) (hy : Ack.Rep P C.p y Y) : (⟨some C, x, y⟩ : APt).Any P C :=
  fun _ => ⟨rfl, X, Y, hx, hy⟩

theorem PPt.Any.mk (K : CurveOk P cap C) {x y z : Fe} {X Y Z : ZMod P} (hx : Ack.Rep P C.p x X) (hy : Ack.Rep P C.p y Y)
    (hz : Ack.Rep P C.p z Z) : (⟨some C, x, y, z⟩ : PPt).Any P C := by
  intro h
  refine ⟨rfl, X, Y, Z, hx, hy, hz, fun h0 => ?_⟩
  unfold PPt.isIdentity at h
  rw [show (⟨some C, x, y, z⟩ : PPt).z.isZero = true from isZero_true K hz h0] at h
  simp at h

/-! ## Affine -/

theorem APt.inverted_any (K : CurveOk P cap C) {q : APt} (h : q.Any P C) : ∃ r, q.inverted cap = .ok r ∧ r.Any P C := by
  unfold APt.inverted
  by_cases hi : q.isIdentity = true
  · rw [if_pos hi]; exact ⟨q, rfl, h⟩
  · obtain ⟨hc, X, Y, hx, hy⟩ := h (by simpa using hi)
    rw [if_neg hi, hc, curveOf_some, ok_bind]
    step r hr := hy.neg K.M
    exact ⟨_, rfl, .mk hx hr⟩

theorem APt.doubled_any (K : CurveOk P cap C) {q : APt} (h : q.Any P C) : ∃ r, q.doubled cap = .ok r ∧ r.Any P C := by
  unfold APt.doubled
  by_cases hi : q.isIdentity = true
  · rw [if_pos (by rw [hi]; rfl)]; exact ⟨_, rfl, .identity⟩
  obtain ⟨hc, X, Y, hx, hy⟩ := h (by simpa using hi)
  rw [Bool.not_eq_true] at hi
  by_cases h0 : Y = 0
  · rw [if_pos (by rw [isZero_true K hy h0]; simp)]; exact ⟨_, rfl, .identity⟩
  rw [if_neg (by rw [hi, isZero_false K hy h0]; simp)]
  step x2 r1 := hx.sqr K.M
  step t1 r2 := r1.mul3 K
  rw [hc, curveOf_some, ok_bind]
  step t2 r3 := r2.addB K.M K.a
  step d1 r4 := hy.mul2 K
  step s r5 := r3.div K.M r4 (mul_ne_zero K.two h0)
  step s2 r6 := r5.sqr K.M
  step dx r7 := hx.mul2 K
  step rx r8 := r6.sub K.M r7
  step e1 r9 := hx.sub K.M r8
  step f1 r10 := r5.mul K.M r9
  step ry r11 := r10.sub K.M hy
  exact ⟨_, rfl, .mk r8 r11⟩

theorem APt.add_any (K : CurveOk P cap C) {p q : APt} (hp : p.Any P C) (hq : q.Any P C) : ∃ r, p.add cap q = .ok r ∧ r.Any P C := by
  unfold APt.add
  by_cases ip : p.isIdentity = true
  · rw [if_pos ip]; exact ⟨q, rfl, hq⟩
  rw [if_neg ip]
  by_cases iq : q.isIdentity = true
  · rw [if_pos iq]; exact ⟨p, rfl, hp⟩
  rw [if_neg iq]
  rw [Bool.not_eq_true] at ip iq
  obtain ⟨pc, x1, y1, px, py⟩ := hp ip
  obtain ⟨qc, x2, y2, qx, qy⟩ := hq iq
  step s r1 := qx.sub K.M px
  by_cases hx : x2 - x1 = 0
  · rw [if_pos (isZero_true K r1 hx)]
    by_cases hy : p.y.eq q.y = true
    · rw [if_pos hy]; exact APt.doubled_any K hp
    · rw [if_neg hy]; exact ⟨_, rfl, .identity⟩
  rw [if_neg (by rw [isZero_false K r1 hx]; simp)]
  step d r2 := qy.sub K.M py
  step l r3 := r2.div K.M r1 hx
  step s2 r4 := r3.sqr K.M
  step t r5 := r4.sub K.M px
  step x3 r6 := r5.sub K.M qx
  step e r7 := px.sub K.M r6
  step f r8 := r3.mul K.M r7
  step y3 r9 := r8.sub K.M py
  rw [pc, curveOf_some, ok_bind]
  exact ⟨_, rfl, .mk r6 r9⟩

theorem APt.opsAny (K : CurveOk P cap C) : OpsOk (G := PUnit) (APt.ops cap) (fun q _ => q.Any P C) where
  id := .identity
  inv := fun h => APt.inverted_any K h
  add := fun h h' => APt.add_any K h h'
  dbl := fun h => APt.doubled_any K h

theorem APt.sub_any (K : CurveOk P cap C) {p q : APt} (hp : p.Any P C) (hq : q.Any P C) : ∃ r, p.sub cap q = .ok r ∧ r.Any P C := by
  unfold APt.sub
  step n hn := APt.inverted_any K hq
  exact APt.add_any K hp hn

theorem bit_bound {s : Big} (hs : s.Canon) : s.toInt < 2 ^ s.bitLength := by
  have := lt_two_pow_bitLength hs
  have e : s.toInt ≤ val s.ws := by unfold toInt; split <;> omega
  exact_mod_cast lt_of_le_of_lt e (by exact_mod_cast this)

theorem APt.mulNN_any (K : CurveOk P cap C) {q : APt} (h : q.Any P C) {s : Big} (hs : s.Canon) (h0 : 0 ≤ s.toInt) :
    ∃ r, q.mulNN cap s = .ok r ∧ r.Any P C := by
  unfold APt.mulNN
  split
  · exact ⟨q, rfl, h⟩
  split
  · exact ⟨_, rfl, .identity⟩
  exact ladder_spec (APt.opsAny K) (s.bitLength + 1) s.bitLength APt.identity q s PUnit.unit PUnit.unit .identity h hs h0 (bit_bound hs) le_rfl

theorem APt.mul_any (K : CurveOk P cap C) {q : APt} (h : q.Any P C) {s : Big} (hs : s.Canon) : ∃ r, q.mul cap s = .ok r ∧ r.Any P C := by
  unfold APt.mul
  split
  · exact ⟨q, rfl, h⟩
  split
  · exact ⟨_, rfl, .identity⟩
  split
  · rename_i hn
    rw [ltS_iff hs, show (0 : BitVec 32).toInt = 0 by decide] at hn
    step i hi := APt.inverted_any K h
    exact APt.mulNN_any K hi (negate_canon hs) (by rw [negate_toInt]; omega)
  · rename_i hn
    rw [ltS_iff hs, show (0 : BitVec 32).toInt = 0 by decide] at hn
    exact APt.mulNN_any K h hs (by omega)

theorem APt.isOnCurve_any (K : CurveOk P cap C) {q : APt} (h : q.Any P C) : ∃ b, q.isOnCurve cap = .ok b := by
  by_cases hi : q.isIdentity = true
  · unfold APt.isOnCurve; rw [if_pos hi]; exact ⟨_, rfl⟩
  · obtain ⟨hc, X, Y, hx, hy⟩ := h (by simpa using hi)
    obtain ⟨b, e, -⟩ := APt.isOnCurve_spec K hc hx hy
    exact ⟨b, e⟩

theorem APt.isValid_any (K : CurveOk P cap C) (cn : C.n.Canon) {q : APt} (h : q.Any P C) : ∃ b, q.isValid cap = .ok b := by
  by_cases hi : q.isIdentity = true
  · unfold APt.isValid; rw [if_pos hi]; exact ⟨_, rfl⟩
  · obtain ⟨hc, X, Y, hx, hy⟩ := h (by simpa using hi)
    obtain ⟨b, e, -⟩ := APt.isValid_spec K cn hc hx hy
    exact ⟨b, e⟩

/-! ## Projective -/

theorem PPt.ofAffine_any (K : CurveOk P cap C) {q : APt} (h : q.Any P C) : ∃ r, PPt.ofAffine q = .ok r ∧ r.Any P C := by
  unfold PPt.ofAffine
  by_cases hi : q.isIdentity = true
  · rw [hi]; exact ⟨_, rfl, .identity⟩
  · rw [Bool.not_eq_true] at hi
    obtain ⟨hc, X, Y, hx, hy⟩ := h hi
    rw [hi, hc, if_pos (by rfl), curveOf_some, ok_bind]
    exact ⟨_, rfl, .mk K hx hy (Z := 1) ⟨rfl, one_elt K.M.one_lt, res_one⟩⟩

theorem PPt.inverted_any (K : CurveOk P cap C) {q : PPt} (h : q.Any P C) : ∃ r, q.inverted cap = .ok r ∧ r.Any P C := by
  unfold PPt.inverted
  by_cases hi : q.isIdentity = true
  · rw [if_pos hi]; exact ⟨q, rfl, h⟩
  · obtain ⟨hc, X, Y, Z, hx, hy, hz, hZ⟩ := h (by simpa using hi)
    rw [if_neg hi, hc, curveOf_some, ok_bind]
    step r hr := hy.neg K.M
    exact ⟨_, rfl, .mk K hx hr hz⟩

theorem PPt.doubled_any (K : CurveOk P cap C) {q : PPt} (h : q.Any P C) : ∃ r, q.doubled cap = .ok r ∧ r.Any P C := by
  unfold PPt.doubled
  by_cases hi : (q.isIdentity || q.y.eqS 0) = true
  · rw [if_pos hi]; exact ⟨_, rfl, .identity⟩
  rw [if_neg hi]
  obtain ⟨hc, X, Y, Z, hx, hy, hz, hZ⟩ := h (by simp at hi; exact hi.1)
  step t r1 := PPt.tangent_spec K hc hx hz
  step dy r2 := hy.mul2 K
  step u r3 := r2.mul K.M hz
  step ux r4 := r3.mul K.M hx
  step v r5 := r4.mul K.M r2
  step t2 r6 := r1.sqr K.M
  step v2 r7 := r5.mul2 K
  step w r8 := r6.sub K.M r7
  step rx r9 := r3.mul K.M r8
  step u2 r10 := r3.sqr K.M
  step e1 r11 := r5.sub K.M r8
  step te r12 := r1.mul K.M r11
  step y2 r13 := hy.sqr K.M
  step k r14 := r10.mul K.M r13
  step k2 r15 := r14.mul2 K
  step ry r16 := r12.sub K.M r15
  step rz r17 := r10.mul K.M r3
  rw [hc, curveOf_some, ok_bind]
  exact ⟨_, rfl, .mk K r9 r16 r17⟩

theorem PPt.add_any (K : CurveOk P cap C) {p q : PPt} (hp : p.Any P C) (hq : q.Any P C) : ∃ r, p.add cap q = .ok r ∧ r.Any P C := by
  unfold PPt.add
  by_cases ip : p.isIdentity = true
  · rw [if_pos ip]; exact ⟨q, rfl, hq⟩
  rw [if_neg ip]
  by_cases iq : q.isIdentity = true
  · rw [if_pos iq]; exact ⟨p, rfl, hp⟩
  rw [if_neg iq]
  rw [Bool.not_eq_true] at ip iq
  obtain ⟨pc, X1, Y1, Z1, px, py, pz, -⟩ := hp ip
  obtain ⟨qc, X2, Y2, Z2, qx, qy, qz, -⟩ := hq iq
  step t0 r1 := py.mul K.M qz
  step t1 r2 := qy.mul K.M pz
  step u0 r3 := px.mul K.M qz
  step u1 r4 := qx.mul K.M pz
  by_cases h1 : u0.eq u1 = true
  · rw [if_pos h1]
    by_cases h2 : t0.eq t1 = true
    · rw [if_pos h2]; exact PPt.doubled_any K hp
    · rw [if_neg h2]; exact ⟨_, rfl, .identity⟩
  rw [if_neg h1]
  step t s1 := r1.sub K.M r2
  step u s2 := r3.sub K.M r4
  step u2 s3 := s2.sqr K.M
  step u3 s4 := s2.mul K.M s3
  step v s5 := pz.mul K.M qz
  step t2 s6 := s1.sqr K.M
  step tv s7 := s6.mul K.M s5
  step us s8 := r3.add K.M r4
  step uu s9 := s3.mul K.M s8
  step w s10 := s7.sub K.M s9
  step rx s11 := s2.mul K.M s10
  step m1 s12 := r3.mul K.M s3
  step m2 s13 := s12.sub K.M s10
  step m3 s14 := s1.mul K.M s13
  step k s15 := r1.mul K.M s4
  step ry s16 := s14.sub K.M s15
  step rz s17 := s4.mul K.M s5
  rw [pc, curveOf_some, ok_bind]
  exact ⟨_, rfl, .mk K s11 s16 s17⟩

theorem PPt.opsAny (K : CurveOk P cap C) : OpsOk (G := PUnit) (PPt.ops cap) (fun q _ => q.Any P C) where
  id := .identity
  inv := fun h => PPt.inverted_any K h
  add := fun h h' => PPt.add_any K h h'
  dbl := fun h => PPt.doubled_any K h

theorem PPt.toAffine_any (K : CurveOk P cap C) {q : PPt} (h : q.Any P C) : ∃ r, q.toAffine cap = .ok r ∧ r.Any P C := by
  unfold PPt.toAffine
  by_cases hi : q.isIdentity = true
  · rw [if_pos hi]; exact ⟨_, rfl, .identity⟩
  rw [if_neg hi]
  obtain ⟨hc, X, Y, Z, hx, hy, hz, hZ⟩ := h (by simpa using hi)
  by_cases h1 : q.z.isOne = true
  · rw [if_pos h1, hc, curveOf_some, ok_bind]
    exact ⟨_, rfl, .mk hx hy⟩
  rw [if_neg h1]
  step zi r1 := hz.inv K.M hZ
  rw [hc, curveOf_some, ok_bind]
  step x' r3 := hx.mul K.M r1
  step y' r4 := hy.mul K.M r1
  exact ⟨_, rfl, .mk r3 r4⟩

theorem PPt.sub_any (K : CurveOk P cap C) {p q : PPt} (hp : p.Any P C) (hq : q.Any P C) : ∃ r, p.sub cap q = .ok r ∧ r.Any P C := by
  unfold PPt.sub
  step n hn := PPt.inverted_any K hq
  exact PPt.add_any K hp hn

theorem PPt.mulNN_any (K : CurveOk P cap C) {q : PPt} (h : q.Any P C) {s : Big} (hs : s.Canon) (h0 : 0 ≤ s.toInt) :
    ∃ r, q.mulNN cap s = .ok r ∧ r.Any P C := by
  unfold PPt.mulNN
  split
  · exact ⟨q, rfl, h⟩
  split
  · exact ⟨_, rfl, .identity⟩
  exact ladder_spec (PPt.opsAny K) (s.bitLength + 1) s.bitLength PPt.identity q s PUnit.unit PUnit.unit .identity h hs h0 (bit_bound hs) le_rfl

theorem PPt.mul_any (K : CurveOk P cap C) {q : PPt} (h : q.Any P C) {s : Big} (hs : s.Canon) : ∃ r, q.mul cap s = .ok r ∧ r.Any P C := by
  unfold PPt.mul
  split
  · exact ⟨q, rfl, h⟩
  split
  · exact ⟨_, rfl, .identity⟩
  split
  · rename_i hn
    rw [ltS_iff hs, show (0 : BitVec 32).toInt = 0 by decide] at hn
    step i hi := PPt.inverted_any K h
    exact PPt.mulNN_any K hi (negate_canon hs) (by rw [negate_toInt]; omega)
  · rename_i hn
    rw [ltS_iff hs, show (0 : BitVec 32).toInt = 0 by decide] at hn
    exact PPt.mulNN_any K h hs (by omega)

theorem PPt.isOnCurve_any (K : CurveOk P cap C) {q : PPt} (h : q.Any P C) : ∃ b, q.isOnCurve cap = .ok b := by
  by_cases hi : q.isIdentity = true
  · unfold PPt.isOnCurve; rw [if_pos hi]; exact ⟨_, rfl⟩
  · obtain ⟨hc, X, Y, Z, hx, hy, hz, -⟩ := h (by simpa using hi)
    obtain ⟨b, e, -⟩ := PPt.isOnCurve_spec K hc hx hy hz
    exact ⟨b, e⟩

theorem PPt.isValid_any (K : CurveOk P cap C) (cn : C.n.Canon) {q : PPt} (h : q.Any P C) : ∃ b, q.isValid cap = .ok b := by
  by_cases hi : q.isIdentity = true
  · unfold PPt.isValid; rw [if_pos hi]; exact ⟨_, rfl⟩
  · obtain ⟨hc, X, Y, Z, hx, hy, hz, -⟩ := h (by simpa using hi)
    obtain ⟨b, e, -⟩ := PPt.isValid_spec K cn hc hx hy hz
    exact ⟨b, e⟩

theorem PPt.eq_any (K : CurveOk P cap C) {p q : PPt} (hp : p.Any P C) (hq : q.Any P C) : ∃ b, p.eq cap q = .ok b := by
  unfold PPt.eq
  by_cases h : (p.isIdentity || q.isIdentity) = true
  · rw [if_pos h]; exact ⟨_, rfl⟩
  rw [if_neg h]
  simp only [Bool.or_eq_true, not_or, Bool.not_eq_true] at h
  obtain ⟨pc, X1, Y1, Z1, px, py, pz, -⟩ := hp h.1
  obtain ⟨qc, X2, Y2, Z2, qx, qy, qz, -⟩ := hq h.2
  rw [pc, qc, samePtr_self, if_neg (by simp)]
  step l r1 := px.mul K.M qz
  step r r2 := qx.mul K.M pz
  split
  · exact ⟨_, rfl⟩
  step l' r3 := py.mul K.M qz
  step r' r4 := qy.mul K.M pz
  exact ⟨_, rfl⟩

/-! ## Jacobian -/

theorem JPt.sub_any (K : CurveOk P cap C) (h8 : 8 < P) {p q : JPt} (hp : p.Any P C) (hq : q.Any P C) :
    ∃ r, p.sub cap q = .ok r ∧ r.Any P C := by
  unfold JPt.sub
  step n hn := JPt.inverted_any K hq
  exact JPt.add_any K h8 hp hn

theorem JPt.nafLoop_any (K : CurveOk P cap C) (h8 : 8 < P) {p pn : JPt} (hp : p.Any P C) (hpn : pn.Any P C) :
    ∀ (as : List (BitVec 8)) (r : JPt), r.Any P C → ∃ c, JPt.nafLoop cap p pn as r = .ok c ∧ c.Any P C
  | [], r, hr => ⟨r, rfl, hr⟩
  | d :: as, r, hr => by
    rw [nafLoop]
    step r hr := JPt.doubled_any K h8 hr
    have hr' : ∃ c, (if d.toInt > 0 then add cap r p else if d.toInt < 0 then add cap r pn else .ok r) = .ok c ∧ c.Any P C := by
      split
      · exact JPt.add_any K h8 hr hp
      split
      · exact JPt.add_any K h8 hr hpn
      exact ⟨r, rfl, hr⟩
    step r hr := hr'
    exact JPt.nafLoop_any K h8 hp hpn as r hr

theorem JPt.mulNN_any (K : CurveOk P cap C) (h8 : 8 < P) {q : JPt} (h : q.Any P C) {s : Big} (hs : s.Canon)
    (fs : Fits cap s) : ∃ r, q.mulNN cap s = .ok r ∧ r.Any P C := by
  unfold JPt.mulNN
  by_cases h1 : (s.isOne || q.isIdentity) = true
  · rw [if_pos h1]; exact ⟨q, rfl, h⟩
  rw [if_neg h1]
  split
  · exact ⟨_, rfl, .identity⟩
  step qn hqn := JPt.inverted_any K h
  obtain ⟨hqc, -⟩ := h (by simp at h1; exact h1.2)
  rw [hqc, curveOf_some, ok_bind]
  dsimp only
  obtain ⟨l, e, dg⟩ := toRnaf_total cap s hs fs
  rw [e, ok_bind]
  have h0' : (0 : ℤ) < C.p.toInt := by have := K.M.one_lt; omega
  have z : Ack.Rep P C.p ⟨ofInt32 0, some C.p⟩ 0 := ⟨rfl, zero_elt h0', by
    show res P (ofInt32 0) = 0
    unfold res; rw [ofInt32_toInt]; simp⟩
  exact JPt.nafLoop_any K h8 h hqn l _ (.mk K z z (Z := 1) ⟨rfl, one_elt K.M.one_lt, res_one⟩)

theorem JPt.mul_any (K : CurveOk P cap C) (h8 : 8 < P) {q : JPt} (h : q.Any P C) {s : Big} (hs : s.Canon)
    (fs : Fits cap s) : ∃ r, q.mul cap s = .ok r ∧ r.Any P C := by
  unfold JPt.mul
  split
  · exact ⟨q, rfl, h⟩
  split
  · exact ⟨_, rfl, .identity⟩
  split
  · step i hi := JPt.inverted_any K h
    exact JPt.mulNN_any K h8 hi (negate_canon hs) fs
  · exact JPt.mulNN_any K h8 h hs fs

theorem JPt.isOnCurve_any (K : CurveOk P cap C) {q : JPt} (h : q.Any P C) : ∃ b, q.isOnCurve cap = .ok b := by
  by_cases hi : q.isIdentity = true
  · unfold JPt.isOnCurve; rw [if_pos hi]; exact ⟨_, rfl⟩
  · obtain ⟨hc, X, Y, Z, hx, hy, hz, -⟩ := h (by simpa using hi)
    obtain ⟨b, e, -⟩ := JPt.isOnCurve_spec K hc hx hy hz
    exact ⟨b, e⟩

theorem JPt.isValid_any (K : CurveOk P cap C) (h8 : 8 < P) (cn : C.n.Canon) (fn : Fits cap C.n) {q : JPt}
    (h : q.Any P C) : ∃ b, q.isValid cap = .ok b := by
  unfold JPt.isValid
  by_cases hi : q.isIdentity = true
  · rw [if_pos hi]; exact ⟨_, rfl⟩
  rw [if_neg hi]
  obtain ⟨hc, -⟩ := h (by simpa using hi)
  obtain ⟨b, e⟩ := JPt.isOnCurve_any K h
  rw [e, ok_bind]
  cases b with
  | false => exact ⟨_, rfl⟩
  | true =>
    obtain ⟨m, em, -⟩ := JPt.mul_any K h8 h cn fn
    rw [hc]
    simp only [curveOf_some, ok_bind, Bool.not_true, Bool.false_eq_true, if_false, em]
    split <;> exact ⟨_, rfl⟩

theorem JPt.eq_any (K : CurveOk P cap C) {p q : JPt} (hp : p.Any P C) (hq : q.Any P C) : ∃ b, p.eq cap q = .ok b := by
  unfold JPt.eq
  by_cases h : (p.isIdentity || q.isIdentity) = true
  · rw [if_pos h]; exact ⟨_, rfl⟩
  rw [if_neg h]
  simp only [Bool.or_eq_true, not_or, Bool.not_eq_true] at h
  obtain ⟨pc, X1, Y1, Z1, px, py, pz, -⟩ := hp h.1
  obtain ⟨qc, X2, Y2, Z2, qx, qy, qz, -⟩ := hq h.2
  step az r1 := pz.sqr K.M
  step bz r2 := qz.sqr K.M
  rw [pc, qc, samePtr_self, if_neg (by simp)]
  step l r3 := px.mul K.M r2
  step r r4 := qx.mul K.M r1
  split
  · exact ⟨_, rfl⟩
  step l1 r5 := py.mul K.M r2
  step l2 r6 := r5.mul K.M qz
  step l3 r7 := qy.mul K.M r1
  step l4 r8 := r7.mul K.M pz
  exact ⟨_, rfl⟩

end
end Ack
