import Verif.Proof.EcCode
/-!
# Decompression of x-coordinates that are not reduced

`decode_point` passes the coordinate of a compressed encoding on without comparing it with the modulus.  The lemmas
here follow an operand that has at most as many words as the modulus through `compute_y`: squaring, multiplication and
the square root reduce it, the shortcut for a factor one hands it on as it is.
-/
namespace Ack
open Big WeierstrassCurve

/-- A non-negative value that takes no more words than the modulus; it need not be below it. -/
structure Pre (p a : Big) : Prop where
  c : a.Canon
  nn : 0 ≤ a.toInt
  len : a.ws.length ≤ p.ws.length

theorem Elt.pre {p a : Big} (cp : p.Canon) (h : Elt p a) : Pre p a := ⟨h.c, h.nn, h.len cp⟩

section
variable {cap : Cap} {p : Big} {P : ℕ} [hP : Fact P.Prime] (r : Room cap p) (cp : p.Canon) (hp : p.toInt = P)
include r cp hp

theorem mulMod_pre {x y : Big} (hx : Pre p x) (hy : Pre p y) :
    ∃ z, Fp.mulMod cap x y p = .ok z ∧ Elt p z ∧ res P z = res P x * res P y := by
  obtain ⟨c, f, v⟩ := mul_room r hx.c hy.c hx.len hy.len
  have : (1:ℤ) < p.toInt := by rw [hp]; exact_mod_cast hP.1.one_lt
  obtain ⟨z, e, h, hv⟩ := mod_elt (cap := cap) cp (by omega) c f (by rw [v]; exact mul_nonneg hx.nn hy.nn)
  refine ⟨z, e, h, ?_⟩
  rw [res_emod hp hv, v]; unfold res; push_cast; ring

theorem sqrMod_pre {x : Big} (hx : Pre p x) : ∃ z, Fp.sqrMod cap x p = .ok z ∧ Elt p z ∧ res P z = res P x ^ 2 := by
  obtain ⟨z, e, h, v⟩ := mulMod_pre r cp hp hx hx
  exact ⟨z, e, h, by rw [v, sq]⟩

theorem modexp_pre {x y : Big} (hx : Pre p x) (cy : y.Canon) (ny : y.neg = false) :
    ∃ z, modexp cap x y p = .ok z ∧ Pre p z ∧ (2 ≤ val y.ws → Elt p z) ∧ res P z = res P x ^ (val y.ws) := by
  have h1 : (1:ℤ) < p.toInt := by rw [hp]; exact_mod_cast hP.1.one_lt
  rcases modexpGo_spec cap x p y.ws hx.c cp (r.Fits (by have := hx.len; omega)) cy.1 hx.nn (by omega) with ⟨-, h⟩ | ⟨er, -, h⟩ | ⟨z, e, c, f, hc, hz0, hz1, hz2, hl⟩
  · exfalso
    have := h.2
    rw [max_eq_right hx.len, r] at this; cases this
  · cases h.1
  · have hm : modexp cap x y p = .ok z := by unfold modexp modexp?; rw [ny, if_neg (by decide), e]; rfl
    refine ⟨z, hm, ⟨c, hz0, by rwa [max_eq_right hx.len] at hl⟩, fun h => ⟨c, hz0, ?_⟩, ?_⟩
    · have := hz2 h
      rwa [abs_of_pos (by omega)] at this
    · rw [hp] at hc
      unfold res
      rw [(ZMod.intCast_eq_intCast_iff _ _ _).2 hc]; push_cast; rfl

theorem jacobi_pre {x : Big} (hx : Pre p x) (h2 : P ≠ 2) : jacobi cap x p = .ok (legendreSym P x.toInt) := by
  have hodd := hP.1.eq_two_or_odd.resolve_left h2
  have : (1:ℤ) < p.toInt := by rw [hp]; exact_mod_cast hP.1.one_lt
  rw [jacobi_spec cap x p hx.c cp (r.Fits (by have := hx.len; omega)) r.fitsP (by omega) (by omega)]
  rw [jacobiSym.legendreSym.to_jacobiSym, hp]; rfl

theorem fpSqrt_pre {n : Big} (hn : Pre p n) (h3' : 3 < P) :
    ∃ z, Fp.sqrt cap n p = .ok z ∧ Elt p z ∧ (IsSquare (res P n) → res P z ^ 2 = res P n) ∧
      (¬ IsSquare (res P n) → z.toInt = 0) := by
  have h2 : P ≠ 2 := by omega
  have h1 : (1:ℤ) < p.toInt := by rw [hp]; exact_mod_cast hP.1.one_lt
  have hodd := hP.1.eq_two_or_odd.resolve_left h2
  have hpl := Canon.len_pos cp
  have h0 : (ofInt32 0).toInt = 0 := by decide
  unfold Fp.sqrt
  rw [jacobi_pre r cp hp hn h2, ok_bind]
  by_cases hl : legendreSym P n.toInt = 1
  swap
  · rw [if_pos hl]
    refine ⟨_, rfl, zero_elt (by omega), fun hs => ?_, fun _ => h0⟩
    have : res P n = 0 := by
      by_contra hne
      exact hl ((legendreSym.eq_one_iff P hne).2 hs)
    rw [this]; unfold res; rw [h0]; simp
  rw [if_neg (by simpa using hl)]
  have hn0 : res P n ≠ 0 := by
    intro h
    have := (legendreSym.eq_zero_iff P n.toInt).2 h
    rw [hl] at this; cases this
  have hsq : IsSquare (res P n) := (legendreSym.eq_one_iff P hn0).1 hl
  have heu : res P n ^ (P / 2) = 1 := (ZMod.euler_criterion P hn0).1 hsq
  obtain ⟨m4, e4, l4, -, v4⟩ := mods1_spec p 4 (by decide)
  have c4 : m4.Canon := ⟨by intro h; rw [h] at l4; simp at l4, by intro h; omega⟩
  have v4' : m4.toInt = p.toInt % 4 := by
    rw [v4, Int.tmod_eq_emod_of_nonneg (by omega)]; rfl
  simp only [e4, ok_bind]
  by_cases h3 : p.toInt % 4 = 3
  · rw [if_pos ((eqS_iff c4 3).2 (by rw [v4', h3]; rfl))]
    obtain ⟨ca, va⟩ := adds1_room r 1 cp le_rfl hpl
    obtain ⟨d, ed, cd, -, vd⟩ := divs1_spec cap (adds1 cap p 1) 4 ca (adds1_spec cap p 1 cp r.fitsP).2.1 (by decide)
    have va : (adds1 cap p 1).toInt = p.toInt + 1 := va
    rw [va, show (BitVec.toInt (4 : BitVec 32)) = 4 from rfl, Int.tdiv_eq_ediv_of_nonneg (by omega)] at vd
    simp only [ed, ok_bind]
    have nd := neg_of_toInt_pos (x := d) (by omega)
    have hv : val d.ws = (P + 1) / 4 := by
      have := toInt_of_nonneg nd; omega
    obtain ⟨z, ez, -, hz, vz⟩ := modexp_pre r cp hp hn cd nd
    refine ⟨z, ez, hz (by omega), fun _ => ?_, fun h => absurd hsq h⟩
    rw [vz, hv, ← pow_mul, show (P + 1) / 4 * 2 = P / 2 + 1 by omega, pow_succ, heu, one_mul]
  · rw [if_neg (by rw [eqS_iff c4 3, v4']; exact h3)]
    obtain ⟨cs, vs⟩ := subs1_room r 1 cp le_rfl hpl
    have vs : (subs1 cap p 1).toInt = p.toInt - 1 := vs
    have ns := neg_of_toInt_pos (x := subs1 cap p 1) (by omega)
    obtain ⟨q, s, eq, cq, nq, vq, oq, lq⟩ := countTrailingZero_spec (subs1 cap p 1) cs ns (by
      have := toInt_of_nonneg ns; omega)
    have hPs : P - 1 = 2^s * val q.ws := by
      rw [← vq]; have := toInt_of_nonneg ns; omega
    have hs1 : 1 ≤ s := by
      rcases Nat.eq_zero_or_pos s with h | h
      · rw [h, pow_zero, one_mul] at hPs; omega
      · exact h
    have hP2 : P / 2 = 2^(s-1) * val q.ws := by
      have : 2^s = 2 * 2^(s-1) := by rw [← pow_succ']; congr 1; omega
      rw [this, mul_assoc] at hPs; omega
    obtain ⟨z₀, z2, zP, hj⟩ := exists_nonres (p := p) cp hp h2
    have htwo : (ofInt32 2).toInt = 2 := by decide
    have hfuel : wordsFuel p.ws = P := by
      have : ∀ l : List Word, wordsFuel l = val l := by
        intro l; induction l with
        | nil => rfl
        | cons a l ih => rw [wordsFuel, val_cons, ih]
      rw [this]
      have := toInt_of_nonneg (neg_of_toInt_pos (x := p) (by omega)); omega
    obtain ⟨w, ew, hw, lw⟩ := findNonRes_spec r cp hp h2 z₀ zP hj (wordsFuel p.ws) (ofInt32 2)
      ⟨by decide, by rw [htwo]; omega, by rw [htwo]; omega⟩ (by omega) (by omega)
    obtain ⟨c, ec, hc, vc⟩ := modexp_elt r cp hp hw cq nq
    have lsub : (subs1 cap p 1).ws.length ≤ p.ws.length := len_le_of_abs cs cp (by
      rw [vs, abs_of_nonneg (by omega), abs_of_nonneg (by omega)]; omega)
    obtain ⟨cq1, vq1⟩ := subs1_room r 1 cq (le_trans lq lsub) hpl
    have vq1 : (subs1 cap q 1).toInt = q.toInt - 1 := vq1
    obtain ⟨d, ed, cd, -, vd⟩ := divs1_spec cap (subs1 cap q 1) 2 cq1 (subs1_spec cap q 1 cq (r.Fits (by omega))).2.1 (by decide)
    have hq := toInt_of_nonneg nq
    rw [vq1, show (BitVec.toInt (2 : BitVec 32)) = 2 from rfl, Int.tdiv_eq_ediv_of_nonneg (by omega)] at vd
    have nd : d.neg = false := by
      rcases eq_or_ne d.toInt 0 with h | h
      · exact divs1_neg cap _ 2 cq1.1 d ed h
      · exact neg_of_toInt_pos (by omega)
    obtain ⟨x, ex, hx, -, vx⟩ := modexp_pre r cp hp hn cd nd
    obtain ⟨x2, ex2, hx2, vx2⟩ := sqrMod_pre r cp hp hx
    obtain ⟨t, et, ht, vt⟩ := mulMod_pre r cp hp (hx2.pre cp) hn
    obtain ⟨y, ey, hy, vy⟩ := mulMod_pre r cp hp hn hx
    simp only [eq, ew, ec, ed, ex, ex2, et, ey, ok_bind]
    have hdv : 2 * val d.ws + 1 = val q.ws := by
      have := toInt_of_nonneg nd; omega
    have ht' : res P t = res P n ^ val q.ws := by
      rw [vt, vx2, vx, ← hdv, pow_succ]; ring
    obtain ⟨z, ez, hz, vz⟩ := tonelli_spec r cp hp (res P n) (s+1) s c y t hc hy ht hs1 (by omega)
      (by rw [ht', vy, vx, ← hdv]; ring)
      (by
        rw [vc, ← pow_mul, mul_comm, ← hP2]
        have := legendreSym.eq_pow P w.toInt
        rw [lw] at this
        unfold res
        rw [← this]; norm_num)
      (by rw [ht', ← pow_mul, mul_comm, ← hP2]; exact heu)
    exact ⟨z, ez, hz, fun _ => vz, fun h => absurd hsq h⟩

end

section
variable {P : ℕ} [Fact P.Prime] {cap : Cap} {C : Curve}

/-- An element whose value need not be reduced. -/
structure PreRep (P : ℕ) (p : Big) (a : Fe) (x : ZMod P) : Prop where
  pm : a.pm = some p
  pre : Pre p a.v
  val : res P a.v = x

omit [Fact P.Prime] in
theorem PreRep.deref {p : Big} {a : Fe} {x : ZMod P} (h : PreRep P p a x) : a.deref = .ok p := by unfold Fe.deref; rw [h.pm]

theorem PreRep.one {p : Big} {a : Fe} {x : ZMod P} (M : Mod cap p P) (h : PreRep P p a x) (h1 : a.v.isOne = true) : Rep P p a x ∧ x = 1 := by
  have e := (isOne_iff h.pre.c).1 h1
  have := M.gt
  have := M.eq
  refine ⟨⟨h.pm, ⟨h.pre.c, h.pre.nn, by omega⟩, h.val⟩, ?_⟩
  rw [← h.val]; unfold res; rw [e]; simp

theorem PreRep.sqr {p : Big} (M : Mod cap p P) {a : Fe} {x : ZMod P} (h : PreRep P p a x) : ∃ c, Fe.sqr cap a = .ok c ∧ Rep P p c (x ^ 2) := by
  unfold Fe.sqr
  by_cases h1 : a.v.isOne = true
  · rw [if_pos h1]
    obtain ⟨r, e⟩ := h.one M h1
    exact ⟨a, rfl, by rw [e] at r ⊢; rwa [one_pow]⟩
  rw [if_neg h1, h.deref, ok_bind]
  obtain ⟨z, e, hz, v⟩ := mulMod_pre M.room M.canon M.eq h.pre h.pre
  refine ⟨⟨z, some p⟩, by unfold Fp.sqr; rw [show Fp.mul cap a.v a.v p = .ok z from e]; rfl, rfl, hz, ?_⟩
  rw [v, h.val, sq]

theorem Rep.mulPre {p : Big} (M : Mod cap p P) {a b : Fe} {x y : ZMod P} (h : Rep P p a x) (h' : PreRep P p b y) :
    ∃ c, Fe.mul cap a b = .ok c ∧ PreRep P p c (x * y) := by
  unfold Fe.mul Fe.mulB
  by_cases h1 : a.v.isOne = true
  · rw [if_pos h1, h.deref, ok_bind]
    exact ⟨_, rfl, rfl, h'.pre, by rw [(h.vOne_iff M).1 h1, one_mul]; exact h'.val⟩
  rw [if_neg h1]
  by_cases h2 : b.v.isOne = true
  · rw [if_pos h2]
    exact ⟨a, rfl, h.pm, h.elt.pre M.canon, by rw [(h'.one M h2).2, mul_one]; exact h.val⟩
  rw [if_neg h2, h.deref, ok_bind]
  obtain ⟨z, e, hz, v⟩ := mulMod_pre M.room M.canon M.eq (h.elt.pre M.canon) h'.pre
  refine ⟨⟨z, some p⟩, by rw [show Fp.mul cap a.v b.v p = .ok z from e]; rfl, rfl, hz.pre M.canon, ?_⟩
  show res P z = _
  rw [v, h.val, h'.val]

theorem PreRep.addB {p : Big} (M : Mod cap p P) {a : Fe} {b : Big} {x : ZMod P} (h : PreRep P p a x) (hb : Elt p b) :
    ∃ c, Fe.addB cap a b = .ok c ∧ PreRep P p c (x + res P b) := by
  have hpl := Canon.len_pos M.canon
  obtain ⟨c, v⟩ := add_room M.room h.pre.c hb.c h.pre.len (hb.len M.canon) hpl
  have h1 := h.pre.nn; have h2 := hb.nn; have h3 := hb.lt; have h4 := M.eq; have h5 := M.gt
  refine ⟨⟨Fp.add cap a.v b p, some p⟩, by unfold Fe.addB; rw [h.deref]; rfl, ?_⟩
  unfold Fp.add Fp.addFin
  by_cases hg : p.toInt ≤ (Big.add cap a.v b).toInt
  · rw [if_pos ((opGe_iff c M.canon).2 hg)]
    obtain ⟨c2, f, h3'⟩ := sub_spec cap _ p c M.canon (add_spec cap a.v b h.pre.c hb.c (M.room.Fits (by have := h.pre.len; omega)) (hb.fits M.room M.canon)).2.1 M.room.fitsP
    have v2 : (Big.sub cap (Big.add cap a.v b) p).toInt = (Big.add cap a.v b).toInt - p.toInt := by
      rcases h3' with h3' | ⟨-, h3', -⟩
      · exact h3'
      · exfalso
        rw [neg_of_toInt_pos (by omega), neg_of_toInt_pos (x := p) (by omega)] at h3'; cases h3'
    refine ⟨rfl, ⟨c2, by show 0 ≤ _; rw [v2]; omega, ?_⟩, ?_⟩
    · refine le_trans (len_le_of_abs c2 h.pre.c ?_) h.pre.len
      rw [abs_of_nonneg (by rw [v2]; omega), abs_of_nonneg h1, v2, v]; omega
    · show res P _ = _
      rw [← h.val]; unfold res; rw [v2, v, M.eq]; push_cast; simp
  · rw [if_neg (by rw [opGe_iff c M.canon]; exact hg)]
    refine ⟨rfl, Elt.pre (a := Big.add cap a.v b) M.canon ⟨c, by omega, by omega⟩, ?_⟩
    show res P _ = _
    rw [← h.val]; unfold res; rw [v]; push_cast; rfl

theorem PreRep.sqrt {p : Big} (M : Mod cap p P) {a : Fe} {x : ZMod P} (h : PreRep P p a x) (h3 : 3 < P) :
    ∃ c y, Fe.sqrt cap a = .ok c ∧ Rep P p c y ∧ (IsSquare x → y ^ 2 = x) ∧ (¬ IsSquare x → y = 0) := by
  unfold Fe.sqrt
  by_cases h1 : a.v.isOne = true
  · rw [if_pos h1]
    obtain ⟨r, e⟩ := h.one M h1
    exact ⟨a, x, rfl, r, fun _ => by rw [e, one_pow], fun hs => absurd (by rw [e]; exact IsSquare.one) hs⟩
  rw [if_neg h1, h.deref, ok_bind]
  obtain ⟨z, e, hz, v, v'⟩ := fpSqrt_pre M.room M.canon M.eq h.pre h3
  rw [h.val] at v v'
  exact ⟨⟨z, some p⟩, res P z, by rw [e]; rfl, Rep.mk' hz, v, fun hs => (res_eq_zero_iff M hz).2 (v' hs)⟩

/-- `compute_y` on an x-coordinate that need not be reduced. -/
theorem computeY_pre (K : CurveOk P cap C) {x : Fe} {X : ZMod P} (hx : PreRep P C.p x X) (odd : Bool) :
    ∃ y Y, Curve.computeY cap C x odd = .ok y ∧ Rep P C.p y Y ∧
      (IsSquare (X ^ 3 + res P C.a * X + res P C.b) → Y ^ 2 = X ^ 3 + res P C.a * X + res P C.b) ∧
      (¬ IsSquare (X ^ 3 + res P C.a * X + res P C.b) → Y = 0) ∧ (Y ≠ 0 → (Y.val % 2 = 1 ↔ odd = true)) := by
  unfold Curve.computeY
  obtain ⟨x2, e1, r1⟩ := hx.sqr K.M
  obtain ⟨t, e2, r2⟩ := r1.addB K.M K.a
  obtain ⟨t2, e3, r3⟩ := r2.mulPre K.M hx
  obtain ⟨t3, e4, r4⟩ := r3.addB K.M K.b
  rw [e1, ok_bind, e2, ok_bind, e3, ok_bind, e4, ok_bind]
  rw [show (X ^ 2 + res P C.a) * X + res P C.b = X ^ 3 + res P C.a * X + res P C.b by ring] at r4
  obtain ⟨y, Y, e, hy, h1, h2⟩ := r4.sqrt K.M K.gt3
  rw [e, ok_bind, hy.bit0 K.M]
  by_cases ho : (odd != decide (Y.val % 2 = 1)) = true
  · rw [if_pos ho]
    obtain ⟨c, e2, hc⟩ := hy.neg K.M
    refine ⟨c, -Y, e2, hc, fun h => by rw [neg_sq]; exact h1 h, fun h => by rw [h2 h, neg_zero], fun h => ?_⟩
    rw [val_neg_parity K.odd (neg_ne_zero.1 h)]
    cases odd <;> simp at ho ⊢ <;> exact ho
  · rw [if_neg ho]
    refine ⟨y, Y, rfl, hy, h1, h2, fun h => ?_⟩
    cases odd <;> simp at ho ⊢ <;> exact ho

theorem decompress_pre (K : CurveOk P cap C) {x : Fe} {X : ZMod P} (hx : PreRep P C.p x X) (odd : Bool) :
    ((∃ y : ZMod P, y ≠ 0 ∧ y ^ 2 = X ^ 3 + res P C.a * X + res P C.b) →
      ∃ y Y, Curve.decompress cap C x odd = .ok ⟨some C, x, y⟩ ∧ Rep P C.p y Y ∧ Y ^ 2 = X ^ 3 + res P C.a * X + res P C.b ∧
        Y ≠ 0 ∧ (Y.val % 2 = 1 ↔ odd = true)) ∧
    ((¬ ∃ y : ZMod P, y ≠ 0 ∧ y ^ 2 = X ^ 3 + res P C.a * X + res P C.b) → Curve.decompress cap C x odd = .ok APt.identity) := by
  unfold Curve.decompress
  obtain ⟨y, Y, e, hy, h1, h2, h3⟩ := computeY_pre K hx odd
  rw [e, ok_bind]
  by_cases h0 : Y = 0
  · rw [if_pos ((hy.isZero_iff K.M).2 h0)]
    refine ⟨?_, fun _ => rfl⟩
    rintro ⟨y', hy0, hy'⟩
    have := h1 ⟨y', by rw [← hy', sq]⟩
    rw [← hy', h0] at this
    exact absurd (by simpa using this.symm) hy0
  · rw [if_neg (by rw [hy.isZero_iff K.M]; exact h0)]
    have hs : IsSquare (X ^ 3 + res P C.a * X + res P C.b) := by
      by_contra hc; exact h0 (h2 hc)
    exact ⟨fun _ => ⟨y, Y, rfl, hy, h1 hs, h0, h3 h0⟩, fun hc => absurd ⟨Y, h0, h1 hs⟩ hc⟩

/-- The coordinate of a compressed encoding, reduced or not. -/
theorem decode_compressed_pre (K : CurveOk P cap C) {x : List Byte} (hx : x.length = C.p.byteLength) (odd : Bool) :
    ∃ bx, Curve.decode cap C ((if odd then 3 else 2) :: x) = Curve.decompress cap C ⟨bx, some C.p⟩ odd ∧ bx.toInt = beVal x ∧
      PreRep P C.p ⟨bx, some C.p⟩ ((beVal x : ℕ) : ZMod P) := by
  have h1 := wordSize_byteLength K.M.canon
  have hp := List.length_pos_iff.2 K.M.canon.1
  obtain ⟨bx, ex, cx, -, nx, vx⟩ := setBytes_spec cap x (fits_mono K.M.room (by unfold wordSize at *; omega)) (fits_mono K.M.room (by omega))
  have ex : ofBytes cap x = .ok bx := by unfold ofBytes; rw [ex]
  have hl : bx.ws.length ≤ C.p.ws.length := by
    have hb : beVal x < 256 ^ x.length := beVal_lt x
    have hv : val bx.ws < B C.p.ws.length := by
      have h2 := toInt_of_nonneg nx
      have h3 : val bx.ws = beVal x := by omega
      rw [h3]
      refine lt_of_lt_of_le hb ?_
      rw [hx, B_eq, show (256:ℕ) = 2 ^ 8 by norm_num, ← pow_mul]
      refine Nat.pow_le_pow_right (by omega) ?_
      unfold wordSize at h1; omega
    by_contra hc
    have h5 := cx.w.ge (by omega)
    have h6 : B C.p.ws.length ≤ B (bx.ws.length - 1) := by
      rw [B_eq, B_eq]; exact Nat.pow_le_pow_right (by omega) (by omega)
    omega
  refine ⟨bx, ?_, vx, rfl, ⟨cx, by show 0 ≤ bx.toInt; omega, hl⟩, ?_⟩
  · have e2 : x.take C.p.byteLength = x := by rw [← hx, List.take_length]
    rw [decode_cons, e2, ex, hx]
    cases odd with
    | false =>
      rw [if_neg (show ¬ (false = true) by simp), check_true (b := _ && _) (by decide), ok_bind, if_pos (by decide), check_true (by simp)]
      rfl
    | true =>
      rw [if_pos rfl, check_true (b := _ && _) (by decide), ok_bind, if_pos (by decide), check_true (by simp)]
      rfl
  · show res P bx = _
    unfold res; rw [vx]; simp

end
end Ack
