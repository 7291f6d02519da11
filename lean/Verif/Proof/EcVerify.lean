import Verif.Proof.EcCode
/-!
# The validity check of curve objects
-/
namespace Ack
open Big WeierstrassCurve

section
variable {P : ℕ} [Fact P.Prime] {cap : Cap} {p : Big}

/-- Multiplication by a literal that need not be below the modulus. -/
theorem Rep.mulS_any (M : Mod cap p P) {a : Fe} {x : ZMod P} (h : Rep P p a x) {k : BitVec 32} (h0 : 0 ≤ k.toInt) :
    ∃ c, Fe.mulS cap a k = .ok c ∧ c.pm = some p ∧ c.v.Canon ∧ 0 ≤ c.v.toInt ∧ res P c.v = (k.toInt : ZMod P) * x ∧
      c.v.ws.length ≤ p.ws.length := by
  unfold Fe.mulS
  have hpl := Canon.len_pos M.canon
  by_cases h1 : a.v.isOne = true
  · rw [if_pos h1, h.deref, ok_bind]
    refine ⟨_, rfl, rfl, ⟨by simp [ofInt32], by simp [ofInt32]⟩, by rw [ofInt32_toInt]; exact h0, ?_, by simp [ofInt32]; omega⟩
    rw [(h.vOne_iff M).1 h1, mul_one, res_int]
  rw [if_neg h1]
  by_cases h2 : k = 1
  · rw [if_pos h2]
    exact ⟨a, rfl, h.pm, h.elt.c, h.elt.nn, by subst h2; simpa using h.val, h.elt.len M.canon⟩
  rw [if_neg h2, h.deref, ok_bind]
  obtain ⟨z, e, hz, v⟩ := fpMulS_spec M.room M.canon h.elt h0
  refine ⟨⟨z, some p⟩, by rw [e]; rfl, rfl, hz.c, hz.nn, ?_, hz.len M.canon⟩
  rw [res_emod M.eq v, ← h.val]; unfold res; push_cast; ring

/-- Addition of an operand that need not be below the modulus: congruent result. -/
theorem Rep.add_any (M : Mod cap p P) {a b : Fe} {x y : ZMod P} (h : Rep P p a x) (cb : b.v.Canon) (nb : 0 ≤ b.v.toInt)
    (hb : res P b.v = y) (lb : b.v.ws.length ≤ p.ws.length) :
    ∃ c, Fe.add cap a b = .ok c ∧ c.pm = some p ∧ c.v.Canon ∧ 0 ≤ c.v.toInt ∧ res P c.v = x + y ∧
      c.v.ws.length ≤ p.ws.length := by
  unfold Fe.add Fe.addB
  rw [h.deref, ok_bind]
  have hpl := Canon.len_pos M.canon
  have ha := h.elt
  obtain ⟨c, v⟩ := add_room M.room ha.c cb (ha.len M.canon) lb hpl
  refine ⟨_, rfl, rfl, ?_⟩
  have := ha.nn; have := ha.lt
  have hres : res P (Big.add cap a.v b.v) = x + y := by rw [← h.val, ← hb]; unfold res; rw [v]; push_cast; rfl
  show (Fp.add cap a.v b.v p).Canon ∧ 0 ≤ (Fp.add cap a.v b.v p).toInt ∧ res P (Fp.add cap a.v b.v p) = _ ∧ (Fp.add cap a.v b.v p).ws.length ≤ _
  unfold Fp.add Fp.addFin
  by_cases hge : p.toInt ≤ (Big.add cap a.v b.v).toInt
  · rw [if_pos ((opGe_iff c M.canon).2 hge)]
    obtain ⟨-, fs, -⟩ := add_spec cap a.v b.v ha.c cb (M.room.Fits (by have := ha.len M.canon; omega)) (M.room.Fits (by omega))
    obtain ⟨c', -, h'⟩ := sub_spec cap (Big.add cap a.v b.v) p c M.canon fs M.room.fitsP
    have hv : (Big.sub cap (Big.add cap a.v b.v) p).toInt = (Big.add cap a.v b.v).toInt - p.toInt := by
      rcases h' with h' | ⟨-, h', -⟩
      · exact h'
      · exfalso
        have h1 := (neg_of_toInt_pos (x := Big.add cap a.v b.v) (by omega))
        have h2 := (neg_of_toInt_pos (x := p) (by omega))
        simp_all
    refine ⟨c', by rw [hv]; omega, ?_, ?_⟩
    · rw [← hres]; unfold res; rw [hv, M.eq]; push_cast; simp
    · have := CanonW.length_le (y := b.v.ws) c'
      refine le_trans (len_le_of_abs c' cb ?_) lb
      rw [hv, v, abs_of_nonneg (by omega), abs_of_nonneg nb]; omega
  · rw [if_neg (by rw [opGe_iff c M.canon]; exact hge)]
    exact ⟨c, by omega, hres, len_le_of_abs c M.canon (by rw [abs_of_nonneg (by omega), abs_of_nonneg (by omega)]; omega)⟩

/-- The comparison of a negative multiple with zero. -/
theorem neg16_zero (M : Mod cap p P) (hP : 3 < P) {a : Fe} {x : ZMod P} (hm : a.pm = some p) (ca : a.v.Canon) (na : 0 ≤ a.v.toInt)
    (ha : res P a.v = x) (la : a.v.ws.length ≤ p.ws.length) :
    ∃ c, Fe.mulS cap a (-16) = .ok c ∧ (Fe.eqS c 0 = true ↔ x = 0) := by
  have hprime : P.Prime := Fact.out
  have hd : a.deref = .ok p := by unfold Fe.deref; rw [hm]
  unfold Fe.mulS
  by_cases h1 : a.v.isOne = true
  · rw [if_pos h1, hd, ok_bind]
    refine ⟨_, rfl, ?_⟩
    have hx : x = 1 := by rw [← ha]; unfold res; rw [(Big.isOne_iff ca).1 h1]; simp
    haveI := Fact.mk hprime
    rw [hx]
    simp only [one_ne_zero, iff_false]
    show ¬ Big.eqS (ofInt32 (-16)) 0 = true
    decide
  · rw [if_neg h1, if_neg (by decide), hd, ok_bind]
    obtain ⟨c, f, v⟩ := muls1_room M.room (-16) ca la (Canon.len_pos M.canon)
    have hp0 : p.toInt ≠ 0 := by have := M.one_lt; omega
    obtain ⟨z, e, cz, -, vz, -⟩ := mod_spec cap _ p c M.canon f hp0
    unfold Fp.mulS
    rw [e]
    refine ⟨_, rfl, ?_⟩
    show Big.eqS z 0 = true ↔ _
    rw [eqS_iff cz, vz, v, M.eq, ← ha]
    have e16 : (-16 : BitVec 32).toInt = -16 := by decide
    rw [e16]
    unfold res
    rw [ZMod.intCast_zmod_eq_zero_iff_dvd]
    show Int.tmod _ _ = 0 ↔ _
    rw [← Int.dvd_iff_tmod_eq_zero]
    have hpi := Nat.prime_iff_prime_int.1 hprime
    constructor
    · intro hdv
      rcases hpi.dvd_or_dvd hdv with h | h
      · exact h
      · exfalso
        rw [dvd_neg, show (16:ℤ) = 2 ^ 4 by norm_num] at h
        have := Int.le_of_dvd (by norm_num) (hpi.dvd_of_dvd_pow h)
        omega
    · intro h; exact Dvd.dvd.mul_right h _

omit [Fact P.Prime] in
theorem gtU_iff (M : Mod cap p P) (h : Word) : gtU p h = true ↔ h.toNat < P := by
  have hp := M.one_lt
  have e := M.eq
  unfold gtU
  rw [compareu1_spec M.canon h (by intro _; left; omega)]
  generalize p.toInt = v at *
  split
  · simp; omega
  · split <;> simp <;> omega

theorem verify_spec {C : Curve} (M : Mod cap C.p P) (ca : C.a.Canon) (cb : C.b.Canon) (cn : C.n.Canon) (fn : Big.Fits cap C.n)
    (hb : C.b.toInt ≠ 0) (gx : Rep P C.p C.gx (res P C.gx.v)) (gy : Rep P C.p C.gy (res P C.gy.v))
    (m3 : C.aIsMinus3 = true → res P C.a = -3) (z : C.aIsZero = true → res P C.a = 0) :
    ∃ r, C.verify cap = .ok r ∧ (r = true ↔ 3 < P ∧ 0 < C.n.toInt ∧ (0 ≤ C.a.toInt ∧ C.a.toInt < P) ∧
      (0 ≤ C.b.toInt ∧ C.b.toInt < P) ∧ 4 * res P C.a ^ 3 + 27 * res P C.b ^ 2 ≠ 0 ∧
      (∃ Q : C.Pt P, C.g.Rep C Q ∧ Q ≠ 0 ∧ C.n.toInt • Q = 0) ∧ 1 ≤ C.h.toNat ∧ C.h.toNat < P ∧
      C.n.toInt * C.h.toNat ≠ P - 1) := by
  have hcp := M.canon
  have hone := M.gt
  have h3' : (3 : BitVec 32).toInt = 3 := by decide
  have h0' : (0 : BitVec 32).toInt = 0 := by decide
  unfold Curve.verify
  by_cases h1 : 3 < P ∧ 0 < C.n.toInt
  case neg =>
    rw [if_pos]
    · exact ⟨false, rfl, by simp only [Bool.false_eq_true, false_iff]; exact fun h => h1 ⟨h.1, h.2.1⟩⟩
    · rw [Bool.or_eq_true, Bool.not_eq_true', Bool.not_eq_true', ← Bool.not_eq_true, ← Bool.not_eq_true, gtS_iff hcp, gtS_iff cn,
        h3', h0', M.eq]
      by_contra hh; push Not at hh; exact h1 ⟨by exact_mod_cast hh.1, hh.2⟩
  rw [if_neg (by
    rw [Bool.or_eq_true, Bool.not_eq_true', Bool.not_eq_true', ← Bool.not_eq_true, ← Bool.not_eq_true, gtS_iff hcp, gtS_iff cn,
        h3', h0', M.eq]
    have := h1.1; omega)]
  by_cases h2 : 0 ≤ C.a.toInt ∧ C.a.toInt < P
  case neg =>
    rw [if_pos]
    · exact ⟨false, rfl, by simp only [Bool.false_eq_true, false_iff]; exact fun h => h2 h.2.2.1⟩
    · rw [Bool.or_eq_true, isNegative_iff ca, opGe_iff ca hcp, M.eq]; omega
  rw [if_neg (by rw [Bool.or_eq_true, isNegative_iff ca, opGe_iff ca hcp, M.eq]; omega)]
  by_cases h3 : 0 ≤ C.b.toInt ∧ C.b.toInt < P
  case neg =>
    rw [if_pos]
    · exact ⟨false, rfl, by simp only [Bool.false_eq_true, false_iff]; exact fun h => h3 h.2.2.2.1⟩
    · rw [Bool.or_eq_true, isNegative_iff cb, opGe_iff cb hcp, M.eq]; omega
  rw [if_neg (by rw [Bool.or_eq_true, isNegative_iff cb, opGe_iff cb hcp, M.eq]; omega)]
  have ea : Elt C.p C.a := ⟨ca, h2.1, by rw [M.eq]; exact h2.2⟩
  have eb : Elt C.p C.b := ⟨cb, h3.1, by rw [M.eq]; exact h3.2⟩
  have ra : Rep P C.p ⟨C.a, some C.p⟩ (res P C.a) := ⟨rfl, ea, rfl⟩
  have rb : Rep P C.p ⟨C.b, some C.p⟩ (res P C.b) := ⟨rfl, eb, rfl⟩
  dsimp only
  step a2 ha2 := ra.sqr M
  have k4 : (4 : BitVec 32).toInt = 4 := by decide
  have k27 : (27 : BitVec 32).toInt = 27 := by decide
  step a4 ha4 := ha2.mulS M (k := 4) (by decide) (by
    rw [k4]
    have h4 : P ≠ 4 := by rintro rfl; exact absurd (Fact.out : Nat.Prime 4) (by decide)
    have := h1.1; omega)
  step a3 ha3 := ha4.mul M ra
  step b2 hb2 := rb.sqr M
  obtain ⟨b27, e, pb, cb27, nb27, rb27, lb27⟩ := hb2.mulS_any M (k := 27) (by decide)
  rw [e, ok_bind]; clear e
  obtain ⟨y2, e, py, cy, ny, ry, ly⟩ := ha3.add_any M cb27 nb27 rb27 lb27
  rw [e, ok_bind]; clear e
  obtain ⟨d, e, hd⟩ := neg16_zero M h1.1 py cy ny ry ly
  rw [e, ok_bind]; clear e
  have hdisc : (((4 : BitVec 32).toInt : ZMod P) * res P C.a ^ 2) * res P C.a + ((27 : BitVec 32).toInt : ZMod P) * res P C.b ^ 2
      = 4 * res P C.a ^ 3 + 27 * res P C.b ^ 2 := by rw [k4, k27]; push_cast; ring
  rw [hdisc] at hd
  by_cases h4 : 4 * res P C.a ^ 3 + 27 * res P C.b ^ 2 = 0
  · rw [if_pos (hd.2 h4)]
    exact ⟨false, rfl, by simp only [Bool.false_eq_true, false_iff]; exact fun h => h.2.2.2.2.1 h4⟩
  rw [if_neg (by rw [hd]; exact h4)]
  have b0 : res P C.b ≠ 0 := by rw [Ne, res_eq_zero_iff M eb]; exact hb
  have K : CurveOk P cap C := ⟨M, h1.1, ea, eb, b0, h4, m3, z⟩
  obtain ⟨gv, e, hgv⟩ := APt.isValid_spec K cn (q := C.g) rfl gx gy
  rw [e, ok_bind]; clear e
  by_cases h5 : gv = true
  case neg =>
    rw [if_pos (by simpa using h5)]
    exact ⟨false, rfl, by simp only [Bool.false_eq_true, false_iff]; exact fun h => h5 (hgv.2 h.2.2.2.2.2.1)⟩
  rw [if_neg (by simpa using h5)]
  have hgt := gtU_iff M C.h
  by_cases h6 : 1 ≤ C.h.toNat ∧ C.h.toNat < P
  case neg =>
    rw [if_pos]
    · exact ⟨false, rfl, by simp only [Bool.false_eq_true, false_iff]; exact fun h => h6 ⟨h.2.2.2.2.2.2.1, h.2.2.2.2.2.2.2.1⟩⟩
    · rw [Bool.or_eq_true, Bool.not_eq_true', ← Bool.not_eq_true, hgt, decide_eq_true_iff]; omega
  rw [if_neg (by rw [Bool.or_eq_true, Bool.not_eq_true', ← Bool.not_eq_true, hgt, decide_eq_true_iff]; omega)]
  obtain ⟨-, cpm, vpm⟩ := byteLength_pred K
  obtain ⟨cnh, -, vnh⟩ := mulu1_spec cap C.n C.h cn fn
  have hnh : opEq (mulu1 cap C.n C.h) (subs1 cap C.p 1) = true ↔ C.n.toInt * C.h.toNat = P - 1 := by
    rw [opEq_iff cnh cpm, vpm]
    rcases vnh with v | ⟨v, hf⟩
    · rw [v]
    · rw [v]
      have := h1.1
      constructor
      · intro; omega
      · intro hh
        exfalso
        have hle : C.n.toInt ≤ P := by nlinarith [h6.1, h1.2]
        have : C.n.ws.length ≤ C.p.ws.length := len_le_of_abs cn hcp (by rw [M.eq, abs_of_nonneg h1.2.le, abs_of_nonneg (by omega)]; exact hle)
        have := Canon.len_pos hcp
        rw [M.room.fits (by omega)] at hf; cases hf
  by_cases h7 : C.n.toInt * C.h.toNat = P - 1
  · rw [if_pos (hnh.2 h7)]
    exact ⟨false, rfl, by simp only [Bool.false_eq_true, false_iff]; exact fun h => h.2.2.2.2.2.2.2.2 h7⟩
  · rw [if_neg (by rw [hnh]; exact h7)]
    exact ⟨true, rfl, by simp only [true_iff]; exact ⟨h1.1, h1.2, h2, h3, h4, hgv.1 h5, h6.1, h6.2, h7⟩⟩

end
end Ack
