import Verif.Proof.FpSqrt
import Verif.Proof.BigBytes
/-!
# Field elements represent residues
-/
namespace Ack
open Big

theorem Mod.one_lt {cap : Cap} {p : Big} {P : ℕ} (M : Mod cap p P) : (1:ℤ) < p.toInt := by
  rw [M.eq]; exact_mod_cast M.gt

theorem Rep.mk' {P : ℕ} {p : Big} {v : Big} (h : Elt p v) : Rep P p ⟨v, some p⟩ (res P v) := ⟨rfl, h, rfl⟩

section
variable {cap : Cap} {p : Big} {P : ℕ} (M : Mod cap p P)
include M

theorem elt_int {k : BitVec 32} (h0 : 0 ≤ k.toInt) (h1 : k.toInt < P) : Elt p (ofInt32 k) :=
  ⟨⟨by simp [ofInt32], by simp [ofInt32]⟩, by rw [ofInt32_toInt]; exact h0, by rw [ofInt32_toInt, M.eq]; exact h1⟩

omit M in
theorem res_int (k : BitVec 32) : res P (ofInt32 k) = ((k.toInt : ℤ) : ZMod P) := by unfold res; rw [ofInt32_toInt]

theorem Rep.isOne_iff {a : Fe} {x : ZMod P} (h : Rep P p a x) : a.isOne = true ↔ x = 1 := by
  unfold Fe.isOne
  rw [Big.isOne_iff h.elt.c, ← h.val, ← res_one, res_inj M.eq h.elt (one_elt M.one_lt), one_toInt]

theorem Rep.vOne_iff {a : Fe} {x : ZMod P} (h : Rep P p a x) : a.v.isOne = true ↔ x = 1 := h.isOne_iff M

theorem res_eq_zero_iff {v : Big} (h : Elt p v) : res P v = 0 ↔ v.toInt = 0 := by
  have h0 : res P (ofInt32 0) = 0 := by rw [res_int]; simp
  rw [← h0, res_inj M.eq h (zero_elt (by have := M.one_lt; omega))]
  rw [ofInt32_toInt]; simp

theorem Rep.isZero_iff {a : Fe} {x : ZMod P} (h : Rep P p a x) : a.isZero = true ↔ x = 0 := by
  have hp := M.one_lt
  have c := M.canon
  have e1 : p.isZero = false := by rw [← Bool.not_eq_true, Big.isZero_iff c]; omega
  have e2 : p.isOne = false := by rw [← Bool.not_eq_true, Big.isOne_iff c]; omega
  unfold Fe.isZero
  rw [h.pm]
  simp only [e1, e2, Bool.false_or, Bool.and_eq_true, Bool.not_eq_true']
  rw [← Bool.not_eq_true, Big.isOne_iff h.elt.c, Big.isZero_iff h.elt.c, ← h.val, res_eq_zero_iff M h.elt]
  omega

theorem Rep.eq_iff {a b : Fe} {x y : ZMod P} (h : Rep P p a x) (h' : Rep P p b y) : Fe.eq a b = true ↔ x = y := by
  unfold Fe.eq
  rw [opEq_iff h.elt.c h'.elt.c, ← res_inj M.eq h.elt h'.elt, h.val, h'.val]

theorem Rep.eqS_zero_iff {a : Fe} {x : ZMod P} (h : Rep P p a x) : Fe.eqS a 0 = true ↔ x = 0 := by
  unfold Fe.eqS
  rw [eqS_iff h.elt.c, ← h.val, res_eq_zero_iff M h.elt]; simp

theorem Rep.isValid {a : Fe} {x : ZMod P} (h : Rep P p a x) : a.isValid = true := by
  unfold Fe.isValid; rw [h.pm]
  exact (fp_isValid_iff h.elt.c M.canon).2 ⟨h.elt.nn, h.elt.lt⟩

omit M in
theorem Rep.deref {a : Fe} {x : ZMod P} (h : Rep P p a x) : a.deref = .ok p := by unfold Fe.deref; rw [h.pm]

theorem Rep.addB {a : Fe} {b : Big} {x : ZMod P} (h : Rep P p a x) (hb : Elt p b) :
    ∃ c, Fe.addB cap a b = .ok c ∧ Rep P p c (x + res P b) := by
  obtain ⟨e, v⟩ := fpAdd_spec M.room M.canon h.elt hb
  refine ⟨⟨Fp.add cap a.v b p, some p⟩, by unfold Fe.addB; rw [h.deref]; rfl, rfl, e, ?_⟩
  rw [res_emod M.eq v, ← h.val]; unfold res; push_cast; rfl

theorem Rep.add {a b : Fe} {x y : ZMod P} (h : Rep P p a x) (h' : Rep P p b y) :
    ∃ c, Fe.add cap a b = .ok c ∧ Rep P p c (x + y) := by
  have := h.addB M h'.elt
  rwa [h'.val] at this

theorem Rep.addS {a : Fe} {x : ZMod P} (h : Rep P p a x) {k : BitVec 32} (h0 : 0 ≤ k.toInt) (h1 : k.toInt < P) :
    ∃ c, Fe.addS cap a k = .ok c ∧ Rep P p c (x + (k.toInt : ZMod P)) := by
  obtain ⟨e, v⟩ := fpAddS_spec M.room M.canon h.elt h0 (by rw [M.eq]; exact h1)
  refine ⟨⟨Fp.addS cap a.v k p, some p⟩, by unfold Fe.addS; rw [h.deref]; rfl, rfl, e, ?_⟩
  rw [res_emod M.eq v, ← h.val]; unfold res; push_cast; rfl

theorem Rep.subB {a : Fe} {b : Big} {x : ZMod P} (h : Rep P p a x) (hb : Elt p b) :
    ∃ c, Fe.subB cap a b = .ok c ∧ Rep P p c (x - res P b) := by
  obtain ⟨e, v⟩ := fpSub_spec M.room M.canon h.elt hb
  refine ⟨⟨Fp.sub cap a.v b p, some p⟩, by unfold Fe.subB; rw [h.deref]; rfl, rfl, e, ?_⟩
  rw [res_emod M.eq v, ← h.val]; unfold res; push_cast; rfl

theorem Rep.sub {a b : Fe} {x y : ZMod P} (h : Rep P p a x) (h' : Rep P p b y) :
    ∃ c, Fe.sub cap a b = .ok c ∧ Rep P p c (x - y) := by
  have := h.subB M h'.elt
  rwa [h'.val] at this

theorem Rep.subS {a : Fe} {x : ZMod P} (h : Rep P p a x) {k : BitVec 32} (h0 : 0 ≤ k.toInt) (h1 : k.toInt < P) :
    ∃ c, Fe.subS cap a k = .ok c ∧ Rep P p c (x - (k.toInt : ZMod P)) := by
  obtain ⟨e, v⟩ := fpSubS_spec M.room M.canon h.elt h0 (by rw [M.eq]; exact h1)
  refine ⟨⟨Fp.subS cap a.v k p, some p⟩, by unfold Fe.subS; rw [h.deref]; rfl, rfl, e, ?_⟩
  rw [res_emod M.eq v, ← h.val]; unfold res; push_cast; rfl

theorem Rep.neg {a : Fe} {x : ZMod P} (h : Rep P p a x) : ∃ c, Fe.neg cap a = .ok c ∧ Rep P p c (-x) := by
  obtain ⟨e, v⟩ := fpNeg_spec M.room M.canon h.elt
  refine ⟨⟨Fp.neg cap a.v p, some p⟩, by unfold Fe.neg; rw [h.deref]; rfl, rfl, e, ?_⟩
  rw [res_emod M.eq v, ← h.val]; unfold res; push_cast; rfl

theorem Rep.mulB {a : Fe} {b : Big} {x : ZMod P} (h : Rep P p a x) (hb : Elt p b) :
    ∃ c, Fe.mulB cap a b = .ok c ∧ Rep P p c (x * res P b) := by
  unfold Fe.mulB
  by_cases h1 : a.v.isOne = true
  · rw [if_pos h1, h.deref, ok_bind]
    exact ⟨_, rfl, rfl, hb, by rw [(h.vOne_iff M).1 h1, one_mul]⟩
  rw [if_neg h1]
  by_cases h2 : b.isOne = true
  · rw [if_pos h2]
    have : res P b = 1 := by rw [← res_one, res_inj M.eq hb (one_elt M.one_lt), one_toInt]; exact (Big.isOne_iff hb.c).1 h2
    exact ⟨a, rfl, by rwa [this, mul_one]⟩
  rw [if_neg h2, h.deref, ok_bind]
  obtain ⟨z, e, hz, v⟩ := fpMul_spec M.room M.canon h.elt hb
  refine ⟨⟨z, some p⟩, by rw [e]; rfl, rfl, hz, ?_⟩
  rw [res_emod M.eq v, ← h.val]; unfold res; push_cast; rfl

theorem Rep.mul {a b : Fe} {x y : ZMod P} (h : Rep P p a x) (h' : Rep P p b y) :
    ∃ c, Fe.mul cap a b = .ok c ∧ Rep P p c (x * y) := by
  have := h.mulB M h'.elt
  rwa [h'.val] at this

theorem Rep.mulS {a : Fe} {x : ZMod P} (h : Rep P p a x) {k : BitVec 32} (h0 : 0 ≤ k.toInt) (hk : k.toInt < P) :
    ∃ c, Fe.mulS cap a k = .ok c ∧ Rep P p c ((k.toInt : ZMod P) * x) := by
  unfold Fe.mulS
  by_cases h1 : a.v.isOne = true
  · rw [if_pos h1, h.deref, ok_bind]
    exact ⟨_, rfl, rfl, elt_int M h0 hk, by rw [(h.vOne_iff M).1 h1, mul_one, res_int]⟩
  rw [if_neg h1]
  by_cases h2 : k = 1
  · rw [if_pos h2]
    exact ⟨a, rfl, by subst h2; simpa using h⟩
  rw [if_neg h2, h.deref, ok_bind]
  obtain ⟨z, e, hz, v⟩ := fpMulS_spec M.room M.canon h.elt h0
  refine ⟨⟨z, some p⟩, by rw [e]; rfl, rfl, hz, ?_⟩
  rw [res_emod M.eq v, ← h.val]; unfold res; push_cast; ring

theorem Rep.sqr {a : Fe} {x : ZMod P} (h : Rep P p a x) : ∃ c, Fe.sqr cap a = .ok c ∧ Rep P p c (x ^ 2) := by
  unfold Fe.sqr
  by_cases h1 : a.v.isOne = true
  · rw [if_pos h1]
    have := (h.vOne_iff M).1 h1
    exact ⟨a, rfl, by rw [this] at h ⊢; rwa [one_pow]⟩
  rw [if_neg h1, h.deref, ok_bind]
  obtain ⟨z, e, hz, v⟩ := fpMul_spec M.room M.canon h.elt h.elt
  refine ⟨⟨z, some p⟩, by unfold Fp.sqr; rw [e]; rfl, rfl, hz, ?_⟩
  rw [res_emod M.eq v, ← h.val]; unfold res; push_cast; ring

variable [hP : Fact P.Prime]

theorem gcd_elt {v : Big} (h : Elt p v) : Int.gcd v.toInt p.toInt = 1 ↔ res P v ≠ 0 := by
  have := hP.1
  rw [M.eq]
  unfold res
  rw [← Int.isCoprime_iff_gcd_eq_one, isCoprime_comm, Prime.coprime_iff_not_dvd (Nat.prime_iff_prime_int.1 this), Ne,
    ZMod.intCast_zmod_eq_zero_iff_dvd]

theorem Rep.inv {a : Fe} {x : ZMod P} (h : Rep P p a x) (hx : x ≠ 0) : ∃ c, Fe.inv cap a = .ok c ∧ Rep P p c x⁻¹ := by
  rcases modinv_elt M.room M.canon M.one_lt h.elt with ⟨-, hg⟩ | ⟨z, e, hg, hz, -, hc⟩
  · exact absurd ((gcd_elt M h.elt).2 (by rw [h.val]; exact hx)) hg
  · refine ⟨⟨z, some p⟩, by unfold Fe.inv; rw [h.deref, ok_bind, e]; rfl, rfl, hz, ?_⟩
    rw [M.eq] at hc
    have := (ZMod.intCast_eq_intCast_iff _ _ _).2 hc
    push_cast at this
    change res P z * res P a.v = 1 at this
    rw [h.val] at this
    exact eq_inv_of_mul_eq_one_left this

theorem Rep.inv_zero {a : Fe} {x : ZMod P} (h : Rep P p a x) (hx : x = 0) : Fe.inv cap a = .error .abort := by
  rcases modinv_elt M.room M.canon M.one_lt h.elt with ⟨e, -⟩ | ⟨z, e, hg, hz, -, hc⟩
  · unfold Fe.inv; rw [h.deref, ok_bind, e]; rfl
  · exact absurd (by rw [h.val]; exact hx) ((gcd_elt M h.elt).1 hg)

theorem Rep.divB {a : Fe} {b : Big} {x : ZMod P} (h : Rep P p a x) (hb : Elt p b) (h0 : res P b ≠ 0) :
    ∃ c, Fe.divB cap a b = .ok c ∧ Rep P p c (x / res P b) := by
  unfold Fe.divB
  by_cases h2 : b.isOne = true
  · rw [if_pos h2]
    have : res P b = 1 := by rw [← res_one, res_inj M.eq hb (one_elt M.one_lt), one_toInt]; exact (Big.isOne_iff hb.c).1 h2
    exact ⟨a, rfl, by rwa [this, div_one]⟩
  rw [if_neg h2, h.deref, ok_bind]
  rcases fpDiv_spec M.room M.canon M.one_lt h.elt hb with ⟨-, hg⟩ | ⟨z, e, hg, hz, hc⟩
  · exact absurd ((gcd_elt M hb).2 h0) hg
  · refine ⟨⟨z, some p⟩, by rw [e]; rfl, rfl, hz, ?_⟩
    rw [M.eq] at hc
    have := (ZMod.intCast_eq_intCast_iff _ _ _).2 hc
    push_cast at this
    change res P z * res P b = res P a.v at this
    rw [h.val] at this
    exact (eq_div_iff h0).2 this

theorem Rep.divB_zero {a : Fe} {b : Big} {x : ZMod P} (h : Rep P p a x) (hb : Elt p b) (h0 : res P b = 0) :
    Fe.divB cap a b = .error .abort := by
  unfold Fe.divB
  have h2 : b.isOne ≠ true := by
    rw [Ne, Big.isOne_iff hb.c]; rw [res_eq_zero_iff M hb] at h0; omega
  rw [if_neg h2, h.deref, ok_bind]
  rcases fpDiv_spec M.room M.canon M.one_lt h.elt hb with ⟨e, -⟩ | ⟨z, e, hg, hz, hc⟩
  · rw [e]; rfl
  · exact absurd h0 ((gcd_elt M hb).1 hg)

theorem Rep.div {a b : Fe} {x y : ZMod P} (h : Rep P p a x) (h' : Rep P p b y) (h0 : y ≠ 0) :
    ∃ c, Fe.div cap a b = .ok c ∧ Rep P p c (x / y) := by
  have := h.divB M h'.elt (by rw [h'.val]; exact h0)
  rwa [h'.val] at this

theorem Rep.sqrt {a : Fe} {x : ZMod P} (h : Rep P p a x) (h2 : P ≠ 2) :
    ∃ c y, Fe.sqrt cap a = .ok c ∧ Rep P p c y ∧ (IsSquare x → y ^ 2 = x) ∧ (¬ IsSquare x → y = 0) := by
  unfold Fe.sqrt
  by_cases h1 : a.v.isOne = true
  · rw [if_pos h1]
    have := (h.vOne_iff M).1 h1
    exact ⟨a, x, rfl, h, fun _ => by rw [this, one_pow], fun hs => absurd (by rw [this]; exact IsSquare.one) hs⟩
  rw [if_neg h1, h.deref, ok_bind]
  obtain ⟨z, e, hz, v, v'⟩ := fpSqrt_spec M.room M.canon M.eq h.elt h2
  rw [h.val] at v v'
  exact ⟨⟨z, some p⟩, res P z, by rw [e]; rfl, Rep.mk' hz, v, fun hs => (res_eq_zero_iff M hz).2 (v' hs)⟩

end

/-! ## `fp_normalize` -/

theorem longer_iff {a p : Big} (ca : a.Canon) (cp : p.Canon) (hp : 0 < p.toInt) :
    a.byteLength > p.byteLength ↔ ∃ k : ℕ, p.toInt < 256 ^ k ∧ 256 ^ k ≤ |a.toInt| := by
  have hpv : p.toInt = (val p.ws : ℤ) := by rw [← abs_of_pos hp, abs_toInt]
  rw [abs_toInt, hpv]
  constructor
  · intro h
    refine ⟨p.byteLength, by exact_mod_cast lt_byteLength cp, ?_⟩
    by_contra hc
    have hc : val a.ws < 256 ^ p.byteLength := by
      have := not_le.1 hc; exact_mod_cast this
    exact absurd (byteLength_le ca _ (byteLength_pos cp) hc) (by omega)
  · rintro ⟨k, h1, h2⟩
    have h1 : val p.ws < 256 ^ k := by exact_mod_cast h1
    have h2 : 256 ^ k ≤ val a.ws := by exact_mod_cast h2
    have hk : 0 < k := by
      rcases Nat.eq_zero_or_pos k with rfl | h
      · rw [hpv] at hp; simp at h1; omega
      · exact h
    have := byteLength_le cp k hk h1
    have h3 := lt_of_le_of_lt h2 (lt_byteLength ca)
    have := (Nat.pow_lt_pow_iff_right (by norm_num : 1 < 256)).1 h3
    omega

theorem modAssign_spec {cap : Cap} {a p : Big} (ca : a.Canon) (cp : p.Canon) (fa : Big.Fits cap a) (hp : 0 < p.toInt) :
    ∃ z, Fp.modAssign cap a p = .ok z ∧ z.Canon ∧ Big.Fits cap z ∧ z.toInt = a.toInt.tmod p.toInt ∧ z.neg = a.neg := by
  obtain ⟨q, r, e, cq, cr, fq, fr, vq, vr, nr, -⟩ := divMod?_spec cap a p ca cp fa hp.ne'
  exact ⟨r, by unfold Fp.modAssign; rw [e]; rfl, cr, fr, vr, nr⟩

theorem normalize_spec {cap : Cap} {a p : Big} (ca : a.Canon) (cp : p.Canon) (fa : Big.Fits cap a) (fp : Big.Fits cap p)
    (hp : 0 < p.toInt) :
    ∃ z, Fp.normalize cap a p = .ok z ∧ z.Canon ∧
      z.toInt = (if a.toInt < 0 then (if a.byteLength > p.byteLength then a.toInt.tmod p.toInt else a.toInt) + p.toInt
        else if p.toInt ≤ a.toInt then (if a.byteLength > p.byteLength then a.toInt % p.toInt else a.toInt - p.toInt)
        else a.toInt) := by
  unfold Fp.normalize
  have hpn := neg_of_toInt_pos hp
  by_cases h : eqS a 0 = true ∨ (eqS a 1 = true ∧ (!eqS p 1) = true)
  · rw [if_pos h]
    refine ⟨a, rfl, ca, ?_⟩
    rw [eqS_iff ca, eqS_iff ca, Bool.not_eq_true', ← Bool.not_eq_true, eqS_iff cp] at h
    simp at h
    rw [if_neg (by omega), if_neg (by omega)]
  rw [if_neg h]
  by_cases h1 : a.toInt < 0
  · rw [if_pos ((ltS_iff ca 0).2 (by simpa using h1)), if_pos h1]
    have han : a.neg = true := by
      unfold toInt at h1
      split at h1 <;> [assumption; omega]
    by_cases h2 : a.byteLength > p.byteLength
    · rw [if_pos h2, if_pos h2]
      obtain ⟨z, e, cz, fz, vz, nz⟩ := modAssign_spec ca cp fa hp
      rw [e, ok_bind]
      obtain ⟨c, -, v⟩ := add_spec cap z p cz cp fz fp
      refine ⟨_, rfl, c, ?_⟩
      rcases v with v | ⟨-, v, -⟩
      · rw [v, vz]
      · rw [nz, han, hpn] at v; cases v
    · rw [if_neg h2, if_neg h2, ok_bind]
      obtain ⟨c, -, v⟩ := add_spec cap a p ca cp fa fp
      refine ⟨_, rfl, c, ?_⟩
      rcases v with v | ⟨-, v, -⟩
      · exact v
      · rw [han, hpn] at v; cases v
  rw [if_neg (by rw [ltS_iff ca]; simpa using h1), if_neg h1]
  by_cases h3 : p.toInt ≤ a.toInt
  · rw [if_pos ((opGe_iff ca cp).2 h3), if_pos h3]
    by_cases h2 : a.byteLength > p.byteLength
    · rw [if_pos h2, if_pos h2]
      obtain ⟨z, e, cz, fz, vz, nz⟩ := modAssign_spec ca cp fa hp
      exact ⟨z, e, cz, by rw [vz, Int.tmod_eq_emod_of_nonneg (by omega)]⟩
    · rw [if_neg h2, if_neg h2]
      obtain ⟨c, -, v⟩ := sub_spec cap a p ca cp fa fp
      refine ⟨_, rfl, c, ?_⟩
      rcases v with v | ⟨-, v, -⟩
      · exact v
      · rw [neg_of_toInt_pos (by omega), hpn] at v; cases v
  · rw [if_neg (by rw [opGe_iff ca cp]; exact h3), if_neg h3]
    exact ⟨a, rfl, ca, rfl⟩

/-! ## Fixed-length encoding of an element -/

theorem max_byteLength {cap : Cap} {p : Big} {P : ℕ} (M : Mod cap p P) {a : Fe} {x : ZMod P} (h : Rep P p a x) :
    a.maxByteLength cap = (subs1 cap p 1).byteLength := by
  unfold Fe.maxByteLength; rw [h.pm]
  simp only
  rw [if_pos]
  exact (fp_isValid_iff h.elt.c M.canon).2 ⟨h.elt.nn, h.elt.lt⟩

theorem Rep.toBytes_len {P : ℕ} {p : Big} {a : Fe} {x : ZMod P} {cap : Cap} (M : Mod cap p P) (h : Rep P p a x) (n : Nat) :
    (a.toBytesLen n).length = max n a.v.byteLength ∧ (beVal (a.toBytesLen n) : ℤ) = a.v.toInt := by
  obtain ⟨l, v⟩ := toBytes_spec h.elt.c
  unfold Fe.toBytesLen
  rw [if_pos (h.isValid M)]
  refine ⟨by simp [l]; omega, ?_⟩
  rw [beVal_append, beVal_replicate_zero, zero_mul, zero_add, v, ← abs_toInt, abs_of_nonneg h.elt.nn]

end Ack
