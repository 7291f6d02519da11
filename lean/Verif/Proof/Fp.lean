import Verif.Spec.Fp
import Verif.Proof.BigCtor
/-!
# Lemmas about the prime-field functions
-/
namespace Ack
open Big

theorem Canon.len_pos {x : Big} (h : x.Canon) : 0 < x.ws.length := List.length_pos_of_ne_nil h.1

theorem len_le_of_abs {x p : Big} (cx : x.Canon) (cp : p.Canon) (h : |x.toInt| ≤ |p.toInt|) : x.ws.length ≤ p.ws.length := by
  refine CanonW.length_le cx cp.1 ?_
  rw [abs_toInt, abs_toInt] at h
  exact_mod_cast h

section
variable {cap : Cap} {p : Big}

theorem Elt.len {a : Big} (cp : p.Canon) (h : Elt p a) : a.ws.length ≤ p.ws.length :=
  len_le_of_abs h.c cp (by rw [abs_of_nonneg h.nn, abs_of_nonneg (by have := h.nn; have := h.lt; omega)]; exact h.lt.le)

theorem Room.fits (r : Room cap p) {n : Nat} (h : n ≤ 2 * p.ws.length) : cap.fits n = true := fits_mono r h

theorem Room.Fits (r : Room cap p) {x : Big} (h : x.ws.length ≤ 2 * p.ws.length) : Fits cap x := fits_iff.1 (r.fits h)

theorem Room.fitsP (r : Room cap p) : Big.Fits cap p := r.Fits (by omega)

theorem Elt.fits (r : Room cap p) (cp : p.Canon) {a : Big} (h : Elt p a) : Big.Fits cap a :=
  r.Fits (by have := h.len cp; omega)

theorem opLt_iff {x y : Big} (hx : x.Canon) (hy : y.Canon) : opLt x y = true ↔ x.toInt < y.toInt := by
  unfold opLt; rw [compare_spec hx hy]; split
  · simpa
  · split <;> simp <;> omega

theorem opGe_iff {x y : Big} (hx : x.Canon) (hy : y.Canon) : opGe x y = true ↔ y.toInt ≤ x.toInt := by
  unfold opGe; rw [Bool.not_eq_true', ← Bool.not_eq_true, opLt_iff hx hy]; omega

theorem opGt_iff {x y : Big} (hx : x.Canon) (hy : y.Canon) : opGt x y = true ↔ y.toInt < x.toInt := by
  unfold opGt; rw [compare_spec hx hy]; split
  · simp; omega
  · split <;> simp <;> omega

theorem opEq_iff {x y : Big} (hx : x.Canon) (hy : y.Canon) : opEq x y = true ↔ x.toInt = y.toInt := by
  unfold opEq; rw [compare_spec hx hy]; split
  · simp; omega
  · split <;> simp <;> omega

theorem eqS_iff {x : Big} (hx : x.Canon) (y : BitVec 32) : Big.eqS x y = true ↔ x.toInt = y.toInt := by
  unfold Big.eqS; rw [compares1_spec hx]; split
  · simp; omega
  · split <;> simp <;> omega

theorem ltS_iff {x : Big} (hx : x.Canon) (y : BitVec 32) : ltS x y = true ↔ x.toInt < y.toInt := by
  unfold ltS; rw [compares1_spec hx]; split
  · simpa
  · split <;> simp <;> omega

theorem gtS_iff {x : Big} (hx : x.Canon) (y : BitVec 32) : gtS x y = true ↔ y.toInt < x.toInt := by
  unfold gtS; rw [compares1_spec hx]; split
  · simp; omega
  · split <;> simp <;> omega

theorem fp_isValid_iff {a : Big} (ca : a.Canon) (cp : p.Canon) : Fp.isValid a p = true ↔ 0 ≤ a.toInt ∧ a.toInt < p.toInt := by
  unfold Fp.isValid
  rw [Bool.and_eq_true, Bool.not_eq_true', ← Bool.not_eq_true, ltS_iff ca, opLt_iff ca cp]
  simp

theorem fits_of_len {x : Big} (r : Room cap p) (h : x.ws.length ≤ 2 * p.ws.length) : Big.Fits cap x := r.Fits h

/-- A sum of two short values is exact. -/
theorem add_room (r : Room cap p) {a b : Big} (ca : a.Canon) (cb : b.Canon) (la : a.ws.length ≤ p.ws.length)
    (lb : b.ws.length ≤ p.ws.length) (hp : 0 < p.ws.length) :
    (Big.add cap a b).Canon ∧ (Big.add cap a b).toInt = a.toInt + b.toInt := by
  obtain ⟨c, -, h⟩ := add_spec cap a b ca cb (r.Fits (by omega)) (r.Fits (by omega))
  refine ⟨c, ?_⟩
  rcases h with h | ⟨-, -, h⟩
  · exact h
  · rw [r.fits (by omega)] at h; cases h

theorem sub_room (r : Room cap p) {a b : Big} (ca : a.Canon) (cb : b.Canon) (la : a.ws.length ≤ p.ws.length)
    (lb : b.ws.length ≤ p.ws.length) (hp : 0 < p.ws.length) :
    (Big.sub cap a b).Canon ∧ (Big.sub cap a b).toInt = a.toInt - b.toInt := by
  obtain ⟨c, -, h⟩ := sub_spec cap a b ca cb (r.Fits (by omega)) (r.Fits (by omega))
  refine ⟨c, ?_⟩
  rcases h with h | ⟨-, -, h⟩
  · exact h
  · rw [r.fits (by omega)] at h; cases h

theorem adds1_room (r : Room cap p) {a : Big} (b : BitVec 32) (ca : a.Canon) (la : a.ws.length ≤ p.ws.length)
    (hp : 0 < p.ws.length) : (adds1 cap a b).Canon ∧ (adds1 cap a b).toInt = a.toInt + b.toInt := by
  obtain ⟨c, -, h⟩ := adds1_spec cap a b ca (r.Fits (by omega))
  refine ⟨c, ?_⟩
  rcases h with h | ⟨-, h⟩
  · exact h
  · rw [r.fits (by omega)] at h; cases h

theorem subs1_room (r : Room cap p) {a : Big} (b : BitVec 32) (ca : a.Canon) (la : a.ws.length ≤ p.ws.length)
    (hp : 0 < p.ws.length) : (subs1 cap a b).Canon ∧ (subs1 cap a b).toInt = a.toInt - b.toInt := by
  obtain ⟨c, -, h⟩ := subs1_spec cap a b ca (r.Fits (by omega))
  refine ⟨c, ?_⟩
  rcases h with h | ⟨-, h⟩
  · exact h
  · rw [r.fits (by omega)] at h; cases h

theorem muls1_room (r : Room cap p) {a : Big} (b : BitVec 32) (ca : a.Canon) (la : a.ws.length ≤ p.ws.length)
    (hp : 0 < p.ws.length) : (muls1 cap a b).Canon ∧ Big.Fits cap (muls1 cap a b) ∧ (muls1 cap a b).toInt = a.toInt * b.toInt := by
  obtain ⟨c, f, h⟩ := muls1_spec cap a b ca (r.Fits (by omega))
  refine ⟨c, f, ?_⟩
  rcases h with h | ⟨-, h⟩
  · exact h
  · rw [r.fits (by omega)] at h; cases h

theorem mul_room (r : Room cap p) {a b : Big} (ca : a.Canon) (cb : b.Canon) (la : a.ws.length ≤ p.ws.length)
    (lb : b.ws.length ≤ p.ws.length) :
    (Big.mul cap a b).Canon ∧ Big.Fits cap (Big.mul cap a b) ∧ (Big.mul cap a b).toInt = a.toInt * b.toInt := by
  rcases mul?_spec cap a b ca cb with ⟨z, e, c, f, v, -, -⟩ | ⟨-, h⟩
  · unfold Big.mul; rw [e]; exact ⟨c, f, v⟩
  · rw [r.fits (by omega)] at h; cases h

/-- Reduction of a non-negative value. -/
theorem mod_elt {x : Big} (cp : p.Canon) (hp : 0 < p.toInt) (cx : x.Canon) (fx : Big.Fits cap x) (hx : 0 ≤ x.toInt) :
    ∃ z, mod cap x p = .ok z ∧ Elt p z ∧ z.toInt = x.toInt % p.toInt := by
  obtain ⟨z, e, c, -, v, -⟩ := mod_spec cap x p cx cp fx hp.ne'
  have hv : z.toInt = x.toInt % p.toInt := by rw [v, Int.tmod_eq_emod_of_nonneg hx]
  refine ⟨z, e, ⟨c, ?_, ?_⟩, hv⟩
  · rw [hv]; exact Int.emod_nonneg _ hp.ne'
  · rw [hv]; exact Int.emod_lt_of_pos _ hp

variable (r : Room cap p) (cp : p.Canon)
include r cp

theorem fpAdd_spec {a b : Big} (ha : Elt p a) (hb : Elt p b) :
    Elt p (Fp.add cap a b p) ∧ (Fp.add cap a b p).toInt = (a.toInt + b.toInt) % p.toInt := by
  have hpl := Canon.len_pos cp
  obtain ⟨c, v⟩ := add_room r ha.c hb.c (ha.len cp) (hb.len cp) hpl
  have := ha.nn; have := ha.lt; have := hb.nn; have := hb.lt
  unfold Fp.add Fp.addFin
  by_cases h : p.toInt ≤ (Big.add cap a b).toInt
  · rw [if_pos ((opGe_iff c cp).2 h)]
    obtain ⟨c2, f, h3⟩ := sub_spec cap _ p c cp (add_spec cap a b ha.c hb.c (ha.fits r cp) (hb.fits r cp)).2.1 r.fitsP
    have v2 : (Big.sub cap (Big.add cap a b) p).toInt = (Big.add cap a b).toInt - p.toInt := by
      rcases h3 with h3 | ⟨-, h3, -⟩
      · exact h3
      · exfalso
        rw [neg_of_toInt_pos (by omega), neg_of_toInt_pos (x := p) (by omega)] at h3; cases h3
    have e : (Big.sub cap (Big.add cap a b) p).toInt = (a.toInt + b.toInt) % p.toInt := by
      rw [v2, v, ← Int.sub_emod_right, Int.emod_eq_of_lt (by omega) (by omega)]
    exact ⟨⟨c2, by rw [v2]; omega, by rw [v2]; omega⟩, e⟩
  · rw [if_neg (by rw [opGe_iff c cp]; exact h)]
    exact ⟨⟨c, by omega, by omega⟩, by rw [v, Int.emod_eq_of_lt (by omega) (by omega)]⟩

theorem fpAddS_spec {a : Big} {b : BitVec 32} (ha : Elt p a) (hb : 0 ≤ b.toInt) (hbp : b.toInt < p.toInt) :
    Elt p (Fp.addS cap a b p) ∧ (Fp.addS cap a b p).toInt = (a.toInt + b.toInt) % p.toInt := by
  have hpl := Canon.len_pos cp
  obtain ⟨c, v⟩ := adds1_room r b ha.c (ha.len cp) hpl
  have := ha.nn; have := ha.lt
  unfold Fp.addS Fp.addFin
  by_cases h : p.toInt ≤ (adds1 cap a b).toInt
  · rw [if_pos ((opGe_iff c cp).2 h)]
    obtain ⟨c2, f, h3⟩ := sub_spec cap _ p c cp (adds1_spec cap a b ha.c (ha.fits r cp)).2.1 r.fitsP
    have v2 : (Big.sub cap (adds1 cap a b) p).toInt = (adds1 cap a b).toInt - p.toInt := by
      rcases h3 with h3 | ⟨-, h3, -⟩
      · exact h3
      · exfalso
        rw [neg_of_toInt_pos (by omega), neg_of_toInt_pos (x := p) (by omega)] at h3; cases h3
    have e : (Big.sub cap (adds1 cap a b) p).toInt = (a.toInt + b.toInt) % p.toInt := by
      rw [v2, v, ← Int.sub_emod_right, Int.emod_eq_of_lt (by omega) (by omega)]
    exact ⟨⟨c2, by rw [v2]; omega, by rw [v2]; omega⟩, e⟩
  · rw [if_neg (by rw [opGe_iff c cp]; exact h)]
    exact ⟨⟨c, by omega, by omega⟩, by rw [v, Int.emod_eq_of_lt (by omega) (by omega)]⟩

theorem subFin_spec {z : Big} (c : z.Canon) (h1 : -p.toInt < z.toInt) (h2 : z.toInt < p.toInt) :
    Elt p (Fp.subFin cap z p) ∧ (Fp.subFin cap z p).toInt = z.toInt % p.toInt := by
  have hpl := Canon.len_pos cp
  have hl : z.ws.length ≤ p.ws.length := len_le_of_abs c cp (by
    rw [abs_of_nonneg (a := p.toInt) (by omega)]; exact abs_le.2 ⟨by omega, by omega⟩)
  unfold Fp.subFin
  by_cases h : z.toInt < 0
  · rw [if_pos ((ltS_iff c 0).2 (by simpa using h))]
    obtain ⟨c2, v2⟩ := add_room r c cp hl le_rfl hpl
    refine ⟨⟨c2, by omega, by omega⟩, ?_⟩
    rw [v2, ← Int.add_emod_right, Int.emod_eq_of_lt (by omega) (by omega)]
  · rw [if_neg (by rw [ltS_iff c 0]; simpa using h)]
    exact ⟨⟨c, by omega, by omega⟩, by rw [Int.emod_eq_of_lt (by omega) (by omega)]⟩

theorem fpSub_spec {a b : Big} (ha : Elt p a) (hb : Elt p b) :
    Elt p (Fp.sub cap a b p) ∧ (Fp.sub cap a b p).toInt = (a.toInt - b.toInt) % p.toInt := by
  obtain ⟨c, v⟩ := sub_room r ha.c hb.c (ha.len cp) (hb.len cp) (Canon.len_pos cp)
  have := ha.nn; have := ha.lt; have := hb.nn; have := hb.lt
  have := subFin_spec r cp c (by omega) (by omega)
  unfold Fp.sub
  rw [v] at this
  exact this

theorem fpSubS_spec {a : Big} {b : BitVec 32} (ha : Elt p a) (hb : 0 ≤ b.toInt) (hbp : b.toInt < p.toInt) :
    Elt p (Fp.subS cap a b p) ∧ (Fp.subS cap a b p).toInt = (a.toInt - b.toInt) % p.toInt := by
  obtain ⟨c, v⟩ := subs1_room r b ha.c (ha.len cp) (Canon.len_pos cp)
  have := ha.nn; have := ha.lt
  have := subFin_spec r cp c (by omega) (by omega)
  unfold Fp.subS
  rw [v] at this
  exact this

theorem fpNeg_spec {a : Big} (ha : Elt p a) :
    Elt p (Fp.neg cap a p) ∧ (Fp.neg cap a p).toInt = (-a.toInt) % p.toInt := by
  have := ha.nn; have := ha.lt
  unfold Fp.neg
  by_cases h : a.toInt = 0
  · rw [if_pos ((eqS_iff ha.c 0).2 (by simpa using h))]
    exact ⟨ha, by rw [h]; simp⟩
  · rw [if_neg (by rw [eqS_iff ha.c 0]; simpa using h)]
    obtain ⟨c, v⟩ := sub_room r cp ha.c le_rfl (ha.len cp) (Canon.len_pos cp)
    refine ⟨⟨c, by omega, by omega⟩, ?_⟩
    rw [v, ← Int.add_emod_right (-a.toInt), Int.emod_eq_of_lt (by omega) (by omega)]; ring

theorem fpMul_spec {a b : Big} (ha : Elt p a) (hb : Elt p b) :
    ∃ z, Fp.mul cap a b p = .ok z ∧ Elt p z ∧ z.toInt = a.toInt * b.toInt % p.toInt := by
  obtain ⟨c, f, v⟩ := mul_room r ha.c hb.c (ha.len cp) (hb.len cp)
  have := ha.nn; have := ha.lt; have := hb.nn
  obtain ⟨z, e, h, hv⟩ := mod_elt (cap := cap) cp (by omega) c f (by rw [v]; exact mul_nonneg ha.nn hb.nn)
  exact ⟨z, e, h, by rw [hv, v]⟩

theorem fpMulS_spec {a : Big} {b : BitVec 32} (ha : Elt p a) (hb : 0 ≤ b.toInt) :
    ∃ z, Fp.mulS cap a b p = .ok z ∧ Elt p z ∧ z.toInt = a.toInt * b.toInt % p.toInt := by
  obtain ⟨c, f, v⟩ := muls1_room r b ha.c (ha.len cp) (Canon.len_pos cp)
  have := ha.nn; have := ha.lt
  obtain ⟨z, e, h, hv⟩ := mod_elt (cap := cap) cp (by omega) c f (by rw [v]; exact mul_nonneg ha.nn hb)
  exact ⟨z, e, h, by rw [hv, v]⟩

/-- `modinv` of an element, for a modulus greater than one. -/
theorem modinv_elt {a : Big} (hp : 1 < p.toInt) (ha : Elt p a) :
    (modinv cap a p = .error .abort ∧ Int.gcd a.toInt p.toInt ≠ 1) ∨
    ∃ z, modinv cap a p = .ok z ∧ Int.gcd a.toInt p.toInt = 1 ∧ Elt p z ∧ 0 < z.toInt ∧ z.toInt * a.toInt ≡ 1 [ZMOD p.toInt] := by
  have hpl := Canon.len_pos cp
  rcases modinv?_spec (cap := cap) (K := p.ws.length) (m := p) (r.fits (by omega)) cp le_rfl ha.c (ha.fits r cp) r.fitsP ha.nn hp
    (ha.len cp) with ⟨e, h⟩ | ⟨z, e, h, c, f, z0, z1, hz⟩
  · left; exact ⟨by unfold modinv; rw [e]; rfl, h⟩
  · right; exact ⟨z, by unfold modinv; rw [e]; rfl, h, ⟨c, z0.le, z1⟩, z0, hz⟩

theorem fpDiv_spec {a b : Big} (hp : 1 < p.toInt) (ha : Elt p a) (hb : Elt p b) :
    (Fp.div cap a b p = .error .abort ∧ Int.gcd b.toInt p.toInt ≠ 1) ∨
    ∃ z, Fp.div cap a b p = .ok z ∧ Int.gcd b.toInt p.toInt = 1 ∧ Elt p z ∧ z.toInt * b.toInt ≡ a.toInt [ZMOD p.toInt] := by
  unfold Fp.div
  rcases modinv_elt r cp hp hb with ⟨e, h⟩ | ⟨i, e, h, hi, -, hc⟩
  · left; rw [e]; exact ⟨rfl, h⟩
  · right
    rw [e, ok_bind]
    obtain ⟨z, e2, hz, v⟩ := fpMul_spec r cp ha hi
    refine ⟨z, e2, h, hz, ?_⟩
    have h1 : z.toInt ≡ a.toInt * i.toInt [ZMOD p.toInt] := by rw [v]; exact Int.mod_modEq _ _
    calc z.toInt * b.toInt ≡ a.toInt * i.toInt * b.toInt [ZMOD p.toInt] := h1.mul_right _
      _ = a.toInt * (i.toInt * b.toInt) := by ring
      _ ≡ a.toInt * 1 [ZMOD p.toInt] := hc.mul_left _
      _ = a.toInt := by ring

end
end Ack
