import Verif.Proof.Fp
import Mathlib.NumberTheory.LegendreSymbol.Basic
import Mathlib.FieldTheory.Finite.Basic
import Mathlib.Tactic.LinearCombination
/-!
# Correctness and termination of the modular square root
-/
namespace Ack
open Big

theorem divs1_neg (cap : Cap) (x : Big) (y : BitVec 32) (hx : x.ws ≠ []) (q : Big) (h : divs1 cap x y = .ok q)
    (h0 : q.toInt = 0) : q.neg = false := by
  unfold divs1 at h
  split at h
  · unfold divWord check at h
    split at h
    · simp only [ok_bind] at h
      injection h with h
      have hne : (divWordGo (cabs32 y) x.ws).1 ≠ [] := by
        intro e
        have : (divWordGo (cabs32 y) x.ws).1.length = x.ws.length := by
          induction x.ws with
          | nil => rfl
          | cons a l ih => simp [divWordGo, ih]
        rw [e] at this
        exact hx (List.length_eq_zero_iff.1 this.symm)
      rw [← h] at h0 ⊢
      rw [trim_neg _ _ hne]
      rw [toInt_zero_iff, trim_val _ _ hne] at h0
      simp [h0]
    · cases h
  · injection h with h; subst h; rfl

section
variable {p : Big} {P : ℕ}

theorem res_inj (hp : p.toInt = P) {x y : Big} (hx : Elt p x) (hy : Elt p y) : res P x = res P y ↔ x.toInt = y.toInt := by
  refine ⟨fun h => ?_, fun h => by unfold res; rw [h]⟩
  have := (ZMod.intCast_eq_intCast_iff _ _ _).1 h
  have e : x.toInt % P = y.toInt % P := this
  rwa [Int.emod_eq_of_lt hx.nn (hp ▸ hx.lt), Int.emod_eq_of_lt hy.nn (hp ▸ hy.lt)] at e

theorem res_emod (hp : p.toInt = P) {x : Big} {v : ℤ} (h : x.toInt = v % p.toInt) : res P x = (v : ZMod P) := by
  unfold res; rw [h, hp]
  exact (ZMod.intCast_eq_intCast_iff _ _ _).2 (Int.mod_modEq _ _)

theorem res_one : res P (ofInt32 1) = 1 := by unfold res; rw [one_toInt]; simp
end

section
variable {cap : Cap} {p : Big} {P : ℕ} [hP : Fact P.Prime] (r : Room cap p) (cp : p.Canon) (hp : p.toInt = P)

theorem one_elt (h : 1 < p.toInt) : Elt p (ofInt32 1) := ⟨one_canon, by rw [one_toInt]; omega, by rw [one_toInt]; omega⟩
theorem zero_elt (h : 0 < p.toInt) : Elt p (ofInt32 0) :=
  ⟨by decide, by rw [ofInt32_toInt]; decide, by rw [ofInt32_toInt]; simpa using h⟩

include hp in
theorem eqS_one {x : Big} (hx : Elt p x) : Big.eqS x 1 = true ↔ res P x = 1 := by
  have h1 : (1:ℤ) < p.toInt := by rw [hp]; exact_mod_cast hP.1.one_lt
  rw [eqS_iff hx.c, ← res_one, res_inj hp hx (one_elt h1), one_toInt]
  simp

include r cp hp

theorem sqrMod_spec {x : Big} (hx : Elt p x) : ∃ z, Fp.sqrMod cap x p = .ok z ∧ Elt p z ∧ res P z = res P x ^ 2 := by
  obtain ⟨z, e, h, v⟩ := fpMul_spec r cp hx hx
  refine ⟨z, e, h, ?_⟩
  rw [res_emod hp v]; unfold res; push_cast; ring

theorem mulMod_spec {x y : Big} (hx : Elt p x) (hy : Elt p y) :
    ∃ z, Fp.mulMod cap x y p = .ok z ∧ Elt p z ∧ res P z = res P x * res P y := by
  obtain ⟨z, e, h, v⟩ := fpMul_spec r cp hx hy
  refine ⟨z, e, h, ?_⟩
  rw [res_emod hp v]; unfold res; push_cast; ring

theorem modexp_elt {x y : Big} (hx : Elt p x) (cy : y.Canon) (ny : y.neg = false) :
    ∃ z, modexp cap x y p = .ok z ∧ Elt p z ∧ res P z = res P x ^ (val y.ws) := by
  have h1 : (1:ℤ) < p.toInt := by rw [hp]; exact_mod_cast hP.1.one_lt
  have hl := hx.len cp
  rcases modexpGo_spec cap x p y.ws hx.c cp (hx.fits r cp) cy.1 hx.nn (by omega) with ⟨-, h⟩ | ⟨er, -, h⟩ | ⟨z, e, c, f, hc, hz0, hz1, hz2, -⟩
  · exfalso
    have := h.2
    rw [max_eq_right hl, r] at this; cases this
  · cases h.1
  · have hm : modexp cap x y p = .ok z := by unfold modexp modexp?; rw [ny, if_neg (by decide), e]; rfl
    refine ⟨z, hm, ⟨c, hz0, ?_⟩, ?_⟩
    · rcases Nat.lt_or_ge (val y.ws) 2 with h | h
      · rcases Nat.lt_or_ge (val y.ws) 1 with h' | h'
        · have h0 : val y.ws = 0 := by omega
          rcases hz1 h0 with h | h
          · omega
          · rwa [abs_of_pos (by omega)] at h
        · have : val y.ws = 1 := by omega
          have hy : y = ⟨false, [1]⟩ := by
            obtain ⟨n, w⟩ := y
            simp only at ny this; subst ny
            have : w = [1] := CanonW.ext cy (canonW_single 1) (by rw [this]; rfl)
            rw [this]
          subst hy
          have : modexp cap x ⟨false, [1]⟩ p = .ok x := rfl
          rw [this] at hm
          injection hm with hm
          rw [← hm]; exact hx.lt
      · have := hz2 h
        rwa [abs_of_pos (by omega)] at this
    · rw [hp] at hc
      unfold res
      rw [(ZMod.intCast_eq_intCast_iff _ _ _).2 hc]; push_cast; rfl

theorem ordLoop_spec (s : ℕ) : ∀ (k f m : ℕ) (z : Big), Elt p z → res P z ≠ 1 → res P z ^ 2^k = 1 → m + k < s → k < f →
    ∃ j, Fp.ordLoop cap p s f m z = .ok (some (m + j)) ∧ 1 ≤ j ∧ j ≤ k ∧ res P z ^ 2^j = 1 ∧ res P z ^ 2^(j-1) ≠ 1 := by
  intro k
  induction k with
  | zero => intro f m z _ h1 h2; exact absurd (by simpa using h2) h1
  | succ k ih =>
    intro f m z hz h1 h2 hm hf
    obtain ⟨f, rfl⟩ : ∃ g, f = g + 1 := ⟨f - 1, by omega⟩
    rw [Fp.ordLoop]
    obtain ⟨z', e, hz', v⟩ := sqrMod_spec r cp hp hz
    simp only [e, ok_bind]
    rw [if_neg (by omega)]
    by_cases h : res P z' = 1
    · rw [if_neg (by rw [(eqS_one hp hz').2 h]; decide)]
      exact ⟨1, rfl, le_rfl, by omega, by rw [pow_one, ← v]; exact h, by simpa using h1⟩
    · rw [if_pos (by rw [Bool.not_eq_true', ← Bool.not_eq_true, eqS_one hp hz']; exact h)]
      obtain ⟨j, e2, j1, jk, hj, hj'⟩ := ih f (m + 1) z' hz' h
        (by rw [v, ← pow_mul, ← pow_succ']; exact h2) (by omega) (by omega)
      refine ⟨j + 1, by rw [e2]; congr 2; omega, by omega, by omega, ?_, ?_⟩
      · rw [v, ← pow_mul, ← pow_succ'] at hj; exact hj
      · rw [v, ← pow_mul, ← pow_succ'] at hj'
        rwa [show j + 1 - 1 = j - 1 + 1 by omega]

theorem sqrTimes_spec : ∀ (k : ℕ) (b : Big), Elt p b →
    ∃ z, Fp.sqrTimes cap p k b = .ok z ∧ Elt p z ∧ res P z = res P b ^ 2^k
  | 0, b, h => ⟨b, rfl, h, by simp⟩
  | k+1, b, h => by
    obtain ⟨b', e, hb', v⟩ := sqrMod_spec r cp hp h
    obtain ⟨z, e2, hz, v2⟩ := sqrTimes_spec k b' hb'
    refine ⟨z, by rw [Fp.sqrTimes, e, ok_bind, e2], hz, ?_⟩
    rw [v2, v, ← pow_mul, ← pow_succ']

theorem tonelli_spec (n : ZMod P) : ∀ (f s : ℕ) (c x t : Big), Elt p c → Elt p x → Elt p t → 1 ≤ s → s < f →
    res P x ^ 2 = res P t * n → res P c ^ 2^(s-1) = -1 → res P t ^ 2^(s-1) = 1 →
    ∃ z, Fp.tonelli cap p f s c x t = .ok z ∧ Elt p z ∧ res P z ^ 2 = n := by
  intro f
  induction f with
  | zero => intro s c x t _ _ _ _ h; omega
  | succ f ih =>
    intro s c x t hc hx ht hs hf hxt hcs hts
    rw [Fp.tonelli]
    by_cases h : res P t = 1
    · rw [if_neg (by rw [(eqS_one hp ht).2 h]; decide)]
      exact ⟨x, rfl, hx, by rw [hxt, h, one_mul]⟩
    · rw [if_pos (by rw [Bool.not_eq_true', ← Bool.not_eq_true, eqS_one hp ht]; exact h)]
      obtain ⟨m, e, m1, mk, hm, hm'⟩ := ordLoop_spec r cp hp s (s-1) (s+1) 0 t ht h hts (by omega) (by omega)
      rw [Nat.zero_add] at e
      obtain ⟨b, e2, hb, vb⟩ := sqrTimes_spec r cp hp (s - m - 1) c hc
      obtain ⟨c', e3, hc', vc⟩ := sqrMod_spec r cp hp hb
      obtain ⟨x', e4, hx', vx⟩ := mulMod_spec r cp hp hx hb
      obtain ⟨t', e5, ht', vt⟩ := mulMod_spec r cp hp ht hc'
      simp only [e, e2, e3, e4, e5, ok_bind]
      have hc2 : res P c' ^ 2^(m-1) = -1 := by
        rw [vc, vb, ← pow_mul, ← pow_mul, ← hcs]
        congr 1
        rw [← pow_succ', ← pow_add]; congr 1; omega
      have ht2 : res P t ^ 2^(m-1) = -1 := by
        have : (res P t ^ 2^(m-1)) ^ 2 = 1 := by
          rw [← pow_mul, ← pow_succ, show m - 1 + 1 = m by omega]; exact hm
        rcases (sq_eq_sq_iff_eq_or_eq_neg.1 (this.trans (one_pow 2).symm)) with h | h
        · exact absurd h hm'
        · exact h
      refine ih m c' x' t' hc' hx' ht' m1 (by omega) ?_ hc2 ?_
      · rw [vx, vt, vc]; linear_combination (res P b)^2 * hxt
      · rw [vt, mul_pow, ht2, hc2]; ring

omit r in
theorem exists_nonres (h2 : P ≠ 2) : ∃ z : ℕ, 2 ≤ z ∧ z < P ∧ jacobiSym z P = -1 := by
  obtain ⟨a, ha⟩ := FiniteField.exists_nonsquare (F := ZMod P) (by rwa [ZMod.ringChar_zmod_n])
  refine ⟨a.val, ?_, ZMod.val_lt a, ?_⟩
  · by_contra h
    have : a.val = 0 ∨ a.val = 1 := by omega
    apply ha
    rw [← ZMod.natCast_zmod_val a]
    rcases this with h | h <;> rw [h] <;> simp
  · rw [← jacobiSym.legendreSym.to_jacobiSym, legendreSym.eq_neg_one_iff]
    rw [Int.cast_natCast, ZMod.natCast_zmod_val]; exact ha

theorem jacobi_elt {x : Big} (hx : Elt p x) (h2 : P ≠ 2) : jacobi cap x p = .ok (legendreSym P x.toInt) := by
  have hodd := hP.1.eq_two_or_odd.resolve_left h2
  rw [jacobi_spec cap x p hx.c cp (hx.fits r cp) r.fitsP (by have := hx.nn; have := hx.lt; omega) (by omega)]
  rw [jacobiSym.legendreSym.to_jacobiSym, hp]; rfl

theorem findNonRes_spec (h2 : P ≠ 2) (z₀ : ℕ) (hz₀ : z₀ < P) (hj : jacobiSym z₀ P = -1) :
    ∀ (f : ℕ) (z : Big), Elt p z → z.toInt ≤ z₀ → (z₀ : ℤ) - z.toInt < f →
    ∃ w, Fp.findNonRes cap p f z = .ok w ∧ Elt p w ∧ legendreSym P w.toInt = -1 := by
  intro f
  induction f with
  | zero => intro z _ _ _; exfalso; omega
  | succ f ih =>
    intro z hz hle hf
    rw [Fp.findNonRes, jacobi_elt r cp hp hz h2, ok_bind]
    by_cases h : legendreSym P z.toInt = -1
    · rw [if_neg (by simpa using h)]; exact ⟨z, rfl, hz, h⟩
    · rw [if_pos h]
      obtain ⟨c, v⟩ := adds1_room r 1 hz.c (hz.len cp) (Canon.len_pos cp)
      have v : (incr cap z).toInt = z.toInt + 1 := v
      have hne : z.toInt ≠ z₀ := by
        intro e; apply h; rw [e, jacobiSym.legendreSym.to_jacobiSym]; exact hj
      exact ih (incr cap z) ⟨c, by have := hz.nn; omega, by omega⟩ (by omega) (by push_cast at hf; omega)

theorem fpSqrt_spec {n : Big} (hn : Elt p n) (h2 : P ≠ 2) :
    ∃ z, Fp.sqrt cap n p = .ok z ∧ Elt p z ∧ (IsSquare (res P n) → res P z ^ 2 = res P n) ∧
      (¬ IsSquare (res P n) → z.toInt = 0) := by
  have h1 : (1:ℤ) < p.toInt := by rw [hp]; exact_mod_cast hP.1.one_lt
  have hodd := hP.1.eq_two_or_odd.resolve_left h2
  have hpl := Canon.len_pos cp
  have h0 : (ofInt32 0).toInt = 0 := by decide
  unfold Fp.sqrt
  rw [jacobi_elt r cp hp hn h2, ok_bind]
  by_cases hl : legendreSym P n.toInt = 1
  swap
  · rw [if_pos hl]
    refine ⟨_, rfl, zero_elt (by omega), fun hs => ?_, fun _ => h0⟩
    have : res P n = 0 := by
      by_contra hne
      exact hl ((legendreSym.eq_one_iff P hne).2 hs)
    rw [this]; unfold res; rw [h0]; simp
  rw [if_neg (by simpa using hl)]
  have hn0 : res P n ≠ 0 := by
    intro h
    have := (legendreSym.eq_zero_iff P n.toInt).2 h
    rw [hl] at this; cases this
  have hsq : IsSquare (res P n) := (legendreSym.eq_one_iff P hn0).1 hl
  have heu : res P n ^ (P / 2) = 1 := (ZMod.euler_criterion P hn0).1 hsq
  obtain ⟨m4, e4, l4, -, v4⟩ := mods1_spec p 4 (by decide)
  have c4 : m4.Canon := ⟨by intro h; rw [h] at l4; simp at l4, by intro h; omega⟩
  have v4' : m4.toInt = p.toInt % 4 := by
    rw [v4, Int.tmod_eq_emod_of_nonneg (by omega)]; rfl
  simp only [e4, ok_bind]
  by_cases h3 : p.toInt % 4 = 3
  · rw [if_pos ((eqS_iff c4 3).2 (by rw [v4', h3]; rfl))]
    obtain ⟨ca, va⟩ := adds1_room r 1 cp le_rfl hpl
    obtain ⟨d, ed, cd, -, vd⟩ := divs1_spec cap (adds1 cap p 1) 4 ca (adds1_spec cap p 1 cp r.fitsP).2.1 (by decide)
    have va : (adds1 cap p 1).toInt = p.toInt + 1 := va
    rw [va, show (BitVec.toInt (4 : BitVec 32)) = 4 from rfl, Int.tdiv_eq_ediv_of_nonneg (by omega)] at vd
    simp only [ed, ok_bind]
    have nd := neg_of_toInt_pos (x := d) (by omega)
    obtain ⟨z, ez, hz, vz⟩ := modexp_elt r cp hp hn cd nd
    refine ⟨z, ez, hz, fun _ => ?_, fun h => absurd hsq h⟩
    have hv : val d.ws = (P + 1) / 4 := by
      have := toInt_of_nonneg nd; omega
    rw [vz, hv, ← pow_mul, show (P + 1) / 4 * 2 = P / 2 + 1 by omega, pow_succ, heu, one_mul]
  · rw [if_neg (by rw [eqS_iff c4 3, v4']; exact h3)]
    obtain ⟨cs, vs⟩ := subs1_room r 1 cp le_rfl hpl
    have vs : (subs1 cap p 1).toInt = p.toInt - 1 := vs
    have ns := neg_of_toInt_pos (x := subs1 cap p 1) (by omega)
    obtain ⟨q, s, eq, cq, nq, vq, oq, lq⟩ := countTrailingZero_spec (subs1 cap p 1) cs ns (by
      have := toInt_of_nonneg ns; omega)
    have hPs : P - 1 = 2^s * val q.ws := by
      rw [← vq]; have := toInt_of_nonneg ns; omega
    have hs1 : 1 ≤ s := by
      rcases Nat.eq_zero_or_pos s with h | h
      · rw [h, pow_zero, one_mul] at hPs; omega
      · exact h
    have hP2 : P / 2 = 2^(s-1) * val q.ws := by
      have : 2^s = 2 * 2^(s-1) := by rw [← pow_succ']; congr 1; omega
      rw [this, mul_assoc] at hPs; omega
    obtain ⟨z₀, z2, zP, hj⟩ := exists_nonres (p := p) cp hp h2
    have htwo : (ofInt32 2).toInt = 2 := by decide
    have hfuel : wordsFuel p.ws = P := by
      have : ∀ l : List Word, wordsFuel l = val l := by
        intro l; induction l with
        | nil => rfl
        | cons a l ih => rw [wordsFuel, val_cons, ih]
      rw [this]
      have := toInt_of_nonneg (neg_of_toInt_pos (x := p) (by omega)); omega
    obtain ⟨w, ew, hw, lw⟩ := findNonRes_spec r cp hp h2 z₀ zP hj (wordsFuel p.ws) (ofInt32 2)
      ⟨by decide, by rw [htwo]; omega, by rw [htwo]; omega⟩ (by omega) (by omega)
    obtain ⟨c, ec, hc, vc⟩ := modexp_elt r cp hp hw cq nq
    obtain ⟨f1, -⟩ := (⟨lq, trivial⟩ : _ ∧ True)
    have lsub : (subs1 cap p 1).ws.length ≤ p.ws.length := len_le_of_abs cs cp (by
      rw [vs, abs_of_nonneg (by omega), abs_of_nonneg (by omega)]; omega)
    obtain ⟨cq1, vq1⟩ := subs1_room r 1 cq (le_trans lq lsub) hpl
    have vq1 : (subs1 cap q 1).toInt = q.toInt - 1 := vq1
    obtain ⟨d, ed, cd, -, vd⟩ := divs1_spec cap (subs1 cap q 1) 2 cq1 (subs1_spec cap q 1 cq (r.Fits (by omega))).2.1 (by decide)
    have hq := toInt_of_nonneg nq
    rw [vq1, show (BitVec.toInt (2 : BitVec 32)) = 2 from rfl, Int.tdiv_eq_ediv_of_nonneg (by omega)] at vd
    have nd : d.neg = false := by
      rcases eq_or_ne d.toInt 0 with h | h
      · exact divs1_neg cap _ 2 cq1.1 d ed h
      · exact neg_of_toInt_pos (by omega)
    obtain ⟨x, ex, hx, vx⟩ := modexp_elt r cp hp hn cd nd
    obtain ⟨x2, ex2, hx2, vx2⟩ := sqrMod_spec r cp hp hx
    obtain ⟨t, et, ht, vt⟩ := mulMod_spec r cp hp hx2 hn
    obtain ⟨y, ey, hy, vy⟩ := mulMod_spec r cp hp hn hx
    simp only [eq, ew, ec, ed, ex, ex2, et, ey, ok_bind]
    have hdv : 2 * val d.ws + 1 = val q.ws := by
      have := toInt_of_nonneg nd; omega
    have ht' : res P t = res P n ^ val q.ws := by
      rw [vt, vx2, vx, ← hdv, pow_succ]; ring
    obtain ⟨z, ez, hz, vz⟩ := tonelli_spec r cp hp (res P n) (s+1) s c y t hc hy ht hs1 (by omega)
      (by rw [ht', vy, vx, ← hdv]; ring)
      (by
        rw [vc, ← pow_mul, mul_comm, ← hP2]
        have := legendreSym.eq_pow P w.toInt
        rw [lw] at this
        unfold res
        rw [← this]; norm_num)
      (by rw [ht', ← pow_mul, mul_comm, ← hP2]; exact heu)
    exact ⟨z, ez, hz, fun _ => vz, fun h => absurd hsq h⟩

end
end Ack
