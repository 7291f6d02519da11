import Verif.Proof.Words
/-! # Correctness of the multi-word division -/
namespace Ack

theorem getLastD_eq (x : List Word) (h : x ≠ []) : x.getLastD 0 = x.getLast h := by
  rw [List.getLastD_eq_getLast?, List.getLast?_eq_some_getLast h]; rfl

theorem addOne_toNat (w : Word) (h : w.toNat ≠ 4294967295) : (w + 1).toNat = w.toNat + 1 := by
  have := w.isLt
  rw [BitVec.toNat_add]
  exact Nat.mod_eq_of_lt (by simp; omega)

/-- Value of an array in terms of its top word. -/
theorem val_top (x : List Word) (h : x ≠ []) :
    val x = val x.dropLast + B (x.length - 1) * (x.getLastD 0).toNat := by
  rw [getLastD_eq x h]; exact val_dropLast x h

theorem val_dropLast_lt (x : List Word) : val x.dropLast < B (x.length - 1) := by
  have := val_lt x.dropLast; simpa using this

theorem val_ge_top (x : List Word) (h : x ≠ []) : B (x.length - 1) * (x.getLastD 0).toNat ≤ val x := by
  have := val_top x h; omega

theorem val_lt_top (x : List Word) (h : x ≠ []) : val x < B (x.length - 1) * ((x.getLastD 0).toNat + 1) := by
  have := val_top x h; have := val_dropLast_lt x; rw [mul_add, mul_one]; omega

theorem wordEqZero (w : Word) : w = 0 ↔ w.toNat = 0 :=
  ⟨fun h => by rw [h]; rfl, fun h => BitVec.eq_of_toNat_eq (by simpa using h)⟩

/-! ## `div_small` -/

theorem divSmallLoop_spec (y : List Word) (X0 : Nat) (hY : 0 < val y) (hq : X0 / val y < 4294967296) :
    ∀ (f : Nat) (x : List Word) (qv : Word), x.length = y.length →
    qv.toNat * val y + val x = X0 → val x / val y < f →
    ∃ x' qv', divSmallLoop y f x qv = .ok (x', qv') ∧ x'.length = y.length ∧
      qv'.toNat = X0 / val y ∧ val x' = X0 % val y
  | 0, x, qv, _, _, hf => absurd hf (Nat.not_lt_zero _)
  | f+1, x, qv, hl, hi, hf => by
    unfold divSmallLoop
    by_cases hc : cmpGeN x y = true
    · rw [if_pos hc]
      have hge := (cmpGeN_spec x y hl).1 hc
      obtain ⟨hv, -⟩ := subN_val x y hl hge
      have hdiv : val x / val y = (val x - val y) / val y + 1 := by
        rw [Nat.div_eq_sub_div hY hge]
      have hq1 : (qv + 1).toNat = qv.toNat + 1 := by
        have h1 : qv.toNat + 1 ≤ X0 / val y := by
          rw [Nat.le_div_iff_mul_le hY]; nlinarith
        simp [BitVec.toNat_add]; omega
      refine divSmallLoop_spec y X0 hY hq f _ _ ?_ ?_ ?_
      · rw [subN_length x y hl, hl]
      · rw [hv, hq1, add_mul, one_mul]; omega
      · rw [hv]; omega
    · rw [if_neg hc]
      have hlt : val x < val y := by
        by_contra h; exact hc ((cmpGeN_spec x y hl).2 (by omega))
      refine ⟨x, qv, rfl, hl, ?_, ?_⟩
      · rw [← hi, add_comm, Nat.add_mul_div_right _ _ hY, Nat.div_eq_of_lt hlt]; omega
      · rw [← hi, add_comm, Nat.add_mul_mod_self_right, Nat.mod_eq_of_lt hlt]

/-- The first estimate of `div_small` leaves less than twice the divisor. -/
theorem divSmall_first (x y : List Word) (hx : x ≠ []) (hy2 : 2 ≤ y.length) (hlen : x.length = y.length)
    (hbig' : 65536 ≤ (y.getLastD 0).toNat) (hlt : val y < val x) :
    ∃ st : List Word × Word, (if y.getLastD 0 = 0xffffffff#32 then ((subN x y).1, (1 : Word))
        else ((subN x (mulWordN y (x.getLastD 0 / (y.getLastD 0 + 1))).1).1, x.getLastD 0 / (y.getLastD 0 + 1))) = st ∧
        st.1.length = y.length ∧ st.2.toNat * val y + val st.1 = val x ∧ val st.1 < 2 * val y := by
  have hy : y ≠ [] := by intro h; rw [h] at hy2; simp at hy2
  have hYge := val_ge_top y hy
  have hYlt := val_lt_top y hy
  have hBx : val x < 4294967296 * B (y.length - 1) := by
    have := val_lt x
    rw [hlen, show y.length = (y.length - 1) + 1 by omega, B_succ] at this
    simpa using this
  have hyl := (y.getLastD 0).isLt
  have hB1 := B_pos (y.length - 1)
  refine ⟨_, rfl, ?_⟩
  split
  · obtain ⟨hv, -⟩ := subN_val x y hlen (by omega)
    refine ⟨by simp only [subN_length x y hlen, hlen], ?_, ?_⟩
    · simp only [hv]
      simp; omega
    · rename_i hmax
      rw [hv]
      rw [hmax, show (0xffffffff#32 : Word).toNat = 4294967295 from rfl] at hYge
      omega
  · rename_i hne
    set qv : Word := x.getLastD 0 / (y.getLastD 0 + 1) with hqv
    have hxl := (x.getLastD 0).isLt
    have hyl := (y.getLastD 0).isLt
    have hyt1 : (y.getLastD 0 + 1).toNat = (y.getLastD 0).toNat + 1 := by
      have : (y.getLastD 0).toNat ≠ 4294967295 := by
        intro h; apply hne; apply BitVec.eq_of_toNat_eq; rw [h]; rfl
      exact addOne_toNat _ this
    have hqvn : qv.toNat = (x.getLastD 0).toNat / ((y.getLastD 0).toNat + 1) := by
      rw [hqv, BitVec.toNat_udiv, hyt1]
    have hle : val y * qv.toNat ≤ val x := by
      have h1 : qv.toNat * ((y.getLastD 0).toNat + 1) ≤ (x.getLastD 0).toNat := by
        rw [hqvn]; exact Nat.div_mul_le_self _ _
      calc val y * qv.toNat ≤ B (y.length - 1) * ((y.getLastD 0).toNat + 1) * qv.toNat :=
            Nat.mul_le_mul_right _ hYlt.le
        _ = B (y.length - 1) * (qv.toNat * ((y.getLastD 0).toNat + 1)) := by ring
        _ ≤ B (y.length - 1) * (x.getLastD 0).toNat := Nat.mul_le_mul_left _ h1
        _ = B (x.length - 1) * (x.getLastD 0).toNat := by rw [hlen]
        _ ≤ val x := val_ge_top x hx
    have hm := mulWordN_spec y qv
    have hml := mulWordN_length y qv
    have hc0 : (mulWordN y qv).2.toNat = 0 := by
      by_contra hne
      have h1 : B y.length * 1 ≤ B y.length * (mulWordN y qv).2.toNat := Nat.mul_le_mul_left _ (by omega)
      have h2 := val_lt x
      rw [hlen] at h2; omega
    rw [hc0, mul_zero, add_zero] at hm
    obtain ⟨hv, -⟩ := subN_val x (mulWordN y qv).1 (by rw [hml, hlen]) (by omega)
    refine ⟨by simp only [subN_length x (mulWordN y qv).1 (by rw [hml, hlen]), hlen], ?_, ?_⟩
    · simp only [hv, hm]
      rw [mul_comm qv.toNat]; omega
    · simp only [hv, hm]
      -- x < (xt + 1) B', qv (yt + 1) ≥ xt - yt, and qv < 2^16 ≤ yt
      have hxt := val_lt_top x hx
      rw [hlen] at hxt
      have hdm := Nat.div_add_mod (x.getLastD 0).toNat ((y.getLastD 0).toNat + 1)
      have hml' := Nat.mod_lt (x.getLastD 0).toNat (y := (y.getLastD 0).toNat + 1) (by omega)
      rw [← hqvn] at hdm
      have hq16 : qv.toNat < 65536 := by
        rw [hqvn, Nat.div_lt_iff_lt_mul (by omega)]
        omega
      generalize (x.getLastD 0).toNat = xt at *
      generalize (y.getLastD 0).toNat = yt at *
      generalize qv.toNat = w at *
      generalize B (y.length - 1) = b at *
      have h1 : b * yt * w ≤ val y * w := Nat.mul_le_mul_right _ hYge
      have h2 : b * (xt + 1) ≤ b * ((yt + 1) * w + yt + 1) := Nat.mul_le_mul_left _ (by omega)
      have h3 : b * ((yt + 1) * w + yt + 1) = b * yt * w + b * (w + yt + 1) := by ring
      have h4 : b * (w + yt + 1) ≤ b * (2 * yt) := Nat.mul_le_mul_left _ (by omega)
      have h5 : b * (2 * yt) = 2 * (b * yt) := by ring
      omega

/-- What `div_small` returns, when it handles the case. -/
theorem divSmall_spec (x y : List Word) (hx : x ≠ []) (hy2 : 2 ≤ y.length)
    (htop : (y.getLastD 0).toNat ≠ 0) (hxtop : 1 < x.length → (x.getLastD 0).toNat ≠ 0) :
    (divSmall x y = .ok none ∧ y.length ≤ x.length) ∨
    ∃ qv r, divSmall x y = .ok (some (qv, r, getRealSize r)) ∧ r ≠ [] ∧ r.length ≤ x.length ∧
      qv.toNat = val x / val y ∧ val r = val x % val y := by
  have hy : y ≠ [] := by intro h; rw [h] at hy2; simp at hy2
  have hYge := val_ge_top y hy
  have hYlt := val_lt_top y hy
  have hYpos : 0 < val y := by
    have := B_pos (y.length - 1); have := Nat.mul_pos this (Nat.pos_of_ne_zero htop); omega
  unfold divSmall
  simp only
  by_cases h1 : x.length > y.length
  · left; rw [if_pos h1]; exact ⟨rfl, by omega⟩
  rw [if_neg h1]
  -- value of the comparison
  have hret : (if x.length < y.length then (-1 : Int) else cmpN x y) =
      if val x < val y then -1 else if val x = val y then 0 else 1 := by
    split
    · rename_i hlt
      have : val x < val y := by
        have h2 := val_lt x
        have h3 : B x.length ≤ B (y.length - 1) := B_le (by omega)
        have h4 : B (y.length - 1) * 1 ≤ B (y.length - 1) * (y.getLastD 0).toNat := Nat.mul_le_mul_left _ (by omega)
        omega
      rw [if_pos this]
    · exact cmpN_spec x y (by omega)
  rw [hret]
  by_cases hlt : val x < val y
  · right
    rw [if_pos hlt, if_pos (by decide)]
    exact ⟨0, x, rfl, hx, le_rfl, by simp [Nat.div_eq_of_lt hlt], by rw [Nat.mod_eq_of_lt hlt]⟩
  rw [if_neg hlt]
  by_cases heq : val x = val y
  · right
    rw [if_pos heq, if_neg (by decide), if_pos rfl]
    refine ⟨1, List.replicate x.length 0, rfl, ?_, by simp, ?_, ?_⟩
    · intro h; apply hx; simpa using h
    · rw [heq, Nat.div_self hYpos]; rfl
    · rw [val_replicate_zero, heq, Nat.mod_self]
  rw [if_neg heq, if_neg (by decide), if_neg (by decide)]
  have hlen : x.length = y.length := by
    by_contra hne
    have h2 := val_lt x
    have h3 : B x.length ≤ B (y.length - 1) := B_le (by omega)
    have h4 : B (y.length - 1) * 1 ≤ B (y.length - 1) * (y.getLastD 0).toNat := Nat.mul_le_mul_left _ (by omega)
    omega
  by_cases hbig : y.getLastD 0 ≥ 65536#32
  · right
    rw [if_pos hbig]
    have hbig' : 65536 ≤ (y.getLastD 0).toNat := by
      simpa [GE.ge, BitVec.le_def] using hbig
    have hBx : val x < 4294967296 * B (y.length - 1) := by
      have := val_lt x
      rw [hlen, show y.length = (y.length - 1) + 1 by omega, B_succ] at this
      simpa using this
    have hq32 : val x / val y < 65536 := by
      rw [Nat.div_lt_iff_lt_mul hYpos]
      have : 65536 * B (y.length - 1) ≤ val y := by
        calc 65536 * B (y.length - 1) = B (y.length-1) * 65536 := by ring
          _ ≤ B (y.length - 1) * (y.getLastD 0).toNat := Nat.mul_le_mul_left _ hbig'
          _ ≤ val y := hYge
      omega
    have hst := divSmall_first x y hx hy2 hlen hbig' (by omega)
    obtain ⟨st, hst, hstl, hsti, hst2⟩ := hst
    rw [hst]
    have hlast : val st.1 / val y < divSmallFuel := by
      rw [Nat.div_lt_iff_lt_mul hYpos]
      exact hst2
    obtain ⟨x', qv', e1, e2, e3, e4⟩ :=
      divSmallLoop_spec y (val x) hYpos (by omega) divSmallFuel st.1 st.2 hstl hsti hlast
    refine ⟨qv', x', ?_, ?_, by omega, e3, e4⟩
    · rw [e1]; rfl
    · intro h; rw [h] at e2; simp at e2; omega
  · left; rw [if_neg hbig]; exact ⟨rfl, by omega⟩

/-! ## `div_full_bit` -/

theorem addWord_at (q : List Word) (d : Nat) (v : Word) (hd : d < q.length)
    (hb : val q + v.toNat * B d < B q.length) :
    (q.take d ++ (addWord (q.drop d) v).1).length = q.length ∧
    val (q.take d ++ (addWord (q.drop d) v).1) = val q + v.toNat * B d := by
  have hne : q.drop d ≠ [] := by intro h; rw [List.drop_eq_nil_iff] at h; omega
  obtain ⟨a1, a2, a3⟩ := addWord_spec (q.drop d) v hne
  have hs := val_take_drop d q hd.le
  have hBB : B q.length = B d * B (q.drop d).length := by rw [← B_add]; congr 1; simp; omega
  have hc : (addWord (q.drop d) v).2.toNat = 0 := by
    by_contra hne
    have h1 : (addWord (q.drop d) v).2.toNat = 1 := by omega
    rw [h1, mul_one] at a2
    have h2 : B d * B (q.drop d).length ≤ B d * (val (q.drop d) + v.toNat) := Nat.mul_le_mul_left _ (by omega)
    rw [← hBB, mul_add, mul_comm (B d) v.toNat] at h2
    omega
  rw [hc, mul_zero, add_zero] at a2
  refine ⟨by simp [a1]; omega, ?_⟩
  rw [val_append, a2]
  simp only [List.length_take, Nat.min_eq_left hd.le]
  rw [hs]; ring

structure DfbInv (y : List Word) (X0 qn : Nat) (q x : List Word) : Prop where
  ql : q.length = qn
  inv : val q * val y + val x = X0
  xl : x.length ≤ y.length + qn
  xl' : y.length - 1 ≤ x.length

theorem dfb_hyp_q {y q x : List Word} {X0 qn : Nat} (hY : 0 < val y) (hX : X0 < val y * B qn)
    {k : Nat} (h : (val q + k) * val y ≤ X0) : val q + k < B qn := by
  have : (val q + k) * val y < B qn * val y := by rw [mul_comm (B qn)]; omega
  exact lt_of_mul_lt_mul_right this (Nat.zero_le _)

theorem dfbStep_v (xt rev yt : Word) (hyt : 2147483648 ≤ yt.toNat) (hyt' : yt.toNat < 4294967295)
    (hrev : rev = (divWord1 0x80000000#32 0 (yt + 1)).1) (hxy : xt.toNat ≤ yt.toNat) :
    (((mulWord1 xt rev).1 <<< 1) ||| ((mulWord1 xt rev).2 >>> 31)).toNat * (yt.toNat + 1) ≤ xt.toNat * 4294967296 := by
  have hyt1 : (yt + 1).toNat = yt.toNat + 1 := by simp [BitVec.toNat_add]; omega
  have hr := (divWord1_spec 0x80000000#32 0 (yt + 1) (by rw [hyt1]; simp; omega)).1
  rw [← hrev, hyt1] at hr
  norm_num at hr
  have hrle : rev.toNat * (yt.toNat + 1) ≤ 9223372036854775808 := by rw [hr]; exact Nat.div_mul_le_self _ _
  have hxl := xt.isLt
  have hrl := rev.isLt
  have hprod : xt.toNat * rev.toNat < 9223372036854775808 := by
    by_contra hcon
    have h1 : 9223372036854775808 * (yt.toNat + 1) ≤ xt.toNat * rev.toNat * (yt.toNat + 1) := Nat.mul_le_mul_right _ (by omega)
    have h2 : xt.toNat * rev.toNat * (yt.toNat + 1) ≤ xt.toNat * 9223372036854775808 := by
      rw [mul_assoc]; exact Nat.mul_le_mul_left _ hrle
    omega
  set P : DWord := xt.setWidth 64 * rev.setWidth 64 with hP
  have hPn : P.toNat = xt.toNat * rev.toNat := by
    rw [hP, BitVec.toNat_mul]; simp only [BitVec.toNat_setWidth]
    rw [Nat.mod_eq_of_lt (a := xt.toNat) (by omega), Nat.mod_eq_of_lt (a := rev.toNat) (by omega)]
    exact Nat.mod_eq_of_lt (by omega)
  have hhi : ((P >>> 32).setWidth 32 : Word).toNat = P.toNat / 4294967296 := by
    simp [BitVec.toNat_ushiftRight, Nat.shiftRight_eq_div_pow]; omega
  have hlo : (P.setWidth 32 : Word).toNat = P.toNat % 4294967296 := by simp
  have hv := shl_or_word ((P >>> 32).setWidth 32) (P.setWidth 32) 1 (by omega) (by omega)
  have hv' : (((mulWord1 xt rev).1 <<< 1) ||| ((mulWord1 xt rev).2 >>> 31)).toNat = P.toNat / 2147483648 := by
    simp only [mulWord1, ← hP]
    rw [hv, hhi, hlo]
    norm_num
    omega
  rw [hv', hPn]
  have h3 : xt.toNat * rev.toNat / 2147483648 * 2147483648 ≤ xt.toNat * rev.toNat := Nat.div_mul_le_self _ _
  have h4 : xt.toNat * rev.toNat * (yt.toNat + 1) ≤ xt.toNat * 9223372036854775808 := by
    rw [mul_assoc]; exact Nat.mul_le_mul_left _ hrle
  have h5 := Nat.mul_le_mul_right (yt.toNat + 1) h3
  generalize xt.toNat * rev.toNat / 2147483648 = w at *
  have h6 : w * 2147483648 * (yt.toNat + 1) = (w * (yt.toNat + 1)) * 2147483648 := by ring
  rw [h6] at h5
  omega

theorem dfbStep_v_low (xt rev yt : Word) (hyt : 2147483648 ≤ yt.toNat) (hyt' : yt.toNat < 4294967295)
    (hrev : rev = (divWord1 0x80000000#32 0 (yt + 1)).1) (hxy : xt.toNat ≤ yt.toNat) :
    xt.toNat * 4294967296 < ((((mulWord1 xt rev).1 <<< 1) ||| ((mulWord1 xt rev).2 >>> 31)).toNat + 3) * (yt.toNat + 1) := by
  have hyt1 : (yt + 1).toNat = yt.toNat + 1 := by simp [BitVec.toNat_add]; omega
  have hr := (divWord1_spec 0x80000000#32 0 (yt + 1) (by rw [hyt1]; simp; omega)).1
  rw [← hrev, hyt1] at hr
  norm_num at hr
  rw [show BitVec.toNat (0 : Word) = 0 from rfl, Nat.add_zero] at hr
  have ht0 : 0 < yt.toNat + 1 := by omega
  have hrle : rev.toNat * (yt.toNat + 1) ≤ 9223372036854775808 := by rw [hr]; exact Nat.div_mul_le_self _ _
  have hrge : 9223372036854775808 < (rev.toNat + 1) * (yt.toNat + 1) := by
    have h1 := Nat.div_add_mod 9223372036854775808 (yt.toNat + 1)
    have h2 := Nat.mod_lt 9223372036854775808 (y := yt.toNat + 1) (by omega)
    rw [← hr] at h1
    have h3 : (rev.toNat + 1) * (yt.toNat + 1) = (yt.toNat + 1) * rev.toNat + (yt.toNat + 1) := by ring
    omega
  have hxl := xt.isLt
  have hrl := rev.isLt
  have hprod : xt.toNat * rev.toNat < 9223372036854775808 := by
    by_contra hcon
    have h1 : 9223372036854775808 * (yt.toNat + 1) ≤ xt.toNat * rev.toNat * (yt.toNat + 1) := Nat.mul_le_mul_right _ (by omega)
    have h2 : xt.toNat * rev.toNat * (yt.toNat + 1) ≤ xt.toNat * 9223372036854775808 := by
      rw [mul_assoc]; exact Nat.mul_le_mul_left _ hrle
    omega
  set P : DWord := xt.setWidth 64 * rev.setWidth 64 with hP
  have hPn : P.toNat = xt.toNat * rev.toNat := by
    rw [hP, BitVec.toNat_mul]; simp only [BitVec.toNat_setWidth]
    rw [Nat.mod_eq_of_lt (a := xt.toNat) (by omega), Nat.mod_eq_of_lt (a := rev.toNat) (by omega)]
    exact Nat.mod_eq_of_lt (by omega)
  have hhi : ((P >>> 32).setWidth 32 : Word).toNat = P.toNat / 4294967296 := by
    simp [BitVec.toNat_ushiftRight, Nat.shiftRight_eq_div_pow]; omega
  have hlo : (P.setWidth 32 : Word).toNat = P.toNat % 4294967296 := by simp
  have hv := shl_or_word ((P >>> 32).setWidth 32) (P.setWidth 32) 1 (by omega) (by omega)
  have hv' : (((mulWord1 xt rev).1 <<< 1) ||| ((mulWord1 xt rev).2 >>> 31)).toNat = P.toNat / 2147483648 := by
    simp only [mulWord1, ← hP]
    rw [hv, hhi, hlo]
    norm_num
    omega
  rw [hv', hPn]
  generalize yt.toNat + 1 = t at *
  generalize xt.toNat = a at *
  generalize rev.toNat = r at *
  have h3 : a * r < (a * r / 2147483648 + 1) * 2147483648 := by omega
  generalize a * r / 2147483648 = w at *
  -- a 2^63 ≤ a (r + 1) t = a r t + a t ≤ (w + 1) 2^31 t + 2^32 t
  have h4 : a * 9223372036854775808 ≤ a * ((r + 1) * t) := Nat.mul_le_mul_left _ hrge.le
  have h5 : a * ((r + 1) * t) = (a * r) * t + a * t := by ring
  have h6 : (a * r) * t ≤ ((w + 1) * 2147483648) * t := Nat.mul_le_mul_right _ h3.le
  have h7 : a * t < 4294967296 * t := Nat.mul_lt_mul_of_pos_right hxl ht0
  have h8 : ((w + 1) * 2147483648) * t = 2147483648 * (w * t) + 2147483648 * t := by ring
  have h9 : (w + 3) * t = w * t + 3 * t := by ring
  omega

/-- How many passes are left, for a dividend of `n` words and value `X`. -/
def dfbRank (y : List Word) (n X : Nat) : Nat :=
  if n < y.length then 0
  else 12 * (n - y.length) +
    if val y ≤ X / B (n - y.length) then 12
    else if 5 * B y.length ≤ X / B (n - y.length - 1) then 11
    else 1 + 2 * (X / B (n - y.length - 1)) / B y.length

theorem dfbRank_le (y : List Word) (n X : Nat) : dfbRank y n X ≤ 12 * (n - y.length) + 12 := by
  unfold dfbRank
  have hB := B_pos y.length
  split
  · omega
  · split
    · omega
    · split
      · omega
      · rename_i h
        have : 2 * (X / B (n - y.length - 1)) / B y.length < 10 := by
          rw [Nat.div_lt_iff_lt_mul hB]; omega
        omega

theorem dfbRank_pos (y : List Word) (n X : Nat) (h : y.length ≤ n) : 12 * (n - y.length) + 1 ≤ dfbRank y n X := by
  unfold dfbRank
  rw [if_neg (by omega)]
  split
  · omega
  · split
    · omega
    · generalize 2 * (X / B (n - y.length - 1)) / B y.length = z
      omega

/-- The window is below the divisor after its subtraction. -/
theorem dfbRank_ge (y : List Word) (n X : Nat) (h : y.length ≤ n) (hX : X < B n) (hY : B y.length ≤ 2 * val y)
    (hge : val y ≤ X / B (n - y.length)) : dfbRank y n (X - B (n - y.length) * val y) < dfbRank y n X := by
  have hB := B_pos y.length
  have hlt : X / B (n - y.length) < B y.length := by
    rw [Nat.div_lt_iff_lt_mul (B_pos _), ← B_add, show y.length + (n - y.length) = n by omega]; exact hX
  have e : (X - B (n - y.length) * val y) / B (n - y.length) = X / B (n - y.length) - val y := Nat.sub_mul_div X _ (val y)
  unfold dfbRank
  have hn : ¬ n < y.length := by omega
  rw [if_neg hn, if_neg hn, if_pos hge,
    if_neg (show ¬ val y ≤ (X - B (n - y.length) * val y) / B (n - y.length) by rw [e]; omega)]
  split
  · omega
  · rename_i h
    generalize (X - B (n - y.length) * val y) / B (n - y.length - 1) = W at *
    have : 2 * W / B y.length < 10 := by
      rw [Nat.div_lt_iff_lt_mul hB]; omega
    omega

theorem dfbRank_lt (y : List Word) (n X X' k : Nat) (h : y.length ≤ n) (hY : B y.length ≤ 2 * val y)
    (hlt : X / B (n - y.length) < val y) (hk : 1 ≤ k) (hX : X' + B (n - y.length - 1) * (k * val y) = X)
    (h5 : 5 * B y.length ≤ X / B (n - y.length - 1) → X / B (n - y.length - 1) < 5 * B y.length + k * val y) :
    dfbRank y n X' < dfbRank y n X := by
  have hB := B_pos y.length
  have e : X' / B (n - y.length - 1) + k * val y = X / B (n - y.length - 1) := by
    rw [← hX, Nat.add_mul_div_left _ _ (B_pos _)]
  have hy : val y ≤ k * val y := Nat.le_mul_of_pos_left _ (by omega)
  have hle : X' / B (n - y.length) ≤ X / B (n - y.length) := Nat.div_le_div_right (by omega)
  unfold dfbRank
  rw [if_neg (by omega), if_neg (by omega), if_neg (by omega), if_neg (by omega)]
  generalize X / B (n - y.length - 1) = W at *
  generalize X' / B (n - y.length - 1) = W' at *
  by_cases hw : 5 * B y.length ≤ W
  · have h5 := h5 hw
    rw [if_neg (by omega), if_pos hw]
    have : 2 * W' / B y.length < 10 := by
      rw [Nat.div_lt_iff_lt_mul hB]; omega
    omega
  · rw [if_neg (by omega), if_neg hw]
    have : 2 * W' / B y.length < 2 * W / B y.length := by
      have h1 : (2 * W' + B y.length) / B y.length = 2 * W' / B y.length + 1 := Nat.add_div_right _ hB
      have h2 : (2 * W' + B y.length) / B y.length ≤ 2 * W / B y.length := Nat.div_le_div_right (by omega)
      omega
    omega

theorem dfbLoop_spec (y : List Word) (rev : Word) (X0 qn : Nat) (hy2 : 2 ≤ y.length)
    (htop : 2147483648 ≤ (y.getLastD 0).toNat)
    (hrev : (y.getLastD 0) ≠ 0xffffffff#32 → rev = (divWord1 0x80000000#32 0 (y.getLastD 0 + 1)).1)
    (hX : X0 < val y * B qn) :
    ∀ (f : Nat) (q x : List Word), DfbInv y X0 qn q x → dfbRank y x.length (val x) < f →
    ∃ q' x', dfbLoop y rev f q x = .ok (q', x') ∧ q'.length = qn ∧ val q' = X0 / val y ∧
      val x' = X0 % val y ∧ y.length - 1 ≤ x'.length ∧ x'.length ≤ x.length := by
  have hy : y ≠ [] := by intro h; rw [h] at hy2; simp at hy2
  have hYge := val_ge_top y hy
  have hYlt := val_lt_top y hy
  have hBy : B y.length = 4294967296 * B (y.length - 1) := by
    rw [← B_succ]; congr 1; omega
  have hYhalf : B y.length ≤ 2 * val y := by
    have h1 : B (y.length - 1) * 2147483648 ≤ B (y.length - 1) * (y.getLastD 0).toNat := Nat.mul_le_mul_left _ htop
    omega
  have hYB : val y < B y.length := val_lt y
  have hYpos : 0 < val y := by have := B_pos y.length; omega
  have hYB1 : B (y.length - 1) ≤ val y := by
    have h1 : B (y.length - 1) * 2147483648 ≤ B (y.length - 1) * (y.getLastD 0).toNat := Nat.mul_le_mul_left _ htop
    have := B_pos (y.length - 1)
    omega
  have fin : ∀ (q x : List Word), val q * val y + val x = X0 → val x < val y →
      val q = X0 / val y ∧ val x = X0 % val y := by
    intro q x h1 h2
    constructor
    · rw [← h1, add_comm, Nat.add_mul_div_right _ _ hYpos, Nat.div_eq_of_lt h2]; omega
    · rw [← h1, add_comm, Nat.add_mul_mod_self_right, Nat.mod_eq_of_lt h2]
  intro f
  induction f with
  | zero => intro q x _ h; omega
  | succ f ih =>
    intro q x I hf
    obtain ⟨ql, inv, xl, xl'⟩ := I
    unfold dfbLoop
    by_cases hlen : x.length ≥ y.length
    swap
    · rw [if_neg hlen]
      have hxlt : val x < val y := by
        have := val_lt x
        have := B_le (n := x.length) (m := y.length - 1) (by omega)
        omega
      obtain ⟨f1, f2⟩ := fin q x inv hxlt
      exact ⟨q, x, rfl, ql, f1, f2, xl', le_rfl⟩
    rw [if_pos hlen]
    have hxne : x ≠ [] := by intro h; rw [h] at hlen; simp only [List.length_nil] at hlen; omega
    by_cases hz : x.getLastD 0 = 0
    · rw [if_pos hz]
      have hv : val x = val x.dropLast := by
        rw [val_top x hxne, hz]; simp
      obtain ⟨q', x', e1, e2, e3, e4, e5, e6⟩ := ih q x.dropLast
        ⟨ql, by rw [← hv]; exact inv, by simp; omega, by simp; omega⟩ (by
          have h1 := dfbRank_pos y x.length (val x) hlen
          rw [List.length_dropLast]
          by_cases hxy : x.length = y.length
          · have : dfbRank y (x.length - 1) (val x.dropLast) = 0 := by unfold dfbRank; rw [if_pos (by omega)]
            omega
          · have h2 := dfbRank_le y (x.length - 1) (val x.dropLast)
            omega)
      exact ⟨q', x', e1, e2, e3, e4, e5, by simp at e6; omega⟩
    rw [if_neg hz]
    have hxt : 1 ≤ (x.getLastD 0).toNat := by
      rw [wordEqZero] at hz; omega
    unfold dfbStep
    simp only
    set d := x.length - y.length with hd
    have hdl : (x.drop d).length = y.length := by simp; omega
    have hsplit := val_take_drop d x (by omega)
    have htl : (x.take d).length = d := by simp; omega
    by_cases hge : cmpGeN (x.drop d) y = true
    · rw [if_pos hge]
      have hge' := (cmpGeN_spec _ _ hdl).1 hge
      obtain ⟨sv, -⟩ := subN_val _ _ hdl hge'
      have hxval : val (x.take d ++ (subN (x.drop d) y).1) = val x - B d * val y := by
        rw [val_append, sv, htl, hsplit, Nat.mul_sub, Nat.add_sub_assoc (Nat.mul_le_mul_left _ hge')]
      have hBle : B d * val y ≤ val x := by
        have := Nat.mul_le_mul_left (B d) hge'; omega
      have hxlen : (x.take d ++ (subN (x.drop d) y).1).length = x.length := by
        rw [List.length_append, htl, subN_length _ _ hdl, hdl]; omega
      have hqq : (val q + 1 * B d) * val y ≤ X0 := by
        rw [one_mul, add_mul]; omega
      have hqb := dfb_hyp_q (q := q) (x := x) hYpos hX hqq
      have hdq : d < q.length := by
        by_contra hcon
        have := B_le (n := qn) (m := d) (by omega)
        omega
      obtain ⟨ql', qv'⟩ := addWord_at q d 1 hdq (by rw [ql]; simpa using hqb)
      have hone : (1 : Word).toNat = 1 := rfl
      rw [hone, one_mul] at qv'
      have inv' : val (q.take d ++ (addWord (q.drop d) 1).1) * val y + val (x.take d ++ (subN (x.drop d) y).1) = X0 := by
        rw [qv', hxval, add_mul]; omega
      by_cases hd0 : d = 0
      · rw [if_pos hd0]
        simp only
        have hxlt : val (x.take d ++ (subN (x.drop d) y).1) < val y := by
          rw [hxval, hd0, B_zero, one_mul]
          have := val_lt x
          have hxy : x.length = y.length := by omega
          rw [hxy] at this; omega
        obtain ⟨f1, f2⟩ := fin _ _ inv' hxlt
        exact ⟨_, _, rfl, by rw [ql', ql], f1, f2, by rw [hxlen]; omega, by rw [hxlen]⟩
      · rw [if_neg hd0]
        simp only
        obtain ⟨q', x', e1, e2, e3, e4, e5, e6⟩ := ih _ _
          ⟨by rw [ql', ql], inv', by rw [hxlen]; exact xl, by rw [hxlen]; exact xl'⟩
          (by
            rw [hxlen, hxval]
            have := dfbRank_ge y x.length (val x) hlen (val_lt x) hYhalf (by
              rw [Nat.le_div_iff_mul_le (B_pos _), mul_comm]; exact hBle)
            rw [← hd] at this
            omega)
        exact ⟨q', x', e1, e2, e3, e4, e5, by rw [hxlen] at e6; exact e6⟩
    rw [if_neg hge]
    have hlt : val (x.drop d) < val y := by
      by_contra h; exact hge ((cmpGeN_spec _ _ hdl).2 (by omega))
    by_cases hd0 : d = 0
    · rw [if_pos hd0]
      simp only
      rw [hd0, List.drop_zero] at hlt
      obtain ⟨f1, f2⟩ := fin q x inv hlt
      exact ⟨q, x, rfl, ql, f1, f2, xl', le_rfl⟩
    rw [if_neg hd0]
    -- the estimated quotient word
    set xt := x.getLastD 0 with hxtdef
    obtain ⟨v, hvdef⟩ : ∃ v : Word, (if y.getLastD 0 = 0xffffffff#32 then xt
        else if ((mulWord1 xt rev).1 <<< 1) ||| ((mulWord1 xt rev).2 >>> 31) = 0 then 1
          else ((mulWord1 xt rev).1 <<< 1) ||| ((mulWord1 xt rev).2 >>> 31)) = v := ⟨_, rfl⟩
    rw [hvdef]
    -- top word of x.drop d
    have hdne : x.drop d ≠ [] := by intro h; rw [h] at hdl; simp at hdl; omega
    have hdlast : (x.drop d).getLastD 0 = xt := by
      rw [getLastD_eq _ hdne, hxtdef, getLastD_eq _ hxne, List.getLast_drop]
    have hxty : xt.toNat ≤ (y.getLastD 0).toNat := by
      have h1 := val_ge_top (x.drop d) hdne
      rw [hdlast, hdl] at h1
      have h2 : B (y.length - 1) * xt.toNat < B (y.length - 1) * ((y.getLastD 0).toNat + 1) := by omega
      have := lt_of_mul_lt_mul_left h2 (Nat.zero_le _)
      omega
    -- mid part
    set mid := (x.drop (d-1)).take y.length with hmid
    have hmidl : mid.length = y.length := by rw [hmid]; simp; omega
    have hx3 : x.drop (d-1) = mid ++ [xt] := by
      have h1 : (x.drop (d-1)).length = y.length + 1 := by simp; omega
      have h2 : x.drop (d-1) ≠ [] := by intro h; rw [h] at h1; simp at h1
      have h3 := List.dropLast_concat_getLast h2
      rw [← h3, hmid]
      congr 1
      · rw [List.dropLast_eq_take, h1]; simp
      · rw [List.getLast_drop, hxtdef, getLastD_eq _ hxne]
    have hxsplit : val x = val (x.take (d-1)) + B (d-1) * (val mid + B y.length * xt.toNat) := by
      rw [val_take_drop (d-1) x (by omega), hx3, val_append, hmidl, val_singleton]
    have hvpos : 1 ≤ v.toNat := by
      rw [← hvdef]
      split
      · exact hxt
      · split
        · simp
        · rename_i h; rw [wordEqZero] at h; omega
    have hvY : v.toNat * val y ≤ val mid + B y.length * xt.toNat := by
      have hbase : B y.length * 1 ≤ B y.length * xt.toNat := Nat.mul_le_mul_left _ hxt
      rw [← hvdef]
      split
      · have : xt.toNat * val y ≤ xt.toNat * B y.length := Nat.mul_le_mul_left _ hYB.le
        rw [mul_comm xt.toNat (B _)] at this; omega
      · rename_i hne
        have hr := hrev hne
        split
        · simp; omega
        · have hyt' : (y.getLastD 0).toNat < 4294967295 := by
            have := (y.getLastD 0).isLt
            have : (y.getLastD 0).toNat ≠ 4294967295 := by
              intro h; apply hne; apply BitVec.eq_of_toNat_eq; rw [h]; rfl
            omega
          have h1 := dfbStep_v xt rev (y.getLastD 0) htop hyt' hr hxty
          generalize (((mulWord1 xt rev).1 <<< 1) ||| ((mulWord1 xt rev).2 >>> 31)).toNat = w at *
          have h2 : w * val y ≤ w * (B (y.length - 1) * ((y.getLastD 0).toNat + 1)) := Nat.mul_le_mul_left _ hYlt.le
          have h3 := Nat.mul_le_mul_left (B (y.length - 1)) h1
          have h4 : w * (B (y.length - 1) * ((y.getLastD 0).toNat + 1)) = B (y.length - 1) * (w * ((y.getLastD 0).toNat + 1)) := by ring
          have h5 : B (y.length - 1) * (xt.toNat * 4294967296) = B y.length * xt.toNat := by rw [hBy]; ring
          omega
    -- the subtraction
    have hm := mulWordN_spec y v
    have hml := mulWordN_length y v
    obtain ⟨hs1, hs2⟩ := subN_spec mid (mulWordN y v).1 (by rw [hmidl, hml])
    have hsl := subN_length mid (mulWordN y v).1 (by rw [hmidl, hml])
    rw [hmidl] at hs1 hsl
    set t2 := (mulWordN y v).2 with ht2
    set s1 := (subN mid (mulWordN y v).1).1 with hs1d
    set s2 := (subN mid (mulWordN y v).1).2 with hs2d
    have hret : t2.toNat + s2.toNat ≤ xt.toNat := by
      by_contra hcon
      have h1 : B y.length * (xt.toNat + 1) ≤ B y.length * (t2.toNat + s2.toNat) := Nat.mul_le_mul_left _ (by omega)
      rw [mul_add, mul_add, mul_one] at h1
      have h2 := val_lt s1
      rw [hsl] at h2
      rw [mul_comm] at hvY
      omega
    have hretn : (xt - (t2 + s2)).toNat = xt.toNat - (t2.toNat + s2.toNat) := by
      have := xt.isLt
      have h1 : (t2 + s2).toNat = t2.toNat + s2.toNat := by
        rw [BitVec.toNat_add]; exact Nat.mod_eq_of_lt (by omega)
      rw [BitVec.toNat_sub, h1]; omega
    have hnew : val s1 + B y.length * (xt.toNat - (t2.toNat + s2.toNat)) + v.toNat * val y = val mid + B y.length * xt.toNat := by
      rw [Nat.mul_sub, mul_add]
      have : B y.length * (t2.toNat + s2.toNat) ≤ B y.length * xt.toNat := Nat.mul_le_mul_left _ hret
      rw [mul_add] at this
      rw [mul_comm] at hvY
      have h7 : v.toNat * val y = val y * v.toNat := mul_comm _ _
      omega
    have htl1 : (x.take (d-1)).length = d - 1 := by simp; omega
    have hxlen : (x.take (d-1) ++ s1 ++ [xt - (t2 + s2)]).length = x.length := by
      simp only [List.length_append, htl1, hsl, List.length_singleton]; omega
    have hxval : val (x.take (d-1) ++ s1 ++ [xt - (t2 + s2)]) + B (d-1) * (v.toNat * val y) = val x := by
      rw [List.append_assoc, val_append, val_append, htl1, hsl, val_singleton, hretn, hxsplit, ← hnew]; ring
    have hqq : (val q + v.toNat * B (d-1)) * val y ≤ X0 := by
      have : (val q + v.toNat * B (d-1)) * val y = val q * val y + B (d-1) * (v.toNat * val y) := by ring
      rw [this]; omega
    have hqb := dfb_hyp_q (q := q) (x := x) hYpos hX hqq
    have hdq : d - 1 < q.length := by omega
    obtain ⟨ql', qv'⟩ := addWord_at q (d-1) v hdq (by rw [ql]; exact hqb)
    have inv' : val (q.take (d-1) ++ (addWord (q.drop (d-1)) v).1) * val y + val (x.take (d-1) ++ s1 ++ [xt - (t2 + s2)]) = X0 := by
      rw [qv', add_mul]
      have : v.toNat * B (d-1) * val y = B (d-1) * (v.toNat * val y) := by ring
      omega
    have hdec : 0 < B (d-1) * (v.toNat * val y) := Nat.mul_pos (B_pos _) (Nat.mul_pos (by omega) hYpos)
    obtain ⟨q', x', e1, e2, e3, e4, e5, e6⟩ := ih _ _
      ⟨by rw [ql', ql], inv', by rw [hxlen]; exact xl, by rw [hxlen]; exact xl'⟩
      (by
        rw [hxlen]
        have hTd : val x / B d = val (x.drop d) := by
          have h1 := val_lt (x.take d)
          rw [htl] at h1
          rw [hsplit, Nat.add_mul_div_left _ _ (B_pos _), Nat.div_eq_of_lt h1, zero_add]
        have hWd : val x / B (d - 1) = val mid + B y.length * xt.toNat := by
          have h1 := val_lt (x.take (d - 1))
          rw [htl1] at h1
          rw [hxsplit, Nat.add_mul_div_left _ _ (B_pos _), Nat.div_eq_of_lt h1, zero_add]
        have := dfbRank_lt y x.length (val x) _ v.toNat hlen hYhalf (by rw [← hd, hTd]; exact hlt) hvpos hxval (by
          rw [← hd, hWd]
          intro _
          have hm1 := val_lt mid
          rw [hmidl] at hm1
          have hv5 : B y.length * xt.toNat < 4 * B y.length + v.toNat * val y := by
            have hB1 := B_pos (y.length - 1)
            have hxl := xt.isLt
            rw [← hvdef]
            split
            · rename_i hmax
              rw [hmax, show (0xffffffff#32 : Word).toNat = 4294967295 from rfl] at hYge
              have h1 := Nat.mul_le_mul_left xt.toNat hYge
              have h2 : B (y.length - 1) * xt.toNat ≤ B (y.length - 1) * 4294967296 := Nat.mul_le_mul_left _ hxl.le
              have h3 : xt.toNat * (B (y.length - 1) * 4294967295) + B (y.length - 1) * xt.toNat = B y.length * xt.toNat := by rw [hBy]; ring
              omega
            · rename_i hne
              have hr := hrev hne
              have hyt' : (y.getLastD 0).toNat < 4294967295 := by
                have := (y.getLastD 0).isLt
                have : (y.getLastD 0).toNat ≠ 4294967295 := by
                  intro h; apply hne; apply BitVec.eq_of_toNat_eq; rw [h]; rfl
                omega
              have h1 := dfbStep_v_low xt rev (y.getLastD 0) htop hyt' hr hxty
              have low : ∀ w : ℕ, w < 4294967296 → xt.toNat * 4294967296 < (w + 3) * ((y.getLastD 0).toNat + 1) →
                  B y.length * xt.toNat < 4 * B y.length + w * val y := by
                intro w hw h1
                have h2 : w * (B (y.length - 1) * (y.getLastD 0).toNat) ≤ w * val y := Nat.mul_le_mul_left _ hYge
                have h3 := Nat.mul_lt_mul_of_pos_left h1 hB1
                generalize (y.getLastD 0).toNat = yt at *
                have h4 : B (y.length - 1) * (xt.toNat * 4294967296) = B y.length * xt.toNat := by rw [hBy]; ring
                have h5 : B (y.length - 1) * ((w + 3) * (yt + 1)) = w * (B (y.length - 1) * yt) + B (y.length - 1) * (w + 3 * (yt + 1)) := by ring
                have h6 : B (y.length - 1) * (w + 3 * (yt + 1)) ≤ B (y.length - 1) * (4 * 4294967296) := Nat.mul_le_mul_left _ (by omega)
                omega
              split
              · rename_i h0
                rw [h0] at h1
                have := low 1 (by omega) (lt_of_lt_of_le h1 (Nat.mul_le_mul_right _ (by decide)))
                simpa using this
              · exact low _ (BitVec.isLt _) h1
          omega)
        omega)
    exact ⟨q', x', e1, e2, e3, e4, e5, by rw [hxlen] at e6; exact e6⟩

theorem divFullBit_spec (qn : Nat) (x y : List Word) (hy2 : 2 ≤ y.length) (hxl : x.length ≤ y.length + qn)
    (hxl' : y.length - 1 ≤ x.length) (htop : 2147483648 ≤ (y.getLastD 0).toNat) (hX : val x < val y * B qn) :
    ∃ q r, divFullBit qn x y = .ok (q, r, getRealSize r) ∧ q.length = qn ∧ r ≠ [] ∧ r.length ≤ x.length ∧
      val q = val x / val y ∧ val r = val x % val y := by
  obtain ⟨q, r, e1, e2, e3, e4, e5, e6⟩ := dfbLoop_spec y
    (if y.getLastD 0 ≠ 0xffffffff#32 then (divWord1 0x80000000#32 0 (y.getLastD 0 + 1)).1 else 0) (val x) qn hy2 htop
    (fun h => by rw [if_pos h]) hX (12 * (x.length - y.length) + 13) (List.replicate qn 0) x
    ⟨by simp, by rw [val_replicate_zero]; omega, hxl, hxl'⟩ (by have := dfbRank_le y x.length (val x); omega)
  refine ⟨q, r, ?_, e2, ?_, e6, e3, e4⟩
  · unfold divFullBit; simp only [e1]; rfl
  · intro h; rw [h] at e5; simp at e5; omega

theorem xor31 : ∀ n < 32, n ^^^ 31 = 31 - n := by decide

theorem bsr32_spec (x : Word) (hx : x.toNat ≠ 0) : bsr32 x ≤ 31 ∧ 2^(bsr32 x) ≤ x.toNat ∧ x.toNat < 2^(bsr32 x + 1) := by
  have hx0 : x ≠ 0#32 := by intro h; rw [h] at hx; exact hx rfl
  have h1 : x.clz.toNat < 32 := by
    have := BitVec.clz_lt_iff_ne_zero.2 hx0
    simpa [BitVec.lt_def] using this
  have h2 := BitVec.two_pow_sub_clz_le_toNat_of_ne_zero (by decide) hx0
  have h3 := BitVec.toNat_lt_two_pow_sub_clz (x := x)
  unfold bsr32
  rw [show (0x1f : Nat) = 31 from rfl, xor31 _ h1]
  refine ⟨by omega, ?_, ?_⟩
  · rw [show 31 - x.clz.toNat = 32 - 1 - x.clz.toNat by omega]; exact h2
  · rw [show 31 - x.clz.toNat + 1 = 32 - x.clz.toNat by omega]; exact h3

theorem getRealSize_take_top (x : List Word) (hx : x ≠ []) :
    1 < (x.take (getRealSize x)).length → ((x.take (getRealSize x)).getLastD 0).toNat ≠ 0 := by
  intro h
  have hle := getRealSize_le x hx
  have hl : (x.take (getRealSize x)).length = getRealSize x := by simp; omega
  rw [hl] at h
  have ht := getRealSize_top x h
  have hne : x.take (getRealSize x) ≠ [] := by intro h'; rw [h'] at hl; simp at hl; omega
  rw [getLastD_eq _ hne, List.getLast_eq_getElem]
  rw [List.getElem?_eq_getElem (by omega)] at ht
  simp only [Option.getD_some] at ht
  intro h0
  apply ht
  rw [wordEqZero]
  have : (x.take (getRealSize x))[(x.take (getRealSize x)).length - 1] = x[getRealSize x - 1] := by
    simp [hl]
  rw [← this]; exact h0

/-- Correctness of `detail::div`. -/
theorem divArr_spec (x y : List Word) (hx : x ≠ []) (hy : y ≠ []) (hy0 : val y ≠ 0)
    (htop : 1 < y.length → (y.getLastD 0).toNat ≠ 0) (hlen : y.length ≤ x.length) :
    ∃ q r, divArr (x.length - y.length + 1) x y = .ok (q, r) ∧ q.length = x.length - y.length + 1 ∧
      r ≠ [] ∧ r.length ≤ x.length ∧ val q = val x / val y ∧ val r = val x % val y := by
  set qn := x.length - y.length + 1 with hqn
  have hxr := getRealSize_le x hx
  have hxp := getRealSize_pos x
  have hxv := getRealSize_val x
  set xr := x.take (getRealSize x) with hxrdef
  have hxrl : xr.length = getRealSize x := by simp [hxrdef]; omega
  by_cases h1 : y.length = 1
  · obtain ⟨y0, rfl⟩ := List.length_eq_one_iff.1 h1
    have hy0' : 0 < y0.toNat := by simp at hy0; omega
    obtain ⟨d1, d2, d3⟩ := divWordGo_spec y0 hy0' xr
    have hne : (y0 != 0) = true := by
      simp only [bne_iff_ne, ne_eq, wordEqZero]; omega
    refine ⟨(divWordGo y0 xr).1 ++ List.replicate (qn - getRealSize x) 0, [(divWordGo y0 xr).2], ?_, ?_, by simp, ?_, ?_, ?_⟩
    · simp only [divArr, div1, divWord, check, hne, if_true, ← hxrdef]; rfl
    · rw [List.length_append, d1, hxrl, List.length_replicate]; simp at hqn; omega
    · simp; have := List.length_pos_iff.2 hx; omega
    · rw [val_append, d2, val_replicate_zero, hxv]; simp
    · rw [val_singleton, d3, hxv]; simp
  have hypos := List.length_pos_iff.2 hy
  have hy2 : 2 ≤ y.length := by omega
  have htop' := htop (by omega)
  have hdef : divArr qn x y = (do
    match ← divSmall xr y with
    | some (qv, r, rn) => .ok (qv :: List.replicate (qn - 1) 0, r.take rn)
    | none =>
      let shift := 31 - bsr32 (y.getLastD 0)
      if shift ≠ 0 then
        let yShift := (shlN y shift).1
        let s := shlN xr shift
        let xx := if s.2 ≠ 0 then s.1 ++ [s.2] else s.1
        let (q, r, rn) ← divFullBit qn xx yShift
        .ok (q, shrN shift (r.take rn))
      else
        let (q, r, rn) ← divFullBit qn xr y
        .ok (q, r.take rn)) := by
    rcases y with _ | ⟨a, _ | ⟨b, t⟩⟩
    · simp at hy
    · simp at h1
    · rfl
  rw [hdef]
  have hxrne : xr ≠ [] := by intro h; rw [h] at hxrl; simp at hxrl; omega
  have hlt : ∀ r : List Word, r ≠ [] → (r.take (getRealSize r)) ≠ [] ∧ (r.take (getRealSize r)).length ≤ r.length := by
    intro r hr
    have h1 := getRealSize_le r hr
    have h2 := getRealSize_pos r
    have : (r.take (getRealSize r)).length = getRealSize r := by simp; omega
    exact ⟨by intro h; rw [h] at this; simp at this; omega, by omega⟩
  rcases divSmall_spec xr y hxrne hy2 htop' (getRealSize_take_top x hx) with ⟨hs, hs2⟩ | ⟨qv, r, hs, hr0, hrl, hq, hr⟩
  swap
  · rw [hs]
    obtain ⟨l1, l2⟩ := hlt r hr0
    refine ⟨qv :: List.replicate (qn - 1) 0, r.take (getRealSize r), rfl, ?_, l1, ?_, ?_, ?_⟩
    · simp; omega
    · omega
    · rw [val_cons, val_replicate_zero, hq, hxv]; simp
    · rw [getRealSize_val, hr, hxv]
  rw [hs]
  obtain ⟨b1, b2, b3⟩ := bsr32_spec (y.getLastD 0) htop'
  have hYge := val_ge_top y hy
  have hYlt := val_lt_top y hy
  have hBy : B y.length = 4294967296 * B (y.length - 1) := by
    rw [← B_succ]; congr 1; omega
  have hXlt : val xr < val y * B qn := by
    rw [hxv]
    have h1 := val_lt x
    have h2 : B x.length = B (y.length - 1) * B qn := by rw [← B_add]; congr 1; omega
    have h3 : B (y.length - 1) * 1 ≤ B (y.length - 1) * (y.getLastD 0).toNat := Nat.mul_le_mul_left _ (by omega)
    have h4 := Nat.mul_le_mul_right (B qn) (le_trans h3 hYge)
    rw [mul_one, ← h2] at h4
    omega
  show ∃ q r, (if 31 - bsr32 (y.getLastD 0) ≠ 0 then _ else _) = _ ∧ _
  by_cases hsh : 31 - bsr32 (y.getLastD 0) ≠ 0
  · rw [if_pos hsh]
    set sh := 31 - bsr32 (y.getLastD 0) with hshdef
    have hs31 : sh < 32 := by omega
    have hyspec := shlN_spec y sh (by omega) hs31
    have hyl := shlN_length y sh
    have hp : 2^(bsr32 (y.getLastD 0)) * 2^sh = 2147483648 := by
      rw [← pow_add, show bsr32 (y.getLastD 0) + sh = 31 by omega]; norm_num
    have hyub : val y * 2^sh < B y.length := by
      have h1 : val y < B (y.length - 1) * 2^(bsr32 (y.getLastD 0) + 1) :=
        lt_of_lt_of_le hYlt (Nat.mul_le_mul_left _ (by omega))
      have h2 := Nat.mul_lt_mul_of_pos_right h1 (show 0 < 2^sh by positivity)
      have h3 : B (y.length - 1) * 2^(bsr32 (y.getLastD 0) + 1) * 2^sh = B (y.length - 1) * (2^(bsr32 (y.getLastD 0)) * 2^sh * 2) := by ring
      rw [h3, hp] at h2; omega
    have hc0 : (shlN y sh).2.toNat = 0 := by
      by_contra hne
      have : B y.length * 1 ≤ B y.length * (shlN y sh).2.toNat := Nat.mul_le_mul_left _ (by omega)
      omega
    rw [hc0, mul_zero, add_zero] at hyspec
    set ys := (shlN y sh).1 with hys
    have hysne : ys ≠ [] := by intro h; rw [h] at hyl; simp at hyl; omega
    have hystop : 2147483648 ≤ (ys.getLastD 0).toNat := by
      have h1 := val_lt_top ys hysne
      rw [hyspec, hyl] at h1
      have h2 : B (y.length - 1) * 2^(bsr32 (y.getLastD 0)) ≤ val y := le_trans (Nat.mul_le_mul_left _ b2) hYge
      have h3 := Nat.mul_le_mul_right (2^sh) h2
      rw [mul_assoc, hp] at h3
      have h4 := lt_of_mul_lt_mul_left (lt_of_le_of_lt h3 h1) (Nat.zero_le _)
      omega
    have hxspec := shlN_spec xr sh (by omega) hs31
    have hxl := shlN_length xr sh
    obtain ⟨xx, hxx⟩ : ∃ xx, (if (shlN xr sh).2 ≠ 0 then (shlN xr sh).1 ++ [(shlN xr sh).2] else (shlN xr sh).1) = xx := ⟨_, rfl⟩
    have hxxv : val xx = val xr * 2^sh ∧ xr.length ≤ xx.length ∧ xx.length ≤ xr.length + 1 := by
      rw [← hxx]
      split
      · rw [val_append, hxl, val_singleton, hxspec]; simp [hxl]
      · rename_i h
        have : (shlN xr sh).2 = 0 := by simpa using h
        rw [this] at hxspec
        simp at hxspec
        rw [hxspec]; simp [hxl]
    have hpow : 0 < 2^sh := by positivity
    obtain ⟨q, r, e1, e2, e3, e4, e5, e6⟩ := divFullBit_spec qn xx ys (by omega) (by omega) (by omega) hystop
      (by
        rw [hxxv.1, hyspec]
        have := Nat.mul_lt_mul_of_pos_right hXlt hpow
        calc val xr * 2^sh < val y * B qn * 2^sh := this
          _ = _ := by ring)
    simp only [hxx, e1]
    obtain ⟨l1, l2⟩ := hlt r e3
    have hrv : val (shrN sh (r.take (getRealSize r))) = val x % val y := by
      rw [shrN_spec sh (by omega) hs31, getRealSize_val, e6, hxxv.1, hyspec, Nat.mul_mod_mul_right,
        Nat.mul_div_cancel _ hpow, hxv]
    have hrl : (shrN sh (r.take (getRealSize r))).length = getRealSize r := by
      rw [shrN_length]; have := getRealSize_le r e3; simp; omega
    refine ⟨q, _, rfl, e2, ?_, ?_, ?_, hrv⟩
    · intro h; rw [h] at hrl; have := getRealSize_pos r; simp at hrl; omega
    · rw [hrl]
      -- the remainder is below `y`, so its real size is at most that of `y`
      by_contra hcon
      have hg : 1 < getRealSize r := by have := List.length_pos_iff.2 hx; omega
      have htr := getRealSize_take_top r e3 (by rw [show (r.take (getRealSize r)).length = getRealSize r by have := getRealSize_le r e3; simp; omega]; exact hg)
      have h1 := val_ge_top _ l1
      rw [show (r.take (getRealSize r)).length = getRealSize r by have := getRealSize_le r e3; simp; omega, getRealSize_val, e6] at h1
      have h2 : val xx % val ys < val ys := Nat.mod_lt _ (by rw [hyspec]; exact Nat.mul_pos (by omega) hpow)
      have h3 := val_lt ys
      rw [hyl] at h3
      have h4 := B_le (n := y.length) (m := getRealSize r - 1) (by omega)
      have h5 : B (getRealSize r - 1) * 1 ≤ B (getRealSize r - 1) * ((r.take (getRealSize r)).getLastD 0).toNat := Nat.mul_le_mul_left _ (by omega)
      omega
    · rw [e5, hxxv.1, hyspec, Nat.mul_div_mul_right _ _ hpow, hxv]
  · rw [if_neg hsh]
    have hb31 : bsr32 (y.getLastD 0) = 31 := by omega
    rw [hb31] at b2
    obtain ⟨q, r, e1, e2, e3, e4, e5, e6⟩ := divFullBit_spec qn xr y hy2 (by omega) (by omega) (le_trans (by norm_num) b2) hXlt
    rw [e1]
    obtain ⟨l1, l2⟩ := hlt r e3
    refine ⟨q, _, rfl, e2, l1, by omega, ?_, ?_⟩
    · rw [e5, hxv]
    · rw [getRealSize_val, e6, hxv]

theorem divArr_zero (qn : Nat) (x : List Word) : divArr qn x [0] = .error .abort := rfl

end Ack
