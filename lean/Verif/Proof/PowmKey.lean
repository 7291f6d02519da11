import Verif.Proof.PowmMul
import Verif.Proof.Rsa
/-! # The constants computed from the modulus -/
namespace Ack.Powm
open Ack.Big (Byte)

theorem reduceLoop_spec (hd ha : Word) (rest ms as resta : List Word) (H : Hdr hd ms) : ∀ (u : Nat) (xs : List Word),
    u ≤ as.length → xs.length = ms.length → val xs = val as / B u % val ms →
    ∃ r, reduceLoop (ha :: (as ++ resta)) (hd :: ms) u (hd :: (xs ++ rest)) = .ok (hd :: (r ++ rest)) ∧ r.length = ms.length ∧
      val r = val as % val ms := by
  intro u
  induction u with
  | zero => intro xs _ hl hv; exact ⟨xs, rfl, hl, by simpa using hv⟩
  | succ u ih =>
    intro xs hu hl hv
    have hM : 0 < val ms := Nat.pos_of_ne_zero H.pos
    rw [reduceLoop, rdW_cons_succ, rdW_of_lt (by simp; omega), ok_bind]
    obtain ⟨r, h1, h2, h3⟩ := muladdSmall_spec hd xs rest ms ((as ++ resta)[u]'(by simp; omega)) H hl (by rw [hv]; exact Nat.mod_lt _ hM)
    rw [h1, ok_bind]
    refine ih r (by omega) h2 ?_
    rw [h3, hv, List.getElem_append_left (by omega)]
    have e : val as / B u = val as / B (u + 1) * 2 ^ 32 + as[u].toNat := by
      rw [← val_drop, ← val_drop, List.drop_eq_getElem_cons (by omega), val_cons]; omega
    rw [e, Nat.add_mod, Nat.mul_mod, Nat.mod_mod, ← Nat.mul_mod, ← Nat.add_mod]

theorem reduce_spec (hx hd ha : Word) (x0 rest ms as resta : List Word) (H : Hdr hd ms) (Ha : Hdr ha as) (hl : x0.length = ms.length) :
    ∃ r, reduce (hx :: (x0 ++ rest)) (ha :: (as ++ resta)) (hd :: ms) = .ok (hd :: (r ++ rest)) ∧ r.length = ms.length ∧
      val r = val as % val ms := by
  have hk0 : 0 < hd.toNat := by rw [H.len]; exact bitLen_pos H.pos
  have hMlt : val ms < 2 ^ hd.toNat := by rw [H.len]; exact bitLen_lt _
  have hMge : 2 ^ (hd.toNat - 1) ≤ val ms := by rw [H.len]; exact le_bitLen H.pos
  have hAlt : val as < 2 ^ ha.toNat := by rw [Ha.len]; exact bitLen_lt _
  have hm := H.words
  have haw := Ha.words
  unfold reduce
  rw [rdW_cons_zero, ok_bind]
  dsimp only
  rw [wrW_eq (by simp), ok_bind, if_neg (fun h => by rw [h] at hk0; simp at hk0), rdW_cons_zero, ok_bind, mlen_eq _ H.small,
    mlen_eq _ Ha.small, ← H.words, ← Ha.words, List.set_cons_zero]
  by_cases hc : ha < hd
  · rw [if_pos hc]
    have hc' : ha.toNat < hd.toNat := hc
    have hle : as.length ≤ ms.length := by omega
    rw [slice_one _ _ _ _ rfl, ok_bind]
    have e1 : patch (hd :: (x0 ++ rest)) 1 as = .ok (hd :: (as ++ (x0.drop as.length ++ rest))) := by
      have := patch_one hd (x0.take as.length) (x0.drop as.length ++ rest) as (by simp; omega)
      rwa [← List.append_assoc, List.take_append_drop] at this
    rw [e1, ok_bind]
    have e2 : patch (hd :: (as ++ (x0.drop as.length ++ rest))) (as.length + 1) (List.replicate (ms.length - as.length) 0) =
        .ok (hd :: ((as ++ List.replicate (ms.length - as.length) 0) ++ rest)) := by
      rw [patch_eq (by simp; omega)]
      have e3 : as.length + 1 + (ms.length - as.length) = (as.length + (ms.length - as.length)) + 1 := by omega
      simp only [List.length_replicate, e3, List.drop_succ_cons, List.take_succ_cons, List.take_left' rfl]
      rw [show as.length + (ms.length - as.length) = ms.length by omega]
      have : (as ++ (x0.drop as.length ++ rest)).drop ms.length = rest := by
        rw [List.drop_append, List.drop_of_length_le hle, List.nil_append, List.drop_left' (by simp [hl])]
      rw [this]; simp
    rw [e2]
    refine ⟨_, rfl, by simp; omega, ?_⟩
    rw [val_append, val_replicate_zero, Nat.mul_zero, Nat.add_zero, Nat.mod_eq_of_lt]
    calc val as < 2 ^ ha.toNat := hAlt
      _ ≤ 2 ^ (hd.toNat - 1) := Nat.pow_le_pow_right (by omega) (by omega)
      _ ≤ _ := hMge
  · rw [if_neg hc]
    have hc' : hd.toNat ≤ ha.toNat := by rw [BitVec.lt_def] at hc; omega
    have hle : ms.length ≤ as.length := by omega
    have hm1 : 1 ≤ ms.length := by omega
    obtain ⟨top, htop⟩ : ∃ t, t = as.drop (1 + (as.length - ms.length)) := ⟨_, rfl⟩
    have htl : top.length = ms.length - 1 := by rw [htop, List.length_drop]; omega
    have e0 : slice (ha :: (as ++ resta)) (2 + (as.length - ms.length)) (ms.length - 1) = .ok top := by
      rw [slice_eq (by simp; omega), show 2 + (as.length - ms.length) = 1 + (as.length - ms.length) + 1 by omega, List.drop_succ_cons,
        List.drop_append_of_le_length (by omega), ← htop, List.take_left' htl]
    rw [e0, ok_bind]
    obtain ⟨y0, yt, hy⟩ : ∃ y0 yt, x0 = y0 ++ [yt] := by
      rcases List.eq_nil_or_concat x0 with h | ⟨a, b, h⟩
      · subst h; simp at hl; omega
      · exact ⟨a, b, by rw [h, List.concat_eq_append]⟩
    have hyl : y0.length + 1 = ms.length := by rw [← hl, hy]; simp
    have e1 : patch (hd :: (x0 ++ rest)) 1 top = .ok (hd :: (top ++ (yt :: rest))) := by
      have := patch_one hd y0 (yt :: rest) top (by omega)
      rw [hy, List.append_assoc]; exact this
    rw [e1, ok_bind]
    have e2 : wrW (hd :: (top ++ (yt :: rest))) ms.length 0 = .ok (hd :: ((top ++ [0]) ++ rest)) := by
      rw [wrW_eq (by simp; omega), show ms.length = top.length + 1 by omega, List.set_cons_succ, List.set_append_right _ _ (Nat.le_refl _)]
      simp
    rw [e2, ok_bind]
    refine reduceLoop_spec hd ha rest ms as resta H (1 + as.length - ms.length) (top ++ [0]) (by omega) (by simp; omega) ?_
    have e3 : val (top ++ [0]) = val as / B (1 + as.length - ms.length) := by
      rw [val_append, htop, val_drop, show 1 + (as.length - ms.length) = 1 + as.length - ms.length by omega]
      simp
    rw [e3, Nat.mod_eq_of_lt]
    have h1 := val_lt (top ++ [0])
    rw [← e3, val_append]
    have h2 := val_lt top
    rw [htl] at h2
    have h3 : B (ms.length - 1) ≤ 2 ^ (hd.toNat - 1) := by rw [B_eq]; exact Nat.pow_le_pow_right (by omega) (by omega)
    simp; omega

/-! ## Encoding -/

theorem encWords_spec (hd : Word) (xs : List Word) : ∀ k, k ≤ xs.length →
    ∃ r, encWords (hd :: xs) k = .ok r ∧ r.length = 4 * k ∧ beVal r = val (xs.take k) := by
  intro k
  induction k with
  | zero => intro _; exact ⟨[], rfl, rfl, rfl⟩
  | succ k ih =>
    intro h
    obtain ⟨r, h1, h2, h3⟩ := ih (by omega)
    rw [encWords, rdW_cons_succ, rdW_of_lt (by omega), ok_bind, h1, ok_bind]
    refine ⟨_, rfl, by simp [st32, h2]; omega, ?_⟩
    rw [beVal_append, h3, h2, st32_swab_beVal, val_take_succ _ _ (by omega)]
    congr 1
    rw [show (256 : Nat) = 2 ^ 8 from rfl, ← pow_mul]; congr 2; omega

theorem encode_spec (hd : Word) (xs : List Word) (len : Nat) (h4 : len % 4 = 0) (hl : len / 4 ≤ xs.length)
    (hk : (hd.toNat + 7) / 8 = len) (hs : hd.toNat < 2 ^ 31) :
    ∃ r, encode len (hd :: xs) = .ok r ∧ r.length = len ∧ beVal r = val (xs.take (len / 4)) := by
  unfold encode
  rw [rdW_cons_zero, ok_bind]
  dsimp only
  have e : ((hd + 7) >>> 3).toNat = len := by
    rw [BitVec.toNat_ushiftRight, Nat.shiftRight_eq_div_pow, BitVec.toNat_add]
    show (hd.toNat + 7) % 2 ^ 32 / 2 ^ 3 = _
    omega
  rw [e, Nat.min_self, Nat.sub_self, h4, if_pos rfl, show (len + 3) / 4 = len / 4 by omega]
  obtain ⟨r, h1, h2, h3⟩ := encWords_spec hd xs (len / 4) hl
  rw [h1, ok_bind]
  exact ⟨r, rfl, by omega, h3⟩

theorem encode_gen (hd : Word) (xs : List Word) (len : Nat) (hs : hd.toNat + 7 < 2 ^ 32)
    (hl : min len ((hd.toNat + 7) / 8) ≤ 4 * xs.length) :
    ∃ r, encode len (hd :: xs) = .ok r ∧ r.length = len ∧ beVal r = val xs % 256 ^ min len ((hd.toNat + 7) / 8) := by
  unfold encode
  rw [rdW_cons_zero, ok_bind]
  dsimp only
  have e : ((hd + 7) >>> 3).toNat = (hd.toNat + 7) / 8 := by
    rw [BitVec.toNat_ushiftRight, Nat.shiftRight_eq_div_pow, BitVec.toNat_add]
    show (hd.toNat + 7) % 2 ^ 32 / 2 ^ 3 = _
    omega
  rw [e]
  generalize (hd.toNat + 7) / 8 = k at *
  obtain ⟨l, hle⟩ : ∃ l, l = min len k := ⟨_, rfl⟩
  rw [← hle] at hl ⊢
  have hzl : len - k + l = len := by omega
  have hz : ∀ t : List Byte, t.length = l → (List.replicate (len - k) (0 : Byte) ++ t).length = len ∧
      beVal (List.replicate (len - k) (0 : Byte) ++ t) = beVal t := by
    intro t ht
    rw [beVal_append, beVal_replicate_zero]
    simp [ht]; omega
  obtain ⟨q, m, hq, hm⟩ : ∃ q m, l = 4 * q + m ∧ m < 4 := ⟨l / 4, l % 4, by omega, by omega⟩
  have hm' : l % 4 = m := by omega
  have e256 : ∀ j, (256 : Nat) ^ (4 * j) = 2 ^ (32 * j) := by
    intro j; rw [show (256 : Nat) = 2 ^ 8 from rfl, ← pow_mul]; congr 1; omega
  rw [hm']
  by_cases h0 : m = 0
  · subst h0
    rw [if_pos rfl, show (l + 3) / 4 = q by omega]
    obtain ⟨r, h1, h2, h3⟩ := encWords_spec hd xs q (by omega)
    rw [h1, ok_bind]
    obtain ⟨z1, z2⟩ := hz r (by omega)
    refine ⟨_, rfl, z1, ?_⟩
    rw [z2, h3, val_take, hq, B_eq, _root_.add_zero, e256]
  · have hk : (l + 3) / 4 = q + 1 := by omega
    have hql : q < xs.length := by omega
    rw [if_neg h0, hk, rdW_cons_succ, rdW_of_lt hql, ok_bind, Nat.add_sub_cancel]
    obtain ⟨r, h1, h2, h3⟩ := encWords_spec hd xs q (by omega)
    rw [h1, ok_bind]
    generalize hw : xs[q] = w
    have hv : val xs % 256 ^ l = val (xs.take q) + 256 ^ (4 * q) * (w.toNat % 256 ^ m) := by
      have h5 : val xs % 2 ^ (32 * (q + 1)) = val (xs.take q) + 2 ^ (32 * q) * w.toNat := by
        rw [← B_eq, ← val_take, val_take_succ _ _ hql, hw]; ring
      have h6 : val xs % 256 ^ l = val xs % 2 ^ (32 * (q + 1)) % 256 ^ l := by
        rw [Nat.mod_mod_of_dvd]
        rw [← e256]
        exact pow_dvd_pow _ (by omega)
      have h7 := val_take_lt xs q
      rw [h6, h5, hq, pow_add, e256, Nat.mod_mul, Nat.add_mul_mod_self_left, Nat.mod_eq_of_lt h7,
        Nat.add_mul_div_left _ _ (by positivity), Nat.div_eq_of_lt h7, Nat.zero_add]
    have hf : ∀ t : List Byte, t.length = m → beVal t = w.toNat % 256 ^ m →
        (List.replicate (len - k) (0 : Byte) ++ (t ++ r)).length = len ∧
        beVal (List.replicate (len - k) (0 : Byte) ++ (t ++ r)) = val xs % 256 ^ l := by
      intro t t1 t2
      obtain ⟨z1, z2⟩ := hz (t ++ r) (by simp [t1, h2]; omega)
      refine ⟨z1, ?_⟩
      rw [z2, beVal_append, t2, h3, h2, hv]; ring
    have hm3 : m = 1 ∨ m = 2 ∨ m = 3 := by omega
    refine ⟨_, rfl, ?_⟩
    rw [List.append_assoc, List.append_assoc, List.append_assoc, ← List.append_assoc _ _ r, ← List.append_assoc _ _ r]
    apply hf
    · rcases hm3 with rfl | rfl | rfl <;> rfl
    · have := w.isLt
      rcases hm3 with rfl | rfl | rfl
      · simp [beVal]
      · simp [beVal, Nat.shiftRight_eq_div_pow]; omega
      · simp [beVal, Nat.shiftRight_eq_div_pow]; omega

/-- `br_i32_decode`, then `br_i32_encode`. -/
theorem decode_encode (x : List Word) (src : List Byte) (len : Nat) (h : 1 + (src.length + 3) / 4 ≤ x.length) (hx : x.length < 2 ^ 27) :
    ∃ y r, decode x src = .ok y ∧ encode len y = .ok r ∧ r.length = len ∧ beVal r = beVal src % 256 ^ len := by
  obtain ⟨hd, e1, e2⟩ := decode_spec x src h hx
  have hl : (decWords src.reverse).length = (src.length + 3) / 4 := by rw [decWords_length, List.length_reverse]
  have hlt : beVal src < 2 ^ Spec.bitLen (beVal src) := by
    unfold Spec.bitLen
    split
    · simp_all
    · exact Nat.lt_log2_self
  have hle : Spec.bitLen (beVal src) ≤ 8 * src.length := by
    unfold Spec.bitLen
    split
    · omega
    · rename_i h0
      have := (Nat.log2_lt h0 (k := 8 * src.length)).2 (by
        have := beVal_lt src
        rwa [show (256 : Nat) = 2 ^ 8 from rfl, ← pow_mul] at this)
      omega
  rw [← e2] at hlt hle
  obtain ⟨r, r1, r2, r3⟩ := encode_gen hd (decWords src.reverse ++ x.drop (1 + (src.length + 3) / 4)) len (by omega)
    (by rw [List.length_append, hl]; omega)
  refine ⟨_, r, e1, r1, r2, ?_⟩
  have hd1 : 256 ^ min len ((hd.toNat + 7) / 8) ∣ B ((src.length + 3) / 4) := by
    rw [B_eq, show (256 : Nat) = 2 ^ 8 from rfl, ← pow_mul]
    exact pow_dvd_pow _ (by omega)
  rw [r3, val_append, hl, Nat.add_mod, Nat.mod_eq_zero_of_dvd (Dvd.dvd.mul_right hd1 _), Nat.add_zero, Nat.mod_mod, decWords_val,
    List.reverse_reverse]
  rcases Nat.le_total len ((hd.toNat + 7) / 8) with h1 | h1
  · rw [Nat.min_eq_left h1]
  · rw [Nat.min_eq_right h1]
    have h2 : beVal src < 256 ^ ((hd.toNat + 7) / 8) := by
      rw [show (256 : Nat) = 2 ^ 8 from rfl, ← pow_mul]
      exact lt_of_lt_of_le hlt (Nat.pow_le_pow_right (by omega) (by omega))
    rw [Nat.mod_eq_of_lt h2, Nat.mod_eq_of_lt (lt_of_lt_of_le h2 (Nat.pow_le_pow_right (by omega) h1))]

/-! ## Key properties -/

theorem beVal_cons_ge (b : Byte) (t : List Byte) (h : b ≠ 0) : 256 ^ t.length ≤ beVal (b :: t) := by
  have : 1 ≤ b.toNat := by
    rcases Nat.eq_zero_or_pos b.toNat with h0 | h0
    · exact absurd (BitVec.eq_of_toNat_eq (by simpa using h0)) h
    · exact h0
  rw [beVal_cons]
  calc 256 ^ t.length = 1 * 256 ^ t.length := by ring
    _ ≤ b.toNat * 256 ^ t.length := Nat.mul_le_mul_right _ this
    _ ≤ _ := by omega

theorem dropLead_head (n : List Byte) (h : n.drop (leadZeros n) ≠ []) :
    ∃ b t, n.drop (leadZeros n) = b :: t ∧ b ≠ 0 := by
  induction n with
  | nil => exact absurd rfl h
  | cons b t ih =>
    unfold leadZeros at h ⊢
    split
    · next hb => rw [if_pos hb] at h; simpa using ih (by simpa using h)
    · next hb => exact ⟨b, t, rfl, hb⟩

/-- The header of a big-endian number whose leading byte is not zero. -/
theorem hdr_of_bytes (m : List Byte) (hd : Word) (h : ∃ b t, m = b :: t ∧ b ≠ 0) (hl : m.length < 2 ^ 28)
    (hh : hd.toNat = Spec.bitLen (beVal m)) : Hdr hd (decWords m.reverse) ∧ (hd.toNat + 7) / 8 = m.length := by
  obtain ⟨b, t, rfl, hb⟩ := h
  have hge := beVal_cons_ge b t hb
  have hlt := beVal_lt (b :: t)
  have hne : beVal (b :: t) ≠ 0 := by have : 0 < 256 ^ t.length := by positivity
                                      omega
  have e : ∀ k : Nat, (256 : Nat) ^ k = 2 ^ (8 * k) := fun k => by rw [show (256 : Nat) = 2 ^ 8 from rfl, ← pow_mul]
  rw [e] at hge hlt
  have h1 := bitLen_lt (beVal (b :: t))
  have h2 := le_bitLen hne
  have h3 : 8 * t.length < Spec.bitLen (beVal (b :: t)) :=
    (Nat.pow_lt_pow_iff_right (a := 2) (by norm_num)).1 (lt_of_le_of_lt hge h1)
  have h4 : Spec.bitLen (beVal (b :: t)) - 1 < 8 * (b :: t).length :=
    (Nat.pow_lt_pow_iff_right (a := 2) (by norm_num)).1 (lt_of_le_of_lt h2 hlt)
  simp only [List.length_cons] at h4 hl
  have hv : val (decWords (b :: t).reverse) = beVal (b :: t) := by rw [decWords_val, List.reverse_reverse]
  refine ⟨⟨by rw [hv, hh], by rw [hh]; omega, by rw [hv]; exact hne, ?_⟩, ?_⟩
  · rw [decWords_length, List.length_reverse, List.length_cons, hh]; omega
  · rw [hh, List.length_cons]; omega

/-- What `rsa_gen_key_prop` must produce. -/
structure KeyOk (m exp : List Byte) (p : KeyProp) : Prop where
  modulus : p.modulus = m
  bits : p.numBits = 8 * m.length
  expLen : p.exponent.length = 8
  exp : beVal p.exponent = beVal exp
  rrLen : p.rr.length = m.length
  rr : beVal p.rr = 2 ^ (2 * (8 * m.length)) % beVal m
  n0 : ∃ w : Word, p.n0inv = ninv32 w ∧ w.toNat = beVal m % 2 ^ 32

theorem wordBytes_replicate (n : Nat) : wordBytes (List.replicate n 0) = List.replicate (4 * n) 0 := by
  induction n with
  | zero => rfl
  | succ n ih =>
    rw [List.replicate_succ, wordBytes, ih, show 4 * (n + 1) = 4 * n + 4 by ring, Nat.add_comm, List.replicate_add]; rfl

theorem genKeyProp_ok (n exp : List Byte) (hn : n.length < 2 ^ 27) (he : exp.length ≤ 8)
    (h4 : (n.drop (leadZeros n)).length % 4 = 0) (h0 : n.drop (leadZeros n) ≠ []) :
    ∃ p, genKeyProp n exp = .ok p ∧ KeyOk (n.drop (leadZeros n)) exp p := by
  obtain ⟨m, hm⟩ : ∃ m, m = n.drop (leadZeros n) := ⟨_, rfl⟩
  have hhead := dropLead_head n h0
  rw [← hm] at h4 h0 hhead ⊢
  have hml : m.length < 2 ^ 27 := by rw [hm, List.length_drop]; omega
  have hmp : 0 < m.length := List.length_pos_iff.2 h0
  obtain ⟨k, hk⟩ : ∃ k, m.length = 4 * k := ⟨m.length / 4, by omega⟩
  unfold genKeyProp
  rw [if_neg (by omega)]
  dsimp only
  rw [if_neg (by omega), ← hm]
  have hkp : 0 < k := by omega
  have b1 : m.length * 8 / 32 = k := by omega
  have b2 : m.length * 8 * 2 / 32 = 2 * k := by omega
  have b3 : m.length * 8 * 2 % 8 = 0 := by omega
  have b4 : (m.length * 8 * 2 + 31) / 32 = 2 * k := by omega
  have b5 : (m.length * 8 * 2 + 7) / 8 + 1 = 8 * k + 1 := by omega
  have b6 : (m.length * 8 + 7) / 8 = m.length := by omega
  rw [b1, b2, b3, b4, b5, b6]
  obtain ⟨hd, hdec, hhd⟩ := decode_spec (List.replicate (1 + k) 0) m (by simp; omega) (by simp; omega)
  have hdrop : (List.replicate (1 + k) (0 : Word)).drop (1 + (m.length + 3) / 4) = [] := by
    rw [List.drop_eq_nil_iff]; simp; omega
  rw [hdrop, List.append_nil] at hdec
  rw [hdec, ok_bind]
  obtain ⟨H, hbytes⟩ := hdr_of_bytes m hd hhead (by omega) hhd
  have hmsl : (decWords m.reverse).length = k := by rw [decWords_length, List.length_reverse]; omega
  have hmsv : val (decWords m.reverse) = beVal m := by rw [decWords_val, List.reverse_reverse]
  obtain ⟨w0, ms', hms⟩ : ∃ w ms', decWords m.reverse = w :: ms' := by
    cases h : decWords m.reverse with
    | nil => rw [h] at hmsl; simp at hmsl; omega
    | cons w t => exact ⟨w, t, rfl⟩
  have hw0 : w0.toNat = beVal m % 2 ^ 32 := by
    rw [← hmsv, hms, val_cons]; have := w0.isLt; omega
  have hrd : rdW (hd :: decWords m.reverse) 1 = .ok w0 := by rw [hms]; rfl
  rw [hrd, ok_bind, wrW_eq (by simp), ok_bind]
  have e1 : (List.replicate (1 + 2 * k) (0 : Word)).set 0 (BitVec.ofNat 32 (2 ^ 0)) = 1 :: List.replicate (2 * k) 0 := by
    rw [Nat.add_comm, List.replicate_succ]; rfl
  rw [e1]
  have e2 : zeroRun (1 :: List.replicate (2 * k) (0 : Word)) 1 (2 * k) = .ok (1 :: List.replicate (2 * k) 0) := by
    unfold zeroRun
    have := patch_one 1 (List.replicate (2 * k) (0 : Word)) [] (List.replicate (2 * k) 0) rfl
    simpa using this
  rw [e2, ok_bind]
  rw [if_neg (by rw [wordBytes_length]; simp; omega)]
  have e3 : (wordBytes (1 :: List.replicate (2 * k) (0 : Word))).take (8 * k + 1) = 1 :: List.replicate (8 * k) 0 := by
    rw [wordBytes, wordBytes_replicate]
    have : st32 1 ++ List.replicate (4 * (2 * k)) (0 : Byte) = 1 :: (List.replicate (8 * k) 0 ++ List.replicate 3 0) := by
      rw [← List.replicate_add, show 8 * k + 3 = 3 + 4 * (2 * k) by ring, List.replicate_add]; rfl
    rw [this, List.take_succ_cons, List.take_left' (by simp)]
  rw [e3]
  have hbv : beVal (1 :: List.replicate (8 * k) (0 : Byte)) = 2 ^ (64 * k) := by
    rw [beVal_cons, beVal_replicate_zero, List.length_replicate, show (256 : Nat) = 2 ^ 8 from rfl, ← pow_mul]
    simp; ring_nf
  obtain ⟨ha, hdec2, hha⟩ := decode_spec (List.replicate (2 + 2 * k) 0) (1 :: List.replicate (8 * k) 0) (by simp; omega) (by simp; omega)
  rw [hdec2, ok_bind]
  obtain ⟨Ha, -⟩ := hdr_of_bytes (1 :: List.replicate (8 * k) 0) ha ⟨1, _, rfl, by decide⟩ (by simp; omega) hha
  obtain ⟨r, hr1, hr2, hr3⟩ := reduce_spec 1 hd ha (List.replicate k 0) (List.replicate k 0) (decWords m.reverse) _
    ((List.replicate (2 + 2 * k) (0 : Word)).drop (1 + ((1 :: List.replicate (8 * k) (0 : Byte)).length + 3) / 4)) H Ha (by simp [hmsl])
  rw [← List.replicate_add, ← Nat.two_mul] at hr1
  rw [hr1, ok_bind]
  have hdl : hd.toNat < 2 ^ 31 := H.small
  obtain ⟨rb, hb1, hb2, hb3⟩ := encode_spec hd (r ++ List.replicate k 0) m.length h4 (by simp [hr2, hmsl]; omega) hbytes hdl
  rw [hb1, ok_bind]
  refine ⟨_, rfl, rfl, by ring, by simp; omega, ?_, hb2, ?_, ⟨w0, rfl, hw0⟩⟩
  · show beVal (_ ++ _) = _
    rw [beVal_append, beVal_replicate_zero]; simp
  · show beVal rb = _
    rw [hb3, List.take_left' (by rw [hr2, hmsl]; omega), hr3, hmsv, decWords_val, List.reverse_reverse, hbv, hk]
    congr 2; ring

end Ack.Powm
