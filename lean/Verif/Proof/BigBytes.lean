import Verif.Proof.BigNative
import Verif.Spec.Bytes
import Mathlib.Tactic.IntervalCases
/-! # Bytes and non-adjacent form -/
namespace Ack

@[simp] theorem beVal_nil : beVal [] = 0 := rfl
@[simp] theorem beVal_cons (b : BitVec 8) (t : List (BitVec 8)) : beVal (b :: t) = b.toNat * 256 ^ t.length + beVal t := rfl

theorem beVal_append (a b : List (BitVec 8)) : beVal (a ++ b) = beVal a * 256 ^ b.length + beVal b := by
  induction a with
  | nil => simp
  | cons x t ih => simp only [List.cons_append, beVal_cons, ih, List.length_append, pow_add]; ring

theorem beVal_lt (a : List (BitVec 8)) : beVal a < 256 ^ a.length := by
  induction a with
  | nil => simp
  | cons x t ih =>
    have := x.isLt
    simp only [beVal_cons, List.length_cons, pow_succ]
    have : x.toNat * 256 ^ t.length ≤ 255 * 256 ^ t.length := Nat.mul_le_mul_right _ (by omega)
    omega

theorem beVal_inj : ∀ {a b : List (BitVec 8)}, a.length = b.length → beVal a = beVal b → a = b
  | [], [], _, _ => rfl
  | [], _ :: _, h, _ => by simp at h
  | _ :: _, [], h, _ => by simp at h
  | x :: s, y :: t, h, hv => by
    have hl : s.length = t.length := by simpa using h
    have h1 := beVal_lt s; have h2 := beVal_lt t
    simp only [beVal_cons] at hv
    rw [hl] at hv h1
    have hp : 0 < 256 ^ t.length := by positivity
    have e1 : (x.toNat * 256 ^ t.length + beVal s) / 256 ^ t.length = x.toNat := by
      rw [Nat.mul_comm, Nat.mul_add_div hp, Nat.div_eq_of_lt h1]; rfl
    have e2 : (y.toNat * 256 ^ t.length + beVal t) / 256 ^ t.length = y.toNat := by
      rw [Nat.mul_comm, Nat.mul_add_div hp, Nat.div_eq_of_lt h2]; rfl
    have hxy : x.toNat = y.toNat := by rw [← e1, ← e2, hv]
    have : beVal s = beVal t := by rw [hxy] at hv; omega
    rw [beVal_inj hl this, BitVec.eq_of_toNat_eq hxy]

theorem beVal_replicate_zero (n : Nat) : beVal (List.replicate n 0) = 0 := by
  induction n with
  | zero => rfl
  | succ n ih => simp only [List.replicate_succ, beVal_cons, ih]; simp

namespace Big

/-- Four bytes, the first the most significant. -/
def be4 (b0 b1 b2 b3 : Byte) : Word :=
  b0.setWidth 32 <<< 24 ||| (b1.setWidth 32 <<< 16 ||| (b2.setWidth 32 <<< 8 ||| b3.setWidth 32))

theorem be4_toNat (b0 b1 b2 b3 : Byte) :
    (be4 b0 b1 b2 b3).toNat = ((b0.toNat * 256 + b1.toNat) * 256 + b2.toNat) * 256 + b3.toNat := by
  have h0 := b0.isLt; have h1 := b1.isLt; have h2 := b2.isLt; have h3 := b3.isLt
  have e0 : (b0.setWidth 32 <<< 24).toNat = 2^24 * b0.toNat := by
    rw [BitVec.toNat_shiftLeft, Nat.shiftLeft_eq, BitVec.toNat_setWidth]; omega
  have e1 : (b1.setWidth 32 <<< 16).toNat = 2^16 * b1.toNat := by
    rw [BitVec.toNat_shiftLeft, Nat.shiftLeft_eq, BitVec.toNat_setWidth]; omega
  have e2 : (b2.setWidth 32 <<< 8).toNat = 2^8 * b2.toNat := by
    rw [BitVec.toNat_shiftLeft, Nat.shiftLeft_eq, BitVec.toNat_setWidth]; omega
  have e3 : (b3.setWidth 32).toNat = b3.toNat := by rw [BitVec.toNat_setWidth]; omega
  unfold be4
  rw [BitVec.toNat_or, BitVec.toNat_or, BitVec.toNat_or, e0, e1, e2, e3]
  rw [← Nat.two_pow_add_eq_or_of_lt (i := 8) h3,
    ← Nat.two_pow_add_eq_or_of_lt (i := 16) (show 2^8 * b2.toNat + b3.toNat < 2^16 by omega),
    ← Nat.two_pow_add_eq_or_of_lt (i := 24) (show 2^16 * b1.toNat + (2^8 * b2.toNat + b3.toNat) < 2^24 by omega)]
  omega

theorem bswap_leLoad (b0 b1 b2 b3 : Byte) : bswapWord (leLoad b0 b1 b2 b3) = be4 b0 b1 b2 b3 := by
  apply BitVec.eq_of_getLsbD_eq
  intro i hi
  interval_cases i <;> simp [bswapWord, leLoad, be4]

/-- The words read from a byte string whose length is a multiple of four. -/
theorem memWords_spec : ∀ (n : Nat) (d : List Byte), d.length = 4 * n →
    (memWords d).length = n ∧ val ((memWords d).reverse.map bswapWord) = beVal d
  | 0, d, h => by
    have : d = [] := List.length_eq_zero_iff.1 (by omega)
    subst this; simp [memWords]
  | n+1, d, h => by
    match d, h with
    | b0 :: b1 :: b2 :: b3 :: t, h =>
      have hl : t.length = 4 * n := by simp at h; omega
      obtain ⟨i1, i2⟩ := memWords_spec n t hl
      simp only [memWords, List.length_cons, i1, List.reverse_cons, List.map_append, List.map_cons, List.map_nil]
      refine ⟨trivial, ?_⟩
      rw [val_append, i2, val_singleton, bswap_leLoad, be4_toNat]
      simp only [List.length_map, List.length_reverse, i1, beVal_cons, List.length_cons, hl]
      have : B n = 256 ^ (4 * n) := by rw [B_eq, show (256:Nat) = 2^8 by norm_num, ← pow_mul]; congr 1; omega
      rw [this]
      ring
    | [], h => simp at h
    | [_], h => simp at h; omega
    | [_, _], h => simp at h; omega
    | [_, _, _], h => simp at h; omega

theorem leadWord1 (a : Byte) : (leadWord [a] 0).toNat = beVal [a] := by
  have : leadWord [a] 0 = be4 0#8 0#8 0#8 a := by
    apply BitVec.eq_of_getLsbD_eq; intro i hi
    interval_cases i <;> simp [leadWord, be4]
  rw [this, be4_toNat]; simp

theorem leadWord2 (a b : Byte) : (leadWord [a, b] 0).toNat = beVal [a, b] := by
  have : leadWord [a, b] 0 = be4 0#8 0#8 a b := by
    apply BitVec.eq_of_getLsbD_eq; intro i hi
    interval_cases i <;> simp [leadWord, be4]
  rw [this, be4_toNat]; simp

theorem leadWord3 (a b c : Byte) : (leadWord [a, b, c] 0).toNat = beVal [a, b, c] := by
  have : leadWord [a, b, c] 0 = be4 0#8 a b c := by
    apply BitVec.eq_of_getLsbD_eq; intro i hi
    interval_cases i <;> simp [leadWord, be4]
  rw [this, be4_toNat]; simp; ring

theorem leadWord_spec (d : List Byte) (h : d.length < 4) : (leadWord d 0).toNat = beVal d := by
  match d, h with
  | [], _ => rfl
  | [a], _ => exact leadWord1 a
  | [a, b], _ => exact leadWord2 a b
  | [a, b, c], _ => exact leadWord3 a b c
  | _ :: _ :: _ :: _ :: _, h => simp at h; omega

theorem setBytes_spec (cap : Cap) (d : List Byte) (hf : cap.fits (wordSize d.length) = true) (h1 : cap.fits 1 = true) :
    ∃ x, setBytes cap d = some x ∧ x.Canon ∧ Fits cap x ∧ x.neg = false ∧ x.toInt = beVal d := by
  unfold setBytes
  by_cases h0 : d.length = 0
  · rw [if_pos h0]
    have : d = [] := List.length_eq_zero_iff.1 h0
    subst this
    exact ⟨zero, rfl, canonW_zero, fun N hN => fits_iff.1 h1 N hN, rfl, rfl⟩
  · rw [if_neg h0, if_pos hf]
    simp only
    set k := d.length % 4 with hk
    have hdl : (d.drop k).length = 4 * (d.length / 4) := by simp; omega
    obtain ⟨m1, m2⟩ := memWords_spec _ _ hdl
    have htl : (d.take k).length = k := by simp; omega
    have hlead := leadWord_spec (d.take k) (by omega)
    have hsp : beVal d = beVal (d.take k) * 256 ^ (d.drop k).length + beVal (d.drop k) := by
      rw [← beVal_append, List.take_append_drop]
    set ws := (memWords (d.drop k)).reverse.map bswapWord with hws
    have hwl : ws.length = d.length / 4 := by simp [hws, m1]
    have key : ∀ l : List Word, l ≠ [] → l.length = wordSize d.length → val l = beVal d →
        ∃ x, some (trim false l) = some x ∧ x.Canon ∧ Fits cap x ∧ x.neg = false ∧ x.toInt = beVal d := by
      intro l hl hll hv
      refine ⟨_, rfl, trim_canon _ _ hl, ?_, ?_, ?_⟩
      · intro N hN
        have := fits_iff.1 hf N hN
        have := trim_length_le false _ hl
        omega
      · rw [trim_neg _ _ hl]; rfl
      · rw [trim_toInt _ _ hl, hv]; rfl
    by_cases hk0 : k ≠ 0
    · rw [if_pos hk0]
      apply key
      · simp
      · simp only [List.length_append, hwl, List.length_singleton, wordSize]; omega
      · rw [val_append, val_singleton, m2, hlead, hsp, hwl, hdl]
        have : B (d.length / 4) = 256 ^ (4 * (d.length / 4)) := by
          rw [B_eq, show (256:Nat) = 2^8 by norm_num, ← pow_mul]; congr 1; omega
        rw [this]; ring
    · rw [if_neg hk0]
      have hk0' : k = 0 := by omega
      apply key
      · intro h; rw [h] at hwl; simp at hwl; omega
      · rw [hwl, wordSize]; omega
      · rw [m2, hsp, hk0']; simp

theorem setBytes_none (cap : Cap) (d : List Byte) (h0 : d ≠ []) (hf : cap.fits (wordSize d.length) = false) :
    setBytes cap d = none := by
  unfold setBytes
  rw [if_neg (by simpa using h0), hf]; rfl

/-! ### output -/

theorem byteAt_spec (x : Big) (b : Nat) : (byteAt x b).toNat = val x.ws / 256 ^ b % 256 := by
  apply Nat.eq_of_testBit_eq
  intro i
  have e256 : (256:Nat) = 2^8 := by norm_num
  rw [e256, ← pow_mul, Nat.testBit_mod_two_pow, Nat.testBit_div_two_pow]
  unfold byteAt
  rw [BitVec.toNat_setWidth, Nat.testBit_mod_two_pow]
  by_cases hi : i < 8
  · simp only [hi, decide_true, Bool.true_and]
    rw [BitVec.toNat_ushiftRight, Nat.testBit_shiftRight, val_testBit]
    have e1 : (8 * b + i) / 32 = b / 4 := by omega
    have e2 : (8 * b + i) % 32 = 8 * (b % 4) + i := by omega
    rw [show i + 8 * b = 8 * b + i by omega, e1, e2]
  · simp [hi]

theorem bytesGo_length (x : Big) : ∀ n, (bytesGo x n).length = n
  | 0 => rfl
  | n+1 => by simp [bytesGo, bytesGo_length x n]

theorem bytesGo_spec (x : Big) : ∀ n, beVal (bytesGo x n) = val x.ws % 256 ^ n
  | 0 => by simp [bytesGo, Nat.mod_one]
  | n+1 => by
    rw [bytesGo, beVal_cons, bytesGo_length, bytesGo_spec x n, byteAt_spec]
    rw [pow_succ, Nat.mod_mul]; ring

theorem lt_byteLength {x : Big} (hx : x.Canon) : val x.ws < 256 ^ x.byteLength := by
  refine lt_of_lt_of_le (lt_two_pow_bitLength hx) ?_
  rw [show (256:Nat) = 2^8 by norm_num, ← pow_mul]
  apply Nat.pow_le_pow_right (by norm_num)
  unfold byteLength; omega

theorem byteLength_pos {x : Big} (hx : x.Canon) : 0 < x.byteLength := by
  have := bitLength_pos hx; unfold byteLength; omega

/-- `byte_length` is minimal for a non-zero number. -/
theorem byteLength_le {x : Big} (hx : x.Canon) (n : Nat) (hn : 0 < n) (h : val x.ws < 256 ^ n) : x.byteLength ≤ n := by
  have h2 : x.bitLength ≤ 8 * n := by
    rw [bitLength_spec hx]
    split
    · omega
    · rw [Nat.size_le]
      rw [show (256:Nat) = 2^8 by norm_num, ← pow_mul] at h
      exact h
  unfold byteLength; omega

theorem getBytes_spec {x : Big} (hx : x.Canon) (d : List Byte) :
    (x.byteLength ≤ d.length → ∃ o, getBytes x d = some o ∧ o.length = d.length ∧
        beVal (o.take x.byteLength) = val x.ws ∧ o.drop x.byteLength = d.drop x.byteLength) ∧
    (d.length < x.byteLength → getBytes x d = none) := by
  unfold getBytes
  constructor
  · intro h
    simp only
    rw [if_neg (by omega)]
    have hl := bytesGo_length x x.byteLength
    refine ⟨_, rfl, ?_, ?_, ?_⟩
    · simp [hl]; omega
    · rw [List.take_append_of_le_length (by omega), List.take_of_length_le (by omega), bytesGo_spec,
        Nat.mod_eq_of_lt (lt_byteLength hx)]
    · rw [List.drop_append_of_le_length (by omega), List.drop_of_length_le (by omega)]; rfl
  · intro h
    simp only
    rw [if_pos h]

theorem toBytes_spec {x : Big} (hx : x.Canon) :
    (toBytes x).length = x.byteLength ∧ beVal (toBytes x) = val x.ws := by
  have h := (getBytes_spec hx (List.replicate x.byteLength 0)).1 (by simp)
  obtain ⟨o, e, ol, ov, od⟩ := h
  have he : toBytes x = o := by unfold toBytes; simp only; rw [e]; rfl
  rw [he]
  rw [List.length_replicate] at ol
  refine ⟨ol, ?_⟩
  rwa [List.take_of_length_le (by omega)] at ov

/-- The first byte of the output of a non-zero number is not zero. -/
theorem toBytes_head {x : Big} (hx : x.Canon) (h0 : x.toInt ≠ 0) : (toBytes x).headD 0 ≠ 0 := by
  obtain ⟨l, v⟩ := toBytes_spec hx
  have hp := byteLength_pos hx
  rw [ne_eq, toInt_zero_iff] at h0
  match h : toBytes x with
  | [] => rw [h] at l; simp at l; omega
  | b :: t =>
    rw [h] at l v
    simp only [List.headD_cons]
    rintro rfl
    simp at l v
    have h2 := beVal_lt t
    rw [v] at h2
    by_cases ht : t.length = 0
    · rw [ht] at h2; simp at h2; omega
    · have := byteLength_le hx t.length (by omega) h2
      omega

/-! ## Non-adjacent form -/

@[simp] theorem digitsVal_cons (d : BitVec 8) (t : List (BitVec 8)) : digitsVal (d :: t) = d.toInt + 2 * digitsVal t := rfl

theorem mods1_four {x : Big} (hn : x.neg = false) :
    ∃ r, mods1 x 4 = .ok r ∧ getInt32 r = some (BitVec.ofNat 32 (val x.ws % 4)) := by
  obtain ⟨r, e, l, n, v⟩ := mods1_spec x 4 (by decide)
  refine ⟨r, e, ?_⟩
  obtain ⟨w, hw⟩ := List.length_eq_one_iff.1 l
  rw [hn] at n
  have h4 : (4 : BitVec 32).toInt = ((4:Nat):Int) := by decide
  unfold toInt at v
  rw [n, hn, hw, h4] at v
  simp only [Bool.false_eq_true, if_false, val_singleton, ← Int.ofNat_tmod] at v
  have hwv : w.toNat = val x.ws % 4 := by exact_mod_cast v
  unfold getInt32
  rw [hw]
  simp only [List.length_singleton, gt_iff_lt, lt_self_iff_false, if_false, List.headD_cons]
  have : r.isNegative = false := by unfold isNegative; rw [n]; simp
  rw [this]
  simp only [Bool.false_and, Bool.false_eq_true, if_false, Option.some.injEq]
  apply BitVec.eq_of_toNat_eq
  rw [BitVec.toNat_ofNat, hwv]; omega

theorem sub_neg_false {cap : Cap} {x : Big} {y : BitVec 32} (hn : x.neg = false) (hx : x.Canon)
    (h : y.toInt < 0 ∨ y.toInt ≤ val x.ws) : (subs1 cap x y).neg = false := by
  unfold subs1 adds1Go
  rw [hn]
  by_cases hy : y.toInt < 0
  · simp [hy]
  · simp only [hy, decide_false]
    have hc := cabs32_toNat y
    rw [abs_of_nonneg (by omega)] at hc
    have : x.ws.length > 1 ∨ x.ws.headD 0 ≥ cabs32 y := by
      by_cases hl : x.ws.length > 1
      · exact Or.inl hl
      · right
        obtain ⟨hv, -⟩ := headD_of_len_one hx hl
        simp only [GE.ge, BitVec.le_def]; omega
    rw [if_neg (by simp), if_pos this]

theorem nafGo_spec (cap : Cap) (L : Nat) (hL : cap.fits (L + 1) = true) : ∀ (k f : Nat) (num : Big), num.Canon → num.neg = false →
    num.ws.length ≤ L → val num.ws ≤ 2^k → k + 2 ≤ f →
    ∃ l, nafGo cap f num = .ok l ∧ digitsVal l = val num.ws ∧ NonAdjacent l ∧ (∀ d ∈ l, d = 0#8 ∨ d = 1#8 ∨ d = 255#8) ∧
      (val num.ws % 2 = 0 → l.headD 0#8 = 0#8) ∧ (l ≠ [] → l.getLastD 0#8 = 1#8) ∧ l.length ≤ k + 1 := by
  intro k f
  induction f generalizing k with
  | zero => intro num _ _ _ _ h; omega
  | succ f ih =>
    intro num hc hn hlen hk hf
    have hcmp := compareu1_spec hc 0 (by simp [hn])
    have htoI : num.toInt = val num.ws := by unfold toInt; rw [hn]; rfl
    rw [htoI] at hcmp
    have hfits : Fits cap num := fun N hN => by have := fits_iff.1 hL N hN; omega
    rw [nafGo]
    by_cases h0 : val num.ws = 0
    · have : ¬ compareu1 num 0 > 0 := by rw [hcmp, h0]; simp
      rw [if_neg this]
      refine ⟨[], rfl, by simp [h0, digitsVal], trivial, by simp, fun _ => rfl, fun h => absurd rfl h, by simp⟩
    · have : compareu1 num 0 > 0 := by
        rw [hcmp, if_neg (by simp), if_neg (by simpa using h0)]; decide
      rw [if_pos this]
      by_cases hodd : num.isOdd = true
      · rw [if_pos hodd]
        rw [isOdd_iff, htoI] at hodd
        obtain ⟨r, e, g⟩ := mods1_four hn
        rw [e]
        simp only [ok_bind, g]
        set nd : BitVec 32 := 2 - BitVec.ofNat 32 (val num.ws % 4) with hnd
        -- the digit
        have hm : val num.ws % 4 = 1 ∨ val num.ws % 4 = 3 := by omega
        have hd : (nd = 1#32 ∧ val num.ws % 4 = 1) ∨ (nd = 4294967295#32 ∧ val num.ws % 4 = 3) := by
          rcases hm with h | h
          · left; rw [hnd, h]; exact ⟨by decide, rfl⟩
          · right; rw [hnd, h]; exact ⟨by decide, rfl⟩
        obtain ⟨sc, sf, sv⟩ := subs1_spec cap num nd hc hfits
        have sneg : (subs1 cap num nd).neg = false := by
          apply sub_neg_false hn hc
          rcases hd with h | h
          · right; rw [h.1]; have : (1#32).toInt = 1 := by decide
            rw [this]; omega
          · left; rw [h.1]; decide
        have sv' : (subs1 cap num nd).toInt = num.toInt - nd.toInt := by
          rcases sv with h | h
          · exact h
          · exfalso
            have h2 := fits_mono hL (n := num.ws.length + 1) (by omega)
            rw [h.2] at h2; exact absurd h2 (by simp)
        obtain ⟨rc, rv, rl⟩ := shr_spec (subs1 cap num nd) 1 sc
        have rneg : (shr (subs1 cap num nd) 1).neg = false := by
          unfold shr; split
          · rfl
          · unfold trim; rw [sneg]; simp
        have hsv : ((val (subs1 cap num nd).ws : Nat) : Int) = val num.ws - nd.toInt := by
          rw [← htoI, ← sv']; unfold toInt; rw [sneg]; rfl
        have hrv : val (shr (subs1 cap num nd) 1).ws = val (subs1 cap num nd).ws / 2 := by
          unfold toInt at rv; rw [rneg, sneg] at rv
          simp only [Bool.false_eq_true, if_false, pow_one] at rv
          have e2 : (2 : Int) = ((2:Nat):Int) := rfl
          rw [e2, ← Int.ofNat_tdiv] at rv
          exact_mod_cast rv
        have hnd1 : (1#32).toInt = 1 := by decide
        have hnd3 : (4294967295#32).toInt = -1 := by decide
        obtain ⟨j, rfl⟩ | hk0 : (∃ j, k = j + 1) ∨ k = 0 := by
          cases k with
          | zero => exact Or.inr rfl
          | succ j => exact Or.inl ⟨j, rfl⟩
        · have hpow : 2^(j+1) = 2 * 2^j := by rw [pow_succ]; ring
          have hle : val (shr (subs1 cap num nd) 1).ws ≤ 2^j := by
            rcases hd with ⟨h1, h2⟩ | ⟨h1, h2⟩
            · rw [h1, hnd1] at hsv; rw [hrv, h1]; omega
            · rw [h1, hnd3] at hsv; rw [hrv, h1]; omega
          have hle2 : val (shr (subs1 cap num nd) 1).ws ≤ val num.ws := by
            rcases hd with ⟨h1, h2⟩ | ⟨h1, h2⟩
            · rw [h1, hnd1] at hsv; rw [hrv, h1]; omega
            · rw [h1, hnd3] at hsv; rw [hrv, h1]; omega
          have hlen2 := rc.w.length_le hc.1 hle2
          obtain ⟨l, le, lv, la, ld, lh, lt, ll⟩ := ih j (shr (subs1 cap num nd) 1) rc rneg (by omega) hle (by omega)
          simp only [le, ok_bind]
          refine ⟨nd.setWidth 8 :: l, rfl, ?_, ?_, ?_, fun h => by omega, ?_, by simp; omega⟩
          · rw [digitsVal_cons, lv, hrv]
            rcases hd with ⟨h1, h2⟩ | ⟨h1, h2⟩
            · rw [h1, hnd1] at hsv; rw [h1]
              have : ((1#32).setWidth 8).toInt = 1 := by decide
              rw [this]; omega
            · rw [h1, hnd3] at hsv; rw [h1]
              have : ((4294967295#32).setWidth 8).toInt = -1 := by decide
              rw [this]; omega
          · have hev : val (shr (subs1 cap num nd) 1).ws % 2 = 0 := by
              rcases hd with ⟨h1, h2⟩ | ⟨h1, h2⟩
              · rw [h1, hnd1] at hsv; rw [hrv, h1]; omega
              · rw [h1, hnd3] at hsv; rw [hrv, h1]; omega
            have := lh hev
            cases l with
            | nil => trivial
            | cons d t => exact ⟨Or.inr this, la⟩
          · intro d hdm
            rcases List.mem_cons.1 hdm with rfl | hdm
            · rcases hd with ⟨h1, -⟩ | ⟨h1, -⟩ <;> rw [h1] <;> decide
            · exact ld d hdm
          · intro _
            cases l with
            | nil =>
              have h00 : val (shr (subs1 cap num nd) 1).ws = 0 := by
                have : digitsVal [] = 0 := rfl
                rw [this] at lv; omega
              rcases hd with ⟨h1, h2⟩ | ⟨h1, h2⟩
              · rw [h1]; rfl
              · rw [h1, hnd3] at hsv; rw [hrv, h1] at h00; omega
            | cons d t => exact lt (by simp)
        · subst hk0
          have h1 : val num.ws = 1 := by simp at hk; omega
          have hnd' : nd = 1#32 := by
            rcases hd with h | h
            · exact h.1
            · omega
          rw [hnd', hnd1] at hsv
          have hz : val (shr (subs1 cap num nd) 1).ws = 0 := by rw [hrv, hnd']; omega
          obtain ⟨f', rfl⟩ : ∃ f', f = f' + 1 := ⟨f - 1, by omega⟩
          have hcmp2 := compareu1_spec rc 0 (by simp [rneg])
          have : nafGo cap (f'+1) (shr (subs1 cap num nd) 1) = .ok [] := by
            rw [nafGo, if_neg]
            rw [hcmp2]
            have : (shr (subs1 cap num nd) 1).toInt = 0 := by rw [toInt_zero_iff]; exact hz
            rw [this]; simp
          simp only [this, ok_bind]
          refine ⟨[nd.setWidth 8], rfl, ?_, trivial, ?_, fun h => by omega, fun _ => ?_, by simp⟩
          · rw [hnd', h1]; decide
          · intro d hdm
            rw [List.mem_singleton] at hdm
            rw [hdm, hnd']; decide
          · rw [hnd']; rfl
      · rw [if_neg hodd]
        rw [isOdd_iff, htoI] at hodd
        obtain ⟨rc, rv, rl⟩ := shr_spec num 1 hc
        have rneg : (shr num 1).neg = false := by
          unfold shr; split
          · rfl
          · unfold trim; rw [hn]; simp
        have hrv : val (shr num 1).ws = val num.ws / 2 := by
          unfold toInt at rv; rw [rneg, hn] at rv
          simp only [Bool.false_eq_true, if_false, pow_one] at rv
          have e2 : (2 : Int) = ((2:Nat):Int) := rfl
          rw [e2, ← Int.ofNat_tdiv] at rv
          exact_mod_cast rv
        obtain ⟨j, rfl⟩ : ∃ j, k = j + 1 := by
          cases k with
          | zero => simp at hk; omega
          | succ j => exact ⟨j, rfl⟩
        have hpow : 2^(j+1) = 2 * 2^j := by rw [pow_succ]; ring
        obtain ⟨l, le, lv, la, ld, lh, lt, ll⟩ := ih j (shr num 1) rc rneg (by omega) (by omega) (by omega)
        simp only [le, ok_bind]
        refine ⟨0#8 :: l, rfl, ?_, ?_, ?_, fun _ => rfl, ?_, by simp; omega⟩
        · rw [digitsVal_cons, lv, hrv]
          have : (0#8).toInt = 0 := by decide
          rw [this]; omega
        · cases l with
          | nil => trivial
          | cons d t => exact ⟨Or.inl rfl, la⟩
        · intro d hdm
          rcases List.mem_cons.1 hdm with rfl | hdm
          · exact Or.inl rfl
          · exact ld d hdm
        · intro _
          cases l with
          | nil =>
            have : digitsVal [] = 0 := rfl
            rw [this, hrv] at lv; omega
          | cons d t => exact lt (by simp)

end Big
end Ack
