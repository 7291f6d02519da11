import Verif.Model.Action
import Verif.Spec.Wire
import Verif.Proof.Utils
/-! # Reading serialised byte strings -/
namespace Ack
open Spec.Wire

theorem byte_bits (b : BitVec 8) : (b &&& 0x80 = 0 ↔ b.toNat < 128) ∧ (b &&& 0x7f).toNat = b.toNat % 128 := by
  have : ∀ v : Fin 256, (BitVec.ofNat 8 v.1 &&& 0x80 = 0 ↔ v.1 < 128) ∧ (BitVec.ofNat 8 v.1 &&& 0x7f).toNat = v.1 % 128 := by decide +kernel
  have h := this ⟨b.toNat, b.isLt⟩
  simpa using h

theorem or_shift_wrap {a : BitVec 32} {b : BitVec 8} {j : Nat} (ha : a.toNat < 2 ^ j) (hj : j ≤ 32) :
    a ||| (b.setWidth 32 <<< j) = BitVec.ofNat 32 (a.toNat + b.toNat * 2 ^ j) := by
  have h8 : b.toNat < 2 ^ 32 := lt_of_lt_of_le b.isLt (by norm_num)
  have hp : 2 ^ 32 = 2 ^ j * 2 ^ (32 - j) := by rw [← pow_add]; congr 1; omega
  have hr : b.toNat * 2 ^ j % 2 ^ 32 = 2 ^ j * (b.toNat % 2 ^ (32 - j)) := by
    rw [hp, mul_comm b.toNat, Nat.mul_mod_mul_left]
  have hq : b.toNat % 2 ^ (32 - j) < 2 ^ (32 - j) := Nat.mod_lt _ (by positivity)
  have hlt : 2 ^ j * (b.toNat % 2 ^ (32 - j)) + a.toNat < 2 ^ 32 := by
    rw [hp]
    calc _ < 2 ^ j * (b.toNat % 2 ^ (32 - j)) + 2 ^ j := by omega
      _ = 2 ^ j * (b.toNat % 2 ^ (32 - j) + 1) := by ring
      _ ≤ _ := Nat.mul_le_mul_left _ hq
  have e1 : (a.toNat + b.toNat * 2 ^ j) % 2 ^ 32 = 2 ^ j * (b.toNat % 2 ^ (32 - j)) + a.toNat := by
    rw [Nat.add_mod, hr, Nat.mod_eq_of_lt a.isLt, Nat.add_comm, Nat.mod_eq_of_lt hlt]
  apply BitVec.eq_of_toNat_eq
  rw [BitVec.toNat_ofNat, e1, BitVec.toNat_or, BitVec.toNat_shiftLeft, BitVec.toNat_setWidth, Nat.mod_eq_of_lt h8, Nat.shiftLeft_eq, hr,
    Nat.or_comm, ← Nat.two_pow_add_eq_or_of_lt ha]

theorem getVar_ok : ∀ (init : List (BitVec 8)) (f k : Nat) (acc : BitVec 32) (b : BitVec 8) (rest : List (BitVec 8)), init.length < f →
    k + init.length ≤ 4 → acc.toNat < 2 ^ (7 * k) → (∀ x ∈ init, 128 ≤ x.toNat) → b.toNat < 128 →
    getVar f (7 * k) acc (init ++ b :: rest) = .ok (BitVec.ofNat 32 (acc.toNat + leb (init ++ [b]) * 2 ^ (7 * k)), rest)
  | [], f + 1, k, acc, b, rest, _, hk, ha, _, hb => by
    rw [List.length_nil] at hk
    rw [List.nil_append, getVar, if_neg (by omega)]
    dsimp only
    rw [if_pos ((byte_bits b).1.2 hb), or_shift_wrap ha (by omega), (byte_bits b).2]
    simp [leb]
  | x :: init, f + 1, k, acc, b, rest, hf, hk, ha, hx, hb => by
    rw [List.length_cons] at hk hf
    have hx0 := hx x List.mem_cons_self
    have hacc : (acc ||| ((x &&& 0x7f).setWidth 32 <<< (7 * k))).toNat = acc.toNat + x.toNat % 128 * 2 ^ (7 * k) := by
      have : (x &&& 0x7f).toNat * 2 ^ (7 * k) < 2 ^ 32 := by
        rw [(byte_bits x).2]
        calc x.toNat % 128 * 2 ^ (7 * k) ≤ 128 * 2 ^ (7 * 3) := Nat.mul_le_mul (by omega) (Nat.pow_le_pow_right (by norm_num) (by omega))
          _ < _ := by norm_num
      rw [or_shift ha this, (byte_bits x).2]
    have hlt : (acc ||| ((x &&& 0x7f).setWidth 32 <<< (7 * k))).toNat < 2 ^ (7 * (k + 1)) := by
      rw [hacc, show 7 * (k + 1) = 7 * k + 7 by ring, pow_add]
      have : x.toNat % 128 * 2 ^ (7 * k) ≤ 127 * 2 ^ (7 * k) := Nat.mul_le_mul_right _ (by omega)
      omega
    have ih := getVar_ok init f (k + 1) _ b rest (by omega) (by omega) hlt (fun y hy => hx y (List.mem_cons_of_mem _ hy)) hb
    rw [List.cons_append, getVar, if_neg (by omega)]
    dsimp only
    rw [if_neg (fun h => absurd ((byte_bits x).1.1 h) (by omega)), show 7 * k + 7 = 7 * (k + 1) by ring, ih, hacc, List.cons_append, leb]
    congr 3
    rw [show 7 * (k + 1) = 7 * k + 7 by ring, pow_add]
    ring

theorem getVar_cut : ∀ (st : List (BitVec 8)) (f k : Nat) (acc : BitVec 32), st.length < f → k + st.length ≤ 5 →
    (∀ x ∈ st, 128 ≤ x.toNat) → getVar f (7 * k) acc st = .error .abort
  | [], f + 1, k, acc, _, _, _ => rfl
  | x :: st, f + 1, k, acc, hf, hk, hx => by
    rw [List.length_cons] at hk hf
    have hx0 := hx x List.mem_cons_self
    rw [getVar, if_neg (by omega)]
    dsimp only
    rw [if_neg (fun h => absurd ((byte_bits x).1.1 h) (by omega)), show 7 * k + 7 = 7 * (k + 1) by ring]
    exact getVar_cut st f (k + 1) _ (by omega) (by omega) fun y hy => hx y (List.mem_cons_of_mem _ hy)

theorem getVar_long : ∀ (m : Nat) (st : List (BitVec 8)) (f k : Nat) (acc : BitVec 32), m < f → k + m = 5 → m < st.length →
    (∀ x ∈ st.take m, 128 ≤ x.toNat) → getVar f (7 * k) acc st = .error .ub
  | 0, x :: st, f + 1, k, acc, _, hk, _, _ => by
    rw [getVar, if_pos (by omega)]
  | m + 1, x :: st, f + 1, k, acc, hf, hk, hl, hx => by
    rw [List.length_cons] at hl
    rw [List.take_succ_cons] at hx
    have hx0 := hx x List.mem_cons_self
    rw [getVar, if_neg (by omega)]
    dsimp only
    rw [if_neg (fun h => absurd ((byte_bits x).1.1 h) (by omega)), show 7 * k + 7 = 7 * (k + 1) by ring]
    exact getVar_long m st f (k + 1) _ (by omega) (by omega) (by omega) fun y hy => hx y (List.mem_cons_of_mem _ hy)

theorem var_cases : ∀ (m : Nat) (st : List (BitVec 8)),
    (∃ init b t, st = init ++ b :: t ∧ (∀ x ∈ init, 128 ≤ x.toNat) ∧ b.toNat < 128 ∧ init.length < m) ∨
    (st.length ≤ m ∧ ∀ x ∈ st, 128 ≤ x.toNat) ∨ (m < st.length ∧ ∀ x ∈ st.take m, 128 ≤ x.toNat)
  | m, [] => Or.inr (Or.inl ⟨by simp, by simp⟩)
  | 0, x :: st => Or.inr (Or.inr ⟨by simp, by simp⟩)
  | m + 1, x :: st => by
    by_cases hx : x.toNat < 128
    · exact Or.inl ⟨[], x, st, rfl, by simp, hx, by simp⟩
    · have hc : ∀ {l : List (BitVec 8)}, (∀ y ∈ l, 128 ≤ y.toNat) → ∀ y ∈ x :: l, 128 ≤ y.toNat := by
        intro l h y hy
        rcases List.mem_cons.1 hy with rfl | hy
        · omega
        · exact h y hy
      rcases var_cases m st with ⟨init, b, t, e, h1, h2, h3⟩ | ⟨h1, h2⟩ | ⟨h1, h2⟩
      · exact Or.inl ⟨x :: init, b, t, by rw [e]; rfl, hc h1, h2, by simpa using h3⟩
      · exact Or.inr (Or.inl ⟨by simpa using h1, hc h2⟩)
      · exact Or.inr (Or.inr ⟨by simpa using h1, by rw [List.take_succ_cons]; exact hc h2⟩)

/-- **What reading a length yields, for all bytes.** -/
theorem getVar_len {L : List (BitVec 8)} {n : ℕ} (h : IsLen L n) (rest : List (BitVec 8)) :
    ∃ v : BitVec 32, getVar 6 0 0 (L ++ rest) = .ok (v, rest) ∧ v.toNat = n := by
  obtain ⟨init, b, rfl, h1, h2, h3, h4⟩ := h
  have := getVar_ok init 6 0 0 b rest (by omega) (by omega) (by simp) h1 h2
  refine ⟨_, by rw [List.append_assoc]; exact this, ?_⟩
  rw [BitVec.toNat_ofNat, ← h4]
  simp

theorem getVar_Cut {st : List (BitVec 8)} (h : Cut st) : getVar 6 0 0 st = .error .abort := getVar_cut st 6 0 0 (by have := h.1; omega) (by have := h.1; omega) h.2

theorem getVar_NoEnd {st : List (BitVec 8)} (h : NoEnd st) : getVar 6 0 0 st = .error .ub := getVar_long 5 st 6 0 0 (by omega) rfl h.1 h.2

theorem len_cases (st : List (BitVec 8)) : (∃ L n t, IsLen L n ∧ st = L ++ t) ∨ Cut st ∨ NoEnd st := by
  rcases var_cases 5 st with ⟨init, b, t, e, h1, h2, h3⟩ | h | h
  · exact Or.inl ⟨init ++ [b], _, t, ⟨init, b, rfl, h1, h2, by omega, rfl⟩, by rw [e, List.append_assoc]; rfl⟩
  · exact Or.inr (Or.inl h)
  · exact Or.inr (Or.inr h)

theorem deserView_ok {L d : List (BitVec 8)} (h : IsLen L d.length) (rest : List (BitVec 8)) : deserView (L ++ d ++ rest) = .ok (d, rest) := by
  obtain ⟨v, e, hv⟩ := getVar_len h (d ++ rest)
  unfold deserView
  rw [List.append_assoc, e, ok_bind]
  simp only [hv]
  rw [if_pos (by simp), List.take_left, List.drop_left]

theorem deserView_cut {st : List (BitVec 8)} (h : Cut st) : deserView st = .error .abort := by
  unfold deserView; rw [getVar_Cut h]; rfl

theorem deserView_bad {st : List (BitVec 8)} (h : NoEnd st ∨ TooShort st) : deserView st = .error .ub := by
  rcases h with h | ⟨L, n, t, hL, rfl, ht⟩
  · unfold deserView; rw [getVar_NoEnd h]; rfl
  · obtain ⟨v, e, hv⟩ := getVar_len hL t
    unfold deserView
    rw [e, ok_bind]
    simp only [hv]
    rw [if_neg (by omega)]

theorem view_cases (st : List (BitVec 8)) : (∃ L d t, IsLen L d.length ∧ st = L ++ d ++ t) ∨ Cut st ∨ (NoEnd st ∨ TooShort st) := by
  rcases len_cases st with ⟨L, n, t, hL, e⟩ | h | h
  · by_cases hn : n ≤ t.length
    · refine Or.inl ⟨L, t.take n, t.drop n, by rw [List.length_take, Nat.min_eq_left hn]; exact hL, ?_⟩
      rw [List.append_assoc, List.take_append_drop]; exact e
    · exact Or.inr (Or.inr (Or.inr ⟨L, n, t, hL, e, by omega⟩))
  · exact Or.inr (Or.inl h)
  · exact Or.inr (Or.inr (Or.inl h))

theorem putVar_len : ∀ (f m v : ℕ), v < 128 ^ m → 0 < m → m ≤ f → ∃ init b, putVar f v = .ok (init ++ [b]) ∧ (∀ x ∈ init, 128 ≤ x.toNat) ∧
    b.toNat < 128 ∧ init.length < m ∧ leb (init ++ [b]) = v
  | 0, m, v, _, h0, hm => by omega
  | _, 0, v, _, h0, hm => by omega
  | f + 1, m + 1, v, hv, _, hm => by
    rw [putVar]
    by_cases h : v / 128 = 0
    · rw [if_pos h]
      have hb : (BitVec.ofNat 8 v).toNat = v := by rw [BitVec.toNat_ofNat]; omega
      refine ⟨[], _, rfl, by simp, by omega, by simp, ?_⟩
      simp only [List.nil_append, leb, hb]; omega
    · rw [if_neg h]
      rw [pow_succ] at hv
      obtain ⟨init, b, e, h1, h2, h3, h4⟩ := putVar_len f m (v / 128) (by omega) (by
        rcases Nat.eq_zero_or_pos m with h0 | h0
        · subst h0; omega
        · exact h0) (by omega)
      have hx : (BitVec.ofNat 8 (v % 128 + 128)).toNat = v % 128 + 128 := by rw [BitVec.toNat_ofNat]; omega
      refine ⟨BitVec.ofNat 8 (v % 128 + 128) :: init, b, by rw [e]; rfl, ?_, h2, by simpa using h3, ?_⟩
      · intro y hy
        rcases List.mem_cons.1 hy with rfl | hy
        · omega
        · exact h1 y hy
      · rw [List.cons_append, leb, h4, hx]; omega

theorem putVar_32 {v : ℕ} (hv : v < 2 ^ 32) : ∃ L, putVar 6 v = .ok L ∧ IsLen L v := by
  obtain ⟨init, b, e, h1, h2, h3, h4⟩ := putVar_len 6 5 v (lt_trans hv (by norm_num)) (by norm_num) (by norm_num)
  exact ⟨_, e, init, b, rfl, h1, h2, by omega, by rw [h4, Nat.mod_eq_of_lt hv]⟩

theorem serView_packs {d : List (BitVec 8)} (h : d.length < 2 ^ 32) : ∃ L, serView d = .ok (L ++ d) ∧ IsLen L d.length := by
  obtain ⟨L, e, hL⟩ := putVar_32 h
  exact ⟨L, by unfold serView; rw [Nat.mod_eq_of_lt h, e]; rfl, hL⟩

theorem writeViews_packs : ∀ (ds : List (List (BitVec 8))), (∀ d ∈ ds, d.length < 2 ^ 32) → ∃ st, writeViews ds = .ok st ∧ Packs ds st
  | [], _ => ⟨[], rfl, .nil⟩
  | d :: ds, h => by
    obtain ⟨L, e, hL⟩ := serView_packs (h d List.mem_cons_self)
    obtain ⟨st, e2, hp⟩ := writeViews_packs ds fun x hx => h x (List.mem_cons_of_mem _ hx)
    exact ⟨L ++ d ++ st, by unfold writeViews; rw [e, ok_bind, e2]; rfl, .cons hL hp⟩

theorem readViews_ok : ∀ {ds : List (List (BitVec 8))} {st : List (BitVec 8)}, Packs ds st → ∀ rest, readViews ds.length (st ++ rest) = .ok (ds, rest) := by
  intro ds st h
  induction h with
  | nil => intro rest; rfl
  | @cons L d ds st hL _ ih =>
    intro rest
    rw [List.length_cons, readViews, List.append_assoc, deserView_ok hL, ok_bind]
    dsimp only
    rw [ih rest]; rfl

/-- **The three outcomes of reading `k` views.** -/
theorem readViews_cases : ∀ (k : ℕ) (data : List (BitVec 8)),
    (∃ ds st rest, ds.length = k ∧ Packs ds st ∧ data = st ++ rest ∧ readViews k data = .ok (ds, rest)) ∨
    ((∃ ds st rest, ds.length < k ∧ Packs ds st ∧ data = st ++ rest ∧ Cut rest) ∧ readViews k data = .error .abort) ∨
    ((∃ ds st rest, ds.length < k ∧ Packs ds st ∧ data = st ++ rest ∧ (NoEnd rest ∨ TooShort rest)) ∧ readViews k data = .error .ub)
  | 0, data => Or.inl ⟨[], [], data, rfl, .nil, rfl, rfl⟩
  | k + 1, data => by
    rcases view_cases data with ⟨L, d, t, hL, e⟩ | h | h
    · subst e
      rw [readViews, deserView_ok hL, ok_bind]
      dsimp only
      rcases readViews_cases k t with ⟨ds, st, rest, h1, h2, rfl, h4⟩ | ⟨⟨ds, st, rest, h1, h2, rfl, h4⟩, h5⟩ | ⟨⟨ds, st, rest, h1, h2, rfl, h4⟩, h5⟩
      · exact Or.inl ⟨d :: ds, _, rest, by rw [List.length_cons, h1], .cons hL h2, by simp, by rw [h4]; rfl⟩
      · exact Or.inr (Or.inl ⟨⟨d :: ds, _, rest, by rw [List.length_cons]; omega, .cons hL h2, by simp, h4⟩, by rw [h5]; rfl⟩)
      · exact Or.inr (Or.inr ⟨⟨d :: ds, _, rest, by rw [List.length_cons]; omega, .cons hL h2, by simp, h4⟩, by rw [h5]; rfl⟩)
    · refine Or.inr (Or.inl ⟨⟨[], [], data, by simp, .nil, rfl, h⟩, ?_⟩)
      rw [readViews, deserView_cut h]; rfl
    · refine Or.inr (Or.inr ⟨⟨[], [], data, by simp, .nil, rfl, h⟩, ?_⟩)
      rw [readViews, deserView_bad h]; rfl

theorem readViews_bad : ∀ {ds : List (List (BitVec 8))} {st : List (BitVec 8)}, Packs ds st → ∀ {k rest}, ds.length < k → ∀ {x}, deserView rest = .error x →
    readViews k (st ++ rest) = .error x := by
  intro ds st h
  induction h with
  | nil =>
    intro k rest hk x hx
    obtain ⟨k, rfl⟩ : ∃ j, k = j + 1 := ⟨k - 1, by simp at hk; omega⟩
    rw [List.nil_append, readViews, hx]; rfl
  | @cons L d ds st hL _ ih =>
    intro k rest hk x hx
    rw [List.length_cons] at hk
    obtain ⟨k, rfl⟩ : ∃ j, k = j + 1 := ⟨k - 1, by omega⟩
    rw [readViews, List.append_assoc, deserView_ok hL, ok_bind]
    dsimp only
    rw [ih (by omega) hx]; rfl

theorem writeOpt_is (o : Option (BitVec 32)) : ∃ l, writeOpt o = .ok l ∧ IsOpt l o := by
  cases o with
  | none => exact ⟨_, rfl, .none⟩
  | some v =>
    obtain ⟨L, e, hL⟩ := putVar_32 v.isLt
    exact ⟨1 :: L, by unfold writeOpt; dsimp only; rw [e]; rfl, .some (by decide) hL⟩

theorem readOpt_ok {l : List (BitVec 8)} {o : Option (BitVec 32)} (h : IsOpt l o) (rest : List (BitVec 8)) : readOpt (l ++ rest) = .ok (o, rest) := by
  cases h with
  | none => rfl
  | @some b L v hb hL =>
    obtain ⟨w, e, hw⟩ := getVar_len hL rest
    rw [List.cons_append, readOpt, if_neg hb, e, ok_bind, BitVec.eq_of_toNat_eq hw]

theorem opt_cases (st : List (BitVec 8)) : (∃ l o t, IsOpt l o ∧ st = l ++ t) ∨
    ((st = [] ∨ ∃ b t, st = b :: t ∧ b ≠ 0 ∧ Cut t) ∧ readOpt st = .error .abort) ∨ ((∃ b t, st = b :: t ∧ b ≠ 0 ∧ NoEnd t) ∧ readOpt st = .error .ub) := by
  cases st with
  | nil => exact Or.inr (Or.inl ⟨Or.inl rfl, rfl⟩)
  | cons b t =>
    by_cases hb : b = 0
    · subst hb; exact Or.inl ⟨[0], _, t, .none, rfl⟩
    rcases len_cases t with ⟨L, n, t, hL, rfl⟩ | h | h
    · have hn : n < 2 ^ 32 := by
        obtain ⟨_, _, _, _, _, _, h⟩ := hL
        rw [← h]; exact Nat.mod_lt _ (by norm_num)
      have : (BitVec.ofNat 32 n).toNat = n := by rw [BitVec.toNat_ofNat, Nat.mod_eq_of_lt hn]
      exact Or.inl ⟨b :: L, some (BitVec.ofNat 32 n), t, .some hb (by rw [this]; exact hL), rfl⟩
    · refine Or.inr (Or.inl ⟨Or.inr ⟨b, t, rfl, hb, h⟩, ?_⟩)
      rw [readOpt, if_neg hb, getVar_Cut h]; rfl
    · refine Or.inr (Or.inr ⟨⟨b, t, rfl, hb, h⟩, ?_⟩)
      rw [readOpt, if_neg hb, getVar_NoEnd h]; rfl

theorem packs_len {ds : List (List (BitVec 8))} {st : List (BitVec 8)} (h : Packs ds st) : ∀ d ∈ ds, d.length ≤ st.length := by
  induction h with
  | nil => intro d hd; cases hd
  | cons _ _ ih =>
    intro d hd
    simp only [List.length_append]
    rcases List.mem_cons.1 hd with rfl | hd
    · omega
    · have := ih d hd; omega

theorem deserBytes_ok {L d : List (BitVec 8)} (h : IsLen L d.length) (rest : List (BitVec 8)) : deserBytes (L ++ d ++ rest) = .ok (d, rest) := by
  obtain ⟨v, e, hv⟩ := getVar_len h (d ++ rest)
  unfold deserBytes
  rw [List.append_assoc, e, ok_bind]
  simp only [hv]
  rw [if_pos (by simp), List.take_left, List.drop_left]

theorem bytes_cases (st : List (BitVec 8)) : (∃ L d t, IsLen L d.length ∧ st = L ++ d ++ t) ∨
    ((Cut st ∨ TooShort st) ∧ deserBytes st = .error .abort) ∨ (NoEnd st ∧ deserBytes st = .error .ub) := by
  rcases view_cases st with h | h | h | h
  · exact Or.inl h
  · exact Or.inr (Or.inl ⟨Or.inl h, by unfold deserBytes; rw [getVar_Cut h]; rfl⟩)
  · exact Or.inr (Or.inr ⟨h, by unfold deserBytes; rw [getVar_NoEnd h]; rfl⟩)
  · refine Or.inr (Or.inl ⟨Or.inr h, ?_⟩)
    obtain ⟨L, n, t, hL, rfl, ht⟩ := h
    obtain ⟨v, e, hv⟩ := getVar_len hL t
    unfold deserBytes
    rw [e, ok_bind]
    simp only [hv]
    rw [if_neg (by omega)]

/-! The actions read their views in a row. -/

theorem ecdsa_data (wasm : Bool) (addr : Nat) (host : HostHash) (a : EcdsaAction) (data : List (BitVec 8)) :
    a.onData wasm addr host data = readViews 5 data >>= fun v => match v.1 with
      | [qx, qy, msg, r, s] => a.run wasm addr host qx qy msg r s
      | _ => .ok () := by
  unfold EcdsaAction.onData
  simp only [readViews, bind_assoc, ok_bind]

theorem rsa_data (me : ModExp) (host : HostHash) (a : RsaAction) (data : List (BitVec 8)) :
    a.onData me host data = readViews 4 data >>= fun v => match v.1 with
      | [n, e, msg, sig] => a.run me host n e msg sig
      | _ => .ok () := by
  unfold RsaAction.onData readKeyView
  simp only [readViews, bind_assoc, ok_bind]

theorem pss_data (W : Nat) (me : ModExp) (host : HostHash) (a : RsaAction) (data : List (BitVec 8)) :
    a.onDataPss W me host data = readViews 2 data >>= fun v => readOpt v.2 >>= fun o => readViews 2 o.2 >>= fun w => match v.1, w.1 with
      | [n, e], [msg, sig] => a.runPss W me host n e o.1 msg sig
      | _, _ => .ok () := by
  unfold RsaAction.onDataPss readPssKeyView
  simp only [readViews, bind_assoc, ok_bind]

end Ack
