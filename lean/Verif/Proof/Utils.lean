import Verif.Model.Utils
import Verif.Spec.Hex
import Verif.Proof.BigBytes
/-!
# Hexadecimal decoding, memxor, serialisation
-/
namespace Ack
open Big (Byte)

theorem fromHexChar_spec (c : Byte) :
    (match hexDigit c with
     | some d => d < 16 ∧ fromHexChar c = .ok (BitVec.ofNat 8 d)
     | none => fromHexChar c = .error .abort) := by
  have h : ∀ c : Byte, fromHexChar c = (match hexDigit c with
     | some d => .ok (BitVec.ofNat 8 d)
     | none => .error .abort) := by decide +kernel
  have h' : ∀ c : Byte, (hexDigit c).getD 0 < 16 := by decide +kernel
  have h1 := h c
  have h2 := h' c
  cases e : hexDigit c with
  | none => rw [e] at h1; exact h1
  | some d => rw [e] at h1 h2; exact ⟨h2, h1⟩

theorem pair_toNat : ∀ h l : Nat, h < 16 → l < 16 → ((BitVec.ofNat 8 h <<< 4) ||| BitVec.ofNat 8 l).toNat = 16 * h + l := by
  have : ∀ h l : Fin 16, ((BitVec.ofNat 8 h.1 <<< 4) ||| BitVec.ofNat 8 l.1).toNat = 16 * h.1 + l.1 := by decide +kernel
  intro h l h1 h2
  exact this ⟨h, h1⟩ ⟨l, h2⟩

theorem hexNum_lt : ∀ (s : List Byte) (v : Nat), hexNum s = some v → v < 16 ^ s.length := by
  intro s
  induction s with
  | nil => intro v h; cases h; simp
  | cons c t ih =>
    intro v h
    have hc := fromHexChar_spec c
    rw [hexNum] at h
    cases hd : hexDigit c with
    | none => rw [hd] at h; cases h
    | some d =>
      rw [hd] at h hc
      cases hr : hexNum t with
      | none => rw [hr] at h; cases h
      | some r =>
        rw [hr] at h; cases h
        have := ih r hr
        have : d * 16 ^ t.length ≤ 15 * 16 ^ t.length := Nat.mul_le_mul_right _ (by omega)
        simp only [List.length_cons, pow_succ]; omega

/-- The loop over an even number of characters, with enough room. -/
theorem hexLoop_spec : ∀ (n : Nat) (s out : List Byte) (pos : Nat), s.length = 2 * n → pos + n ≤ out.length →
    (match hexNum s with
     | some v => ∃ d : List Byte, d.length = n ∧ beVal d = v ∧
        hexLoop s out pos = .ok (out.take pos ++ d ++ out.drop (pos + n), pos + n)
     | none => hexLoop s out pos = .error .abort) := by
  intro n
  induction n with
  | zero =>
    intro s out pos hs hp
    have : s = [] := List.length_eq_zero_iff.1 (by omega)
    subst this
    exact ⟨[], rfl, rfl, by simp [hexLoop]⟩
  | succ n ih =>
    intro s out pos hs hp
    match s, hs with
    | [], hs => simp at hs
    | [c], hs => simp at hs; omega
    | c :: d :: t, hs =>
      have ht : t.length = 2 * n := by simp at hs; omega
      have hc := fromHexChar_spec c
      have hd := fromHexChar_spec d
      have hne : pos ≠ out.length := by omega
      simp only [hexNum, hexLoop, if_neg hne]
      cases e1 : hexDigit c with
      | none => rw [e1] at hc; simp only [hc]; rfl
      | some vc =>
        rw [e1] at hc
        cases e2 : hexDigit d with
        | none => rw [e2] at hd; simp only [hc.2, hd]; rfl
        | some vd =>
          rw [e2] at hd
          have hput : putByte out pos ((BitVec.ofNat 8 vc <<< 4) ||| BitVec.ofNat 8 vd) =
              .ok (out.set pos ((BitVec.ofNat 8 vc <<< 4) ||| BitVec.ofNat 8 vd)) := if_pos (by omega)
          have h := ih t (out.set pos ((BitVec.ofNat 8 vc <<< 4) ||| BitVec.ofNat 8 vd)) (pos + 1) ht (by rw [List.length_set]; omega)
          simp only [hc.2, hd.2, ok_bind, hput]
          cases e3 : hexNum t with
          | none => rw [e3] at h; exact h
          | some r =>
            rw [e3] at h
            obtain ⟨l, hl, hv, he⟩ := h
            refine ⟨((BitVec.ofNat 8 vc <<< 4) ||| BitVec.ofNat 8 vd) :: l, by simp [hl], ?_, ?_⟩
            · rw [beVal_cons, pair_toNat _ _ hc.1 hd.1, hv, hl, ht, List.length_cons, ht, show (256 : Nat) = 16 ^ 2 by norm_num, ← pow_mul, pow_succ]
              ring
            · rw [he]
              congr 2
              · rw [List.take_add_one, List.getElem?_set_self (by omega), List.take_set_of_le (by omega)]
                simp only [Option.toList_some, List.append_assoc, List.cons_append, List.nil_append]
                rw [List.drop_set_of_lt (by omega), show pos + 1 + n = pos + (n + 1) by omega]
              · omega

/-- What `from_hex` sees of the string: one terminating zero is dropped. -/
def stripNul (s : List Byte) : List Byte := if s.getLast? = some 0 then s.dropLast else s

theorem fromHexBuf_empty (s : List Byte) : fromHexBuf s [] = .ok ([], ((stripNul s).length + 1) / 2) := by
  unfold fromHexBuf
  by_cases h : s.length = 0
  · rw [if_pos h]
    have : s = [] := List.length_eq_zero_iff.1 h
    subst this; rfl
  · rw [if_neg h]; rfl

theorem fromHexBuf_spec (s out : List Byte) (h : ((stripNul s).length + 1) / 2 ≤ out.length) (h0 : out ≠ []) :
    (match hexNum (stripNul s) with
     | some v => ∃ d : List Byte, d.length = ((stripNul s).length + 1) / 2 ∧ beVal d = v ∧
        fromHexBuf s out = .ok (d ++ out.drop d.length, d.length)
     | none => fromHexBuf s out = .error .abort) := by
  unfold fromHexBuf
  have ho : out.length ≠ 0 := fun e => h0 (List.length_eq_zero_iff.1 e)
  by_cases hs : s.length = 0
  · have : s = [] := List.length_eq_zero_iff.1 hs
    subst this
    exact ⟨[], rfl, rfl, rfl⟩
  rw [if_neg hs]
  change (match hexNum (stripNul s) with
     | some v => ∃ d : List Byte, d.length = ((stripNul s).length + 1) / 2 ∧ beVal d = v ∧
        (if out.length = 0 then _ else _) = _
     | none => (if out.length = 0 then _ else _) = _)
  rw [if_neg ho]
  simp only [show (if s.getLast? = some 0 then s.dropLast else s) = stripNul s from rfl]
  generalize stripNul s = u at *
  rw [check_true (decide_eq_true h), ok_bind]
  by_cases hodd : u.length % 2 ≠ 0
  · simp only [if_pos hodd]
    match u, hodd with
    | [], hodd => simp at hodd
    | c :: t, hodd =>
      have ht : t.length = 2 * (t.length / 2) := by simp at hodd; omega
      have hc := fromHexChar_spec c
      simp only [hexNum]
      cases e1 : hexDigit c with
      | none => rw [e1] at hc; simp only [hc]; rfl
      | some vc =>
        rw [e1] at hc
        have hput : putByte out 0 (BitVec.ofNat 8 vc) = .ok (out.set 0 (BitVec.ofNat 8 vc)) := if_pos (by omega)
        simp only [hc.2, ok_bind, hput]
        have h2 := hexLoop_spec (t.length / 2) t (out.set 0 (BitVec.ofNat 8 vc)) 1 ht (by
          rw [List.length_set]; simp at h; omega)
        cases e3 : hexNum t with
        | none => rw [e3] at h2; exact h2
        | some r =>
          rw [e3] at h2
          obtain ⟨l, hl, hv, he⟩ := h2
          have hlen : t.length = 2 * l.length := by omega
          refine ⟨BitVec.ofNat 8 vc :: l, by simp; omega, ?_, ?_⟩
          · rw [beVal_cons, hv, hlen, pow_mul, BitVec.toNat_ofNat, Nat.mod_eq_of_lt (by omega)]; norm_num
          · rw [he]
            cases out with
            | nil => exact absurd rfl h0
            | cons o os =>
              simp only [List.set_cons_zero, List.take_succ_cons, List.take_zero, List.length_cons, ← hl]
              rw [show 1 + l.length = l.length + 1 by omega]
              rfl
  · have hev : u.length = 2 * (u.length / 2) := by omega
    simp only [if_neg hodd]
    have h2 := hexLoop_spec (u.length / 2) u out 0 hev (by omega)
    cases e3 : hexNum u with
    | none => rw [e3] at h2; exact h2
    | some r =>
      rw [e3] at h2
      obtain ⟨l, hl, hv, he⟩ := h2
      refine ⟨l, by omega, hv, ?_⟩
      rw [he, ← hl]; simp

theorem fromHexBuf_small (s out : List Byte) (h : out.length < ((stripNul s).length + 1) / 2) (h0 : out ≠ []) :
    fromHexBuf s out = .error .abort := by
  unfold fromHexBuf
  have ho : out.length ≠ 0 := fun e => h0 (List.length_eq_zero_iff.1 e)
  by_cases hs : s.length = 0
  · have : s = [] := List.length_eq_zero_iff.1 hs
    subst this
    simp [stripNul] at h
  rw [if_neg hs]
  change (if out.length = 0 then _ else _) = _
  rw [if_neg ho, check_false]
  · rfl
  · rw [decide_eq_false_iff_not]
    exact Nat.not_le.2 h

theorem stripNul_eq_nil {s : List Byte} (h : ((stripNul s).length + 1) / 2 = 0) : stripNul s = [] :=
  List.length_eq_zero_iff.1 (by omega)

theorem fromHex_spec (s : List Byte) :
    (match hexNum (stripNul s) with
     | some v => ∃ d : List Byte, d.length = ((stripNul s).length + 1) / 2 ∧ beVal d = v ∧ fromHex s = .ok d
     | none => fromHex s = .error .abort) := by
  unfold fromHex
  simp only [fromHexBuf_empty, ok_bind]
  by_cases hz : ((stripNul s).length + 1) / 2 = 0
  · rw [stripNul_eq_nil hz]
    refine ⟨[], rfl, rfl, ?_⟩
    have : fromHexBuf s (List.replicate ((([] : List Byte).length + 1) / 2) 0) = .ok ([], 0) := by
      have := fromHexBuf_empty s
      rw [stripNul_eq_nil hz] at this
      exact this
    rw [this, ok_bind]; rfl
  · have h := fromHexBuf_spec s (List.replicate (((stripNul s).length + 1) / 2) 0) (by rw [List.length_replicate]) (by
      intro e; rw [List.replicate_eq_nil_iff] at e; exact hz e)
    cases e : hexNum (stripNul s) with
    | none => rw [e] at h; simp only [h]; rfl
    | some v =>
      rw [e] at h
      obtain ⟨d, hl, hv, he⟩ := h
      refine ⟨d, hl, hv, ?_⟩
      rw [he, ok_bind]
      simp only [hl]
      rw [check_true (by simp), ok_bind, List.drop_replicate, Nat.sub_self]
      simp

theorem fromHexFixed_spec (N : Nat) (s : List Byte) (h : ((stripNul s).length + 1) / 2 ≤ N) :
    (match hexNum (stripNul s) with
     | some v => ∃ d : List Byte, d.length = ((stripNul s).length + 1) / 2 ∧ beVal d = v ∧
        fromHexFixed N s = .ok (d ++ List.replicate (N - d.length) 0)
     | none => fromHexFixed N s = .error .abort) := by
  unfold fromHexFixed
  by_cases hs : s.length = 0
  · have : s = [] := List.length_eq_zero_iff.1 hs
    subst this
    exact ⟨[], rfl, rfl, by simp⟩
  rw [if_neg hs]
  simp only [fromHexBuf_empty, ok_bind]
  rw [check_true (decide_eq_true h), ok_bind]
  by_cases hN : N = 0
  · subst hN
    have hz : ((stripNul s).length + 1) / 2 = 0 := by omega
    have := fromHexBuf_empty s
    rw [stripNul_eq_nil hz] at this ⊢
    refine ⟨[], rfl, rfl, ?_⟩
    rw [show List.replicate 0 (0 : Byte) = [] from rfl, this, ok_bind]; rfl
  · have h := fromHexBuf_spec s (List.replicate N 0) (by rw [List.length_replicate]; exact h) (by
      intro e; rw [List.replicate_eq_nil_iff] at e; exact hN e)
    cases e : hexNum (stripNul s) with
    | none => rw [e] at h; simp only [h]; rfl
    | some v =>
      rw [e] at h
      obtain ⟨d, hl, hv, he⟩ := h
      refine ⟨d, hl, hv, ?_⟩
      rw [he, ok_bind]
      simp only [hl]
      rw [check_true (by simp), ok_bind, List.drop_replicate]

theorem hexNum_text (up : Bool) (d : List Byte) : hexNum (hexText up d) = some (beVal d) ∧ (hexText up d).length = 2 * d.length := by
  have h1 : ∀ (up : Bool) (b : Byte), hexDigit ((if up then hexUpper else hexLower).getD (b.toNat / 16) 0) = some (b.toNat / 16) ∧
      hexDigit ((if up then hexUpper else hexLower).getD (b.toNat % 16) 0) = some (b.toNat % 16) := by decide +kernel
  induction d with
  | nil => exact ⟨rfl, rfl⟩
  | cons b t ih =>
    obtain ⟨e1, e2⟩ := h1 up b
    unfold hexText at ih ⊢
    simp only [List.flatMap_cons, List.cons_append, List.nil_append, hexNum, e1, e2, ih.1, beVal_cons, List.length_cons, ih.2,
      Option.bind_eq_bind, Option.bind_some]
    constructor
    · rw [pow_succ, pow_mul]
      have := Nat.div_add_mod b.toNat 16
      congr 1
      generalize b.toNat / 16 = x at *
      generalize b.toNat % 16 = y at *
      rw [← this]; norm_num; ring
    · omega

theorem hexText_last (up : Bool) (d : List Byte) : stripNul (hexText up d) = hexText up d := by
  unfold stripNul
  rw [if_neg]
  intro h
  have hm := List.mem_of_mem_getLast? (Option.mem_def.2 h)
  unfold hexText at hm
  rw [List.mem_flatMap] at hm
  obtain ⟨b, -, hb⟩ := hm
  revert b
  cases up <;> decide +kernel

/-! ## memxor -/

theorem xorWord_spec (a b c d e f g h : Byte) : xorWord [a, b, c, d] [e, f, g, h] = .ok [a ^^^ e, b ^^^ f, c ^^^ g, d ^^^ h] := by
  simp only [xorWord, st32, ld32, Except.ok.injEq, List.cons.injEq, and_true]
  refine ⟨?_, ?_, ?_, ?_⟩ <;>
  · apply BitVec.eq_of_getLsbD_eq
    intro i h8
    rw [BitVec.getLsbD_extractLsb', decide_eq_true h8, Bool.true_and]
    simp only [BitVec.getLsbD_xor, BitVec.getLsbD_append]
    simp only [Nat.zero_add, if_pos h8, show ¬ (8 + i < 8) by omega, show 8 + i - 8 = i by omega, show ¬ (16 + i < 8) by omega,
      show ¬ (16 + i - 8 < 8) by omega, show 16 + i - 8 - 8 = i by omega, show ¬ (24 + i < 8) by omega, show ¬ (24 + i - 8 < 8) by omega,
      show ¬ (24 + i - 8 - 8 < 8) by omega, show 24 + i - 8 - 8 - 8 = i by omega, if_false]

theorem xorWord_len : ∀ (x y : List Byte), x.length = 4 → y.length = 4 → xorWord x y = .ok (List.zipWith (· ^^^ ·) x y)
  | [a, b, c, d], [e, f, g, h], _, _ => xorWord_spec a b c d e f g h

theorem zipWith_split (n : Nat) (x y : List Byte) :
    List.zipWith (· ^^^ ·) (x.take n) (y.take n) ++ List.zipWith (· ^^^ ·) (x.drop n) (y.drop n) = List.zipWith (· ^^^ ·) x y := by
  rw [← List.take_zipWith, ← List.drop_zipWith, List.take_append_drop]

theorem xorBlock_spec (x y : List Byte) (hx : x.length = 16) (hy : y.length = 16) : xorBlock x y = .ok (List.zipWith (· ^^^ ·) x y) := by
  unfold xorBlock
  rw [xorWord_len _ _ (by simp [hx]) (by simp [hy]), ok_bind, xorWord_len _ _ (by simp [hx]) (by simp [hy]), ok_bind,
    xorWord_len _ _ (by simp [hx]) (by simp [hy]), ok_bind, xorWord_len _ _ (by simp [hx]) (by simp [hy]), ok_bind]
  rw [List.take_of_length_le (l := x.drop 12) (by simp [hx]), List.take_of_length_le (l := y.drop 12) (by simp [hy])]
  rw [List.append_assoc, List.append_assoc]
  have h1 := zipWith_split 4 (x.drop 8) (y.drop 8)
  have h2 := zipWith_split 4 (x.drop 4) (y.drop 4)
  rw [List.drop_drop, List.drop_drop] at h1 h2
  rw [h1, h2, zipWith_split 4 x y]

theorem xorBlocks_spec (src : List Byte) (nb : Nat) : ∀ (f i : Nat) (dst : List Byte), i ≤ nb → 16 ∣ nb - i → nb - i < f →
    nb ≤ dst.length → nb ≤ src.length → ∃ r, xorBlocks src nb f i dst = .ok r ∧ r.length = dst.length ∧
      ∀ j, r[j]? = if i ≤ j ∧ j < nb then some (dst.getD j 0 ^^^ src.getD j 0) else dst[j]? := by
  intro f
  induction f with
  | zero => intro i dst _ _ h; omega
  | succ f ih =>
    intro i dst hi hd hf h1 h2
    rw [xorBlocks]
    by_cases he : i = nb
    · rw [if_pos he]
      exact ⟨dst, rfl, rfl, fun j => by rw [if_neg (by omega)]⟩
    · have hge : i + 16 ≤ nb := by
        obtain ⟨k, hk⟩ := hd
        omega
      rw [if_neg he, if_pos ⟨by omega, by omega⟩, xorBlock_spec _ _ (by simp; omega) (by simp; omega), ok_bind]
      have hl : (List.zipWith (fun x y : Byte => x ^^^ y) ((dst.drop i).take 16) ((src.drop i).take 16)).length = 16 := by
        simp; omega
      obtain ⟨r, e, l, g⟩ := ih (i + 16) (dst.take i ++ List.zipWith (· ^^^ ·) ((dst.drop i).take 16) ((src.drop i).take 16) ++ dst.drop (i + 16))
        hge (by rw [show nb - (i + 16) = nb - i - 16 by omega]; exact Nat.dvd_sub hd (dvd_refl 16)) (by omega)
        (by simp only [List.length_append, hl, List.length_take, List.length_drop]; omega) h2
      refine ⟨r, e, ?_, fun j => ?_⟩
      · rw [l]; simp only [List.length_append, hl, List.length_take, List.length_drop]; omega
      · have hti : (dst.take i).length = i := by simp; omega
        have hget : ∀ j, (dst.take i ++ List.zipWith (· ^^^ ·) ((dst.drop i).take 16) ((src.drop i).take 16) ++ dst.drop (i + 16))[j]? =
            if i ≤ j ∧ j < i + 16 then some (dst.getD j 0 ^^^ src.getD j 0) else dst[j]? := by
          intro j
          by_cases hj : j < i
          · rw [if_neg (by omega), List.append_assoc, List.getElem?_append_left (by omega), List.getElem?_take_of_lt hj]
          · by_cases hj2 : j < i + 16
            · rw [if_pos ⟨by omega, hj2⟩, List.append_assoc, List.getElem?_append_right (by omega), hti,
                List.getElem?_append_left (by omega), List.getElem?_zipWith, List.getElem?_take_of_lt (by omega),
                List.getElem?_take_of_lt (by omega), List.getElem?_drop, List.getElem?_drop, show i + (j - i) = j by omega,
                List.getElem?_eq_getElem (show j < dst.length by omega), List.getElem?_eq_getElem (show j < src.length by omega)]
              simp [List.getD_eq_getElem?_getD, List.getElem?_eq_getElem (show j < dst.length by omega), List.getElem?_eq_getElem (show j < src.length by omega)]
            · rw [if_neg (by omega), List.getElem?_append_right (by simp only [List.length_append, hl, hti]; omega),
                List.getElem?_drop]
              simp only [List.length_append, hl, hti]
              rw [show i + 16 + (j - (i + 16)) = j by omega]
        rw [g j]
        by_cases hj : i + 16 ≤ j ∧ j < nb
        · rw [if_pos hj, if_pos ⟨by omega, hj.2⟩, List.getD_eq_getElem?_getD, hget, if_neg (by omega), ← List.getD_eq_getElem?_getD]
        · rw [if_neg hj, hget]
          by_cases h3 : i ≤ j ∧ j < i + 16
          · rw [if_pos h3, if_pos ⟨h3.1, by omega⟩]
          · rw [if_neg h3, if_neg (by omega)]

theorem xorTail_spec (src : List Byte) (num : Nat) : ∀ (f i : Nat) (dst : List Byte), i ≤ num → num - i < f →
    num ≤ dst.length → num ≤ src.length → ∃ r, xorTail src num f i dst = .ok r ∧ r.length = dst.length ∧
      ∀ j, r[j]? = if i ≤ j ∧ j < num then some (dst.getD j 0 ^^^ src.getD j 0) else dst[j]? := by
  intro f
  induction f with
  | zero => intro i dst _ h; omega
  | succ f ih =>
    intro i dst hi hf h1 h2
    rw [xorTail]
    by_cases he : i = num
    · rw [if_pos he]
      exact ⟨dst, rfl, rfl, fun j => by rw [if_neg (by omega)]⟩
    · rw [if_neg he, List.getElem?_eq_getElem (show i < dst.length by omega), List.getElem?_eq_getElem (show i < src.length by omega)]
      obtain ⟨r, e, l, g⟩ := ih (i + 1) (dst.set i (dst[i] ^^^ src[i])) (by omega) (by omega) (by rw [List.length_set]; exact h1) h2
      refine ⟨r, e, by rw [l, List.length_set], fun j => ?_⟩
      rw [g j]
      by_cases hj : i + 1 ≤ j ∧ j < num
      · rw [if_pos hj, if_pos ⟨by omega, hj.2⟩, List.getD_eq_getElem?_getD, List.getElem?_set_ne (by omega), ← List.getD_eq_getElem?_getD]
      · rw [if_neg hj]
        by_cases h3 : i = j
        · subst h3
          rw [if_pos ⟨le_refl _, by omega⟩, List.getElem?_set_self (by omega)]
          simp [List.getD_eq_getElem?_getD, List.getElem?_eq_getElem (show i < dst.length by omega), List.getElem?_eq_getElem (show i < src.length by omega)]
        · rw [if_neg (by omega), List.getElem?_set_ne h3]

theorem memxor_spec (dst src : List Byte) (num : Nat) : ∃ r, memxor dst src num = .ok r ∧ r.length = dst.length ∧
    ∀ j, r[j]? = if j < min (min num dst.length) src.length then some (dst.getD j 0 ^^^ src.getD j 0) else dst[j]? := by
  unfold memxor
  generalize hm : min (min num dst.length) src.length = m
  have h1 : m ≤ dst.length := by omega
  have h2 : m ≤ src.length := by omega
  obtain ⟨r, e, l, g⟩ := xorBlocks_spec src (m - m % 16) (m + 1) 0 dst (by omega) (by rw [Nat.sub_zero]; exact Nat.dvd_sub_mod m) (by omega) (by omega) (by omega)
  obtain ⟨r', e', l', g'⟩ := xorTail_spec src m (m + 1) (m - m % 16) r (by omega) (by omega) (by omega) (by omega)
  refine ⟨r', ?_, by omega, fun j => ?_⟩
  · simp only [e, ok_bind]; exact e'
  · rw [g' j]
    by_cases h3 : m - m % 16 ≤ j ∧ j < m
    · rw [if_pos h3, if_pos h3.2, List.getD_eq_getElem?_getD, g j, if_neg (by omega), ← List.getD_eq_getElem?_getD]
    · rw [if_neg h3, g j]
      by_cases h4 : j < m
      · rw [if_pos ⟨by omega, by omega⟩, if_pos h4]
      · rw [if_neg (by omega), if_neg h4]

/-! ## Serialisation -/

theorem varbyte : ∀ v : Fin 128, (BitVec.ofNat 8 v.1 &&& 0x80 = 0) ∧ ((BitVec.ofNat 8 v.1 &&& 0x7f).toNat = v.1) ∧
    ¬ (BitVec.ofNat 8 (v.1 + 128) &&& 0x80 = 0) ∧ ((BitVec.ofNat 8 (v.1 + 128) &&& 0x7f).toNat = v.1) := by decide +kernel

theorem or_shift {a : BitVec 32} {b : Byte} {k : Nat} (ha : a.toNat < 2 ^ k) (hb : b.toNat * 2 ^ k < 2 ^ 32) :
    (a ||| (b.setWidth 32 <<< k)).toNat = a.toNat + b.toNat * 2 ^ k := by
  have h8 : b.toNat < 2 ^ 32 := lt_of_lt_of_le b.isLt (by norm_num)
  rw [BitVec.toNat_or, BitVec.toNat_shiftLeft, BitVec.toNat_setWidth, Nat.mod_eq_of_lt h8, Nat.shiftLeft_eq, Nat.mod_eq_of_lt hb,
    Nat.or_comm, mul_comm, ← Nat.two_pow_add_eq_or_of_lt ha]
  omega

theorem var_roundtrip : ∀ (f v k : Nat) (acc : BitVec 32) (rest : List Byte), 0 < f → acc.toNat < 2 ^ k → v * 2 ^ k < 2 ^ 32 → v < 128 ^ f → k < 32 →
    ∃ l, putVar f v = .ok l ∧ l ≠ [] ∧ ∃ r, getVar f k acc (l ++ rest) = .ok (r, rest) ∧ r.toNat = acc.toNat + v * 2 ^ k := by
  intro f
  induction f with
  | zero => intro v k acc rest h; omega
  | succ f ih =>
    intro v k acc rest _ ha hv hf hk
    rw [putVar]
    by_cases h : v / 128 = 0
    · rw [if_pos h]
      have hlt : v < 128 := by omega
      obtain ⟨b1, b2, -, -⟩ := varbyte ⟨v, hlt⟩
      refine ⟨_, rfl, by simp, acc ||| ((BitVec.ofNat 8 v &&& 0x7f).setWidth 32 <<< k), ?_, ?_⟩
      · rw [List.singleton_append, getVar, if_neg (by omega)]
        simp only [b1, if_true]
      · rw [or_shift ha (by rw [b2]; exact hv), b2]
    · rw [if_neg h]
      have hlt : v % 128 < 128 := by omega
      obtain ⟨-, -, b3, b4⟩ := varbyte ⟨v % 128, hlt⟩
      have hdm := Nat.div_add_mod v 128
      have hp : 0 < 2 ^ k := by positivity
      have hb : ((BitVec.ofNat 8 (v % 128 + 128) &&& 0x7f).toNat) * 2 ^ k < 2 ^ 32 := by
        rw [b4]; exact lt_of_le_of_lt (Nat.mul_le_mul_right _ (Nat.mod_le _ _)) hv
      have ho := or_shift ha hb
      rw [b4] at ho
      dsimp only at ho
      have hk7 : k + 7 < 32 := by
        by_contra hc
        have : 2 ^ 32 ≤ 2 ^ (k + 7) := Nat.pow_le_pow_right (by norm_num) (by omega)
        have : 128 * 2 ^ k ≤ v * 2 ^ k := Nat.mul_le_mul_right _ (by omega)
        rw [pow_add] at *; omega
      obtain ⟨l, e, hl, r, er, hr⟩ := ih (v / 128) (k + 7) (acc ||| ((BitVec.ofNat 8 (v % 128 + 128) &&& 0x7f).setWidth 32 <<< k)) rest
        (by
          rcases Nat.eq_zero_or_pos f with h0 | h0
          · subst h0; simp at hf; omega
          · exact h0)
        (by
          rw [ho, pow_add]
          have : v % 128 * 2 ^ k ≤ 127 * 2 ^ k := Nat.mul_le_mul_right _ (by omega)
          omega)
        (by
          refine lt_of_le_of_lt ?_ hv
          rw [pow_add]
          calc v / 128 * (2 ^ k * 2 ^ 7) = 128 * (v / 128) * 2 ^ k := by ring
            _ ≤ v * 2 ^ k := Nat.mul_le_mul_right _ (by omega))
        (by rw [pow_succ] at hf; omega) hk7
      refine ⟨_, by rw [e, ok_bind], by simp, r, ?_, ?_⟩
      · rw [List.cons_append, getVar, if_neg (by omega)]
        simp only [b3, if_false]
        exact er
      · rw [hr, ho, pow_add]
        conv_rhs => rw [← hdm]
        ring

end Ack
