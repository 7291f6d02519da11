import Verif.Proof.Utils
import Verif.Props.BigBits
/-!
# Properties of hexadecimal decoding, memxor, serialisation and key equality (C59-C62)
-/
namespace Ack.Props
open Ack Ack.Big

/-! ## C59 -/

/-- C59: a string that does not end in a zero character is decoded exactly when all characters are hexadecimal digits; the
bytes denote the number the numeral denotes, and an odd number of digits is padded with a zero digit on the left.  Any
other character aborts. -/
theorem C59_decode (s : List (BitVec 8)) (h : s.getLast? ≠ some 0) :
    (∀ v, hexNum s = some v → ∃ d, fromHex s = .ok d ∧ d.length = (s.length + 1) / 2 ∧ beVal d = v) ∧
    (hexNum s = none → fromHex s = .error .abort) := by
  have hs : stripNul s = s := if_neg h
  have := fromHex_spec s
  rw [hs] at this
  refine ⟨fun v hv => ?_, fun hn => by rw [hn] at this; exact this⟩
  rw [hv] at this
  obtain ⟨d, h1, h2, h3⟩ := this
  exact ⟨d, h3, h1, h2⟩

/-- C59: one terminating zero is ignored. -/
theorem C59_terminator (s : List (BitVec 8)) (h : s.getLast? ≠ some 0) : fromHex (s ++ [0]) = fromHex s := by
  have e : stripNul (s ++ [0]) = stripNul s := by
    unfold stripNul
    rw [List.getLast?_concat, if_pos rfl, List.dropLast_concat, if_neg h]
  have h1 := fromHex_spec (s ++ [0])
  have h2 := fromHex_spec s
  rw [e] at h1
  cases hv : hexNum (stripNul s) with
  | none => rw [hv] at h1 h2; exact h1.trans h2.symm
  | some v =>
    rw [hv] at h1 h2
    obtain ⟨d1, l1, v1, e1⟩ := h1
    obtain ⟨d2, l2, v2, e2⟩ := h2
    rw [e1, e2, beVal_inj (l1.trans l2.symm) (v1.trans v2.symm)]

/-- C59: a zero character before the terminating zero is not a digit: two zeros at the end abort.  With `C59_decode` and
`C59_terminator` this settles every string. -/
theorem C59_two_zeros (s : List (BitVec 8)) : fromHex (s ++ [0, 0]) = .error .abort := by
  have e : stripNul (s ++ [0, 0]) = s ++ [0] := by
    rw [show s ++ [(0 : BitVec 8), 0] = (s ++ [0]) ++ [0] by simp]
    unfold stripNul
    rw [List.getLast?_concat, if_pos rfl, List.dropLast_concat]
  have hn : hexNum (s ++ [0]) = none := by
    induction s with
    | nil => decide
    | cons c t ih =>
      have iht := ih (by
        rw [show t ++ [(0 : BitVec 8), 0] = (t ++ [0]) ++ [0] by simp]
        unfold stripNul
        rw [List.getLast?_concat, if_pos rfl, List.dropLast_concat])
      rw [List.cons_append, hexNum, iht]
      cases hexDigit c <;> rfl
  have h := fromHex_spec (s ++ [0, 0])
  rw [e, hn] at h
  exact h

example : fromHex [0x31, 0x32, 0, 0] = .error .abort ∧ fromHex [0x31, 0x32, 0] = .ok [0x12] := by decide

/-- C59: decoding is inverse to encoding, in lower and upper case. -/
theorem C59_roundtrip (up : Bool) (d : List (BitVec 8)) : fromHex (hexText up d) = .ok d := by
  have h := fromHex_spec (hexText up d)
  obtain ⟨hn, hl⟩ := hexNum_text up d
  rw [hexText_last, hn, hl] at h
  obtain ⟨d', l, v, e⟩ := h
  rw [e, beVal_inj (by omega) v]

/-- C59: decoding into a caller's buffer.  It never writes outside the buffer (that would be `ub`); a buffer that is too
small aborts; otherwise the bytes are stored at the front, the rest of the buffer is untouched and the number of bytes is
returned. -/
theorem C59_buffer (s out : List (BitVec 8)) (h : s.getLast? ≠ some 0) (h0 : out ≠ []) :
    (out.length < (s.length + 1) / 2 → fromHexBuf s out = .error .abort) ∧
    ((s.length + 1) / 2 ≤ out.length → ∀ d, fromHex s = .ok d → fromHexBuf s out = .ok (d ++ out.drop d.length, d.length)) ∧
    ((s.length + 1) / 2 ≤ out.length → fromHex s = .error .abort → fromHexBuf s out = .error .abort) := by
  have hs : stripNul s = s := if_neg h
  have h1 := fromHex_spec s
  refine ⟨fun hl => fromHexBuf_small s out (by rwa [hs]) h0, fun hl d hd => ?_, fun hl hd => ?_⟩
  · have h2 := fromHexBuf_spec s out (by rwa [hs]) h0
    cases hv : hexNum (stripNul s) with
    | none => rw [hv] at h1; rw [h1] at hd; cases hd
    | some v =>
      rw [hv] at h1 h2
      obtain ⟨d1, l1, v1, e1⟩ := h1
      obtain ⟨d2, l2, v2, e2⟩ := h2
      rw [e1] at hd; cases hd
      rw [e2, beVal_inj (l2.trans l1.symm) (v2.trans v1.symm)]
  · have h2 := fromHexBuf_spec s out (by rwa [hs]) h0
    cases hv : hexNum (stripNul s) with
    | none => rw [hv] at h2; exact h2
    | some v =>
      rw [hv] at h1
      obtain ⟨d1, l1, v1, e1⟩ := h1
      rw [e1] at hd; cases hd

/-- C59: the required size reported for an empty output is the size the decoder needs. -/
theorem C59_required_size (s : List (BitVec 8)) (h : s.getLast? ≠ some 0) : fromHexBuf s [] = .ok ([], (s.length + 1) / 2) := by
  have hs : stripNul s = s := if_neg h
  rw [fromHexBuf_empty, hs]

/-- C59: decoding into an array of `N` bytes stores the same bytes at the front, zeros behind, and aborts when they do not
fit or the text is malformed; for a literal the array has exactly the right size. -/
theorem C59_fixed (N : Nat) (s : List (BitVec 8)) (h : s.getLast? ≠ some 0) :
    (N < (s.length + 1) / 2 → fromHexFixed N s = .error .abort) ∧
    ((s.length + 1) / 2 ≤ N → ∀ d, fromHex s = .ok d → fromHexFixed N s = .ok (d ++ List.replicate (N - d.length) 0)) ∧
    (fromHex s = .error .abort → fromHexFixed N s = .error .abort) ∧ fromHexLit s = fromHex s := by
  have hs : stripNul s = s := if_neg h
  have h1 := fromHex_spec s
  rw [hs] at h1
  have small : N < (s.length + 1) / 2 → fromHexFixed N s = .error .abort := by
    intro hl
    unfold fromHexFixed
    rw [if_neg (by omega), fromHexBuf_empty, hs, ok_bind]
    simp only
    rw [check_false (by rw [decide_eq_false_iff_not]; omega)]
    rfl
  refine ⟨small, fun hl d hd => ?_, fun hd => ?_, ?_⟩
  · have h2 := fromHexFixed_spec N s (by rwa [hs])
    rw [hs] at h2
    cases hv : hexNum s with
    | none => rw [hv] at h1; rw [h1] at hd; cases hd
    | some v =>
      rw [hv] at h1 h2
      obtain ⟨d1, l1, v1, e1⟩ := h1
      obtain ⟨d2, l2, v2, e2⟩ := h2
      rw [e1] at hd; cases hd
      rw [e2, beVal_inj (l2.trans l1.symm) (v2.trans v1.symm)]
  · by_cases hl : (s.length + 1) / 2 ≤ N
    · have h2 := fromHexFixed_spec N s (by rwa [hs])
      rw [hs] at h2
      cases hv : hexNum s with
      | none => rw [hv] at h2; exact h2
      | some v =>
        rw [hv] at h1
        obtain ⟨d1, l1, v1, e1⟩ := h1
        rw [e1] at hd; cases hd
    · exact small (by omega)
  · unfold fromHexLit
    have h2 := fromHexFixed_spec ((s.length + 1) / 2) s (by rw [hs])
    rw [hs] at h2
    cases hv : hexNum s with
    | none => rw [hv] at h1 h2; exact h2.trans h1.symm
    | some v =>
      rw [hv] at h1 h2
      obtain ⟨d1, l1, v1, e1⟩ := h1
      obtain ⟨d2, l2, v2, e2⟩ := h2
      rw [e1, e2, l2, Nat.sub_self, beVal_inj (l2.trans l1.symm) (v2.trans v1.symm)]; simp

/-- C59: an integer constructed from hexadecimal text, as a view or as a literal, on growable storage, is the number the
numeral denotes. -/
theorem C59_bigint (s : List (BitVec 8)) (h : s.getLast? ≠ some 0) (v : Nat) (hv : hexNum s = some v) :
    ∃ x, Big.ofHex none s = .ok x ∧ Big.ofHexLit none s = .ok x ∧ x.Canon ∧ x.toInt = v := by
  obtain ⟨d, e, l, hd⟩ := (C59_decode s h).1 v hv
  obtain ⟨x, ex, cx, vx⟩ := C10_import d
  refine ⟨x, ?_, ?_, cx, by rw [vx, hd]⟩
  · unfold Big.ofHex; rw [e, ok_bind, ex]
  · unfold Big.ofHexLit; rw [(C59_fixed 0 s h).2.2.2, e, ok_bind, ex]

example : (chars "0fA").getLast? ≠ some 0 ∧ hexNum (chars "0fA") = some 250 ∧ fromHex (chars "0fA") = .ok [0, 0xfa] ∧
    fromHexLit (chars "0fA") = .ok [0, 0xfa] ∧ fromHexBuf (chars "0fA") [1, 2, 3] = .ok ([0, 0xfa, 3], 2) ∧
    fromHexBuf (chars "0fA") [1] = .error .abort ∧ hexNum (chars "0gA") = none ∧ fromHex (chars "0gA") = .error .abort ∧
    hexText true [0x0f, 0xa0] = chars "0FA0" := by decide +kernel

/-! ## C60 -/

/-- C60: `memxor` xors exactly the first `min(num, dst.size, src.size)` bytes and leaves the others. -/
theorem C60_memxor (dst src : List (BitVec 8)) (num : Nat) : ∃ r, memxor dst src num = .ok r ∧ r.length = dst.length ∧
    (∀ i (h : i < dst.length) (h' : i < src.length), i < num → r[i]? = some (dst[i] ^^^ src[i])) ∧
    (∀ i, ¬ (i < num ∧ i < src.length) → r[i]? = dst[i]?) := by
  obtain ⟨r, e, l, g⟩ := memxor_spec dst src num
  refine ⟨r, e, l, fun i h h' hn => ?_, fun i hi => ?_⟩
  · rw [g, if_pos (by omega), List.getD_eq_getElem?_getD, List.getD_eq_getElem?_getD, List.getElem?_eq_getElem h, List.getElem?_eq_getElem h']
    rfl
  · rw [g]
    by_cases h : i < min (min num dst.length) src.length
    · exact absurd ⟨by omega, by omega⟩ hi
    · rw [if_neg h]

example : memxor (List.replicate 19 0x0f) (List.replicate 18 0xff) 100 = .ok (List.replicate 18 0xf0 ++ [0x0f]) := by decide +kernel

/-! ## C61 -/

/-- C61: reading back a serialised view of fewer than 2³² bytes gives the same bytes and the rest of the stream. -/
theorem C61_roundtrip (d rest : List (BitVec 8)) (h : d.length < 2 ^ 32) :
    ∃ l, serView d = .ok l ∧ deserView (l ++ rest) = .ok (d, rest) := by
  obtain ⟨l, e, -, r, er, hr⟩ := var_roundtrip 6 d.length 0 0 (d ++ rest) (by norm_num) (by simp) (by simpa using h)
    (lt_of_lt_of_le h (by norm_num)) (by norm_num)
  refine ⟨l ++ d, by unfold serView; rw [Nat.mod_eq_of_lt h, e]; rfl, ?_⟩
  unfold deserView
  rw [List.append_assoc, er, ok_bind]
  have hr' : r.toNat = d.length := by rw [hr]; simp
  simp only [hr']
  rw [if_pos (by simp), List.take_left, List.drop_left]

example : serView (List.replicate 200 7) = .ok ([0xc8, 1] ++ List.replicate 200 7) := by decide +kernel

/-- C61, the converse fails: a stream whose length prefix is larger than what is left is not rejected by `operator>>`; the
view it returns reaches past the end of the stream (a prefix of four bytes, one byte left). -/
theorem C61_overlong_prefix_undefined : deserView [4, 0xaa] = .error .ub := by decide

/-! ## C62 -/

/-- Two views of the same memory: one that starts where the other starts has a common beginning. -/
def Coherent (a b : Span) : Prop := a.addr = b.addr → a.data <+: b.data ∨ b.data <+: a.data

theorem span_eq_iff {a b : Span} (h : Coherent a b) : a.eq b = true ↔ a.data = b.data := by
  unfold Span.eq
  by_cases e : a.addr = b.addr
  · rw [if_pos e, beq_iff_eq]
    refine ⟨fun hl => ?_, fun hd => by rw [hd]⟩
    rcases h e with p | p
    · exact p.eq_of_length hl
    · exact (p.eq_of_length hl.symm).symm
  · rw [if_neg e, beq_iff_eq]

/-- C62: keys compare equal exactly when the bytes of modulus and exponent (and the salt length) are equal. -/
theorem C62_key_equality :
    (∀ a b : RsaKeyView, Coherent a.modulus b.modulus → Coherent a.exponent b.exponent →
      (a.eq b = true ↔ a.modulus.data = b.modulus.data ∧ a.exponent.data = b.exponent.data)) ∧
    (∀ a b : RsaPssKeyView, Coherent a.modulus b.modulus → Coherent a.exponent b.exponent →
      (a.eq b = true ↔ a.modulus.data = b.modulus.data ∧ a.exponent.data = b.exponent.data ∧ a.saltLen = b.saltLen)) := by
  constructor
  · intro a b hm he
    unfold RsaKeyView.eq
    rw [Bool.and_eq_true, span_eq_iff hm, span_eq_iff he, and_comm]
  · intro a b hm he
    unfold RsaPssKeyView.eq
    rw [Bool.and_eq_true, Bool.and_eq_true, span_eq_iff hm, span_eq_iff he, beq_iff_eq]
    tauto

example :
    let m : Span := ⟨100, [1, 2, 3]⟩
    let m' : Span := ⟨200, [1, 2, 3]⟩
    let e : Span := ⟨300, [1, 0, 1]⟩
    Coherent m m' ∧ Coherent e e ∧ Coherent e ⟨300, [1, 0]⟩ ∧ RsaPssKeyView.eq ⟨⟨m, e⟩, some 32⟩ ⟨⟨m', e⟩, some 32⟩ = true ∧
    RsaPssKeyView.eq ⟨⟨m, e⟩, some 32⟩ ⟨⟨m', e⟩, none⟩ = false ∧ RsaKeyView.eq ⟨m, e⟩ ⟨m', ⟨300, [1, 0]⟩⟩ = false :=
  ⟨fun h => absurd h (by decide), fun _ => Or.inl (List.prefix_refl _), fun _ => Or.inr ⟨[1], rfl⟩, by decide, by decide, by decide⟩

end Ack.Props
