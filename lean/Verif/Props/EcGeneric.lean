import Verif.Proof.EcGeneric
import Verif.Props.Ec
/-!
# Points made in any representation (C77)

`makePointU k`, `decompressU k`, `decodeU k` are `make_point`, `decompress_point`, `decode_point` with the point type `k`
(affine, homogeneous, Jacobian) as template argument.
-/
namespace Ack.Props
open Ack Ack.Big WeierstrassCurve

section
variable {P : ℕ} [Fact P.Prime] {cap : Cap} {C : Curve}

/-- C77: decoding an encoded point gives a representative of the same group element in each of the three point types. -/
theorem C77_decode_round_trip (K : CurveOk P cap C) (q : APt) (Q : C.Pt P) (h : q.Rep C Q) (compress : Bool)
    (hy : compress = true → ∀ x hn, Q ≠ .some x 0 hn) :
    (∃ r, Curve.decodeU kindA cap C (Curve.encode cap q compress) = .ok r ∧ r.Rep C Q) ∧
    (∃ r, Curve.decodeU kindP cap C (Curve.encode cap q compress) = .ok r ∧ r.Rep C Q) ∧
    (∃ r, Curve.decodeU kindJ cap C (Curve.encode cap q compress) = .ok r ∧ r.Rep C Q) := by
  obtain ⟨r, e, hr⟩ := C36_round_trip K q Q h compress hy
  rw [decodeU_eq kindA_ok, decodeU_eq kindP_ok, decodeU_eq kindJ_ok, e]
  exact ⟨⟨r, rfl, hr⟩, PPt.ofAffine_spec K hr, JPt.ofAffine_spec K hr⟩

/-- C77: for every byte string at all, the decoders of the other two point types do what the affine one does (value, abort),
followed by the conversion of the point. -/
theorem C77_decode_agree (cap : Cap) (C : Curve) (e : List Byte) :
    Curve.decodeU kindA cap C e = Curve.decode cap C e ∧
    Curve.decodeU kindP cap C e = (Curve.decode cap C e >>= PPt.ofAffine) ∧
    Curve.decodeU kindJ cap C e = (Curve.decode cap C e >>= JPt.ofAffine) :=
  ⟨by rw [decodeU_eq kindA_ok]; exact res_bind_ok _, decodeU_eq kindP_ok cap C e, decodeU_eq kindJ_ok cap C e⟩

/-- C77: decompression in each point type: the point with the given x and parity, or the identity if there is none with
y ≠ 0. -/
theorem C77_decompress (K : CurveOk P cap C) (x : Fe) (X : ZMod P) (hx : Rep P C.p x X) (odd : Bool) :
    ∃ a p j, Curve.decompressU kindA cap C x odd = .ok a ∧ Curve.decompressU kindP cap C x odd = .ok p ∧ Curve.decompressU kindJ cap C x odd = .ok j ∧
      ((∃ y : ZMod P, y ≠ 0 ∧ y ^ 2 = X ^ 3 + res P C.a * X + res P C.b) →
        ∃ Y h, a.Rep C (.some X Y h) ∧ p.Rep C (.some X Y h) ∧ j.Rep C (.some X Y h) ∧ Y ≠ 0 ∧ (Y.val % 2 = 1 ↔ odd = true)) ∧
      ((¬ ∃ y : ZMod P, y ≠ 0 ∧ y ^ 2 = X ^ 3 + res P C.a * X + res P C.b) → a = APt.identity ∧ p = PPt.identity ∧ j = JPt.identity) := by
  rw [decompressU_eq kindA_ok, decompressU_eq kindP_ok, decompressU_eq kindJ_ok]
  obtain ⟨r, e, h1, h2⟩ := decompress_spec K hx odd
  rw [e]
  by_cases hh : ∃ y : ZMod P, y ≠ 0 ∧ y ^ 2 = X ^ 3 + res P C.a * X + res P C.b
  · obtain ⟨Y, hn, hr, h3, h4⟩ := h1 hh
    obtain ⟨p, ep, hp⟩ := PPt.ofAffine_spec K hr
    obtain ⟨j, ej, hj⟩ := JPt.ofAffine_spec K hr
    exact ⟨r, p, j, rfl, ep, ej, fun _ => ⟨Y, hn, hr, hp, hj, h3, h4⟩, fun h => absurd hh h⟩
  · have := h2 hh
    subst this
    exact ⟨_, _, _, rfl, rfl, rfl, fun h => absurd h hh, fun _ => ⟨rfl, rfl, rfl⟩⟩

/-- C77: `compute_y` on an integer in range: the root with the given parity, zero exactly if there is no root other than
zero. -/
theorem C77_compute_y (K : CurveOk P cap C) (x : Big) (cx : x.Canon) (hx : 0 ≤ x.toInt ∧ x.toInt < P) (odd verify : Bool) :
    ∃ y Y, Curve.computeYInt cap C x odd verify = .ok y ∧ Rep P C.p y Y ∧
      ((∃ z : ZMod P, z ≠ 0 ∧ z ^ 2 = (x.toInt : ZMod P) ^ 3 + res P C.a * (x.toInt : ZMod P) + res P C.b) →
        Y ≠ 0 ∧ Y ^ 2 = (x.toInt : ZMod P) ^ 3 + res P C.a * (x.toInt : ZMod P) + res P C.b ∧ (Y.val % 2 = 1 ↔ odd = true)) ∧
      ((¬ ∃ z : ZMod P, z ≠ 0 ∧ z ^ 2 = (x.toInt : ZMod P) ^ 3 + res P C.a * (x.toInt : ZMod P) + res P C.b) → Y = 0) := by
  have hr : Rep P C.p ⟨x, some C.p⟩ ((x.toInt : ℤ) : ZMod P) := ⟨rfl, ⟨cx, hx.1, by rw [K.M.eq]; exact hx.2⟩, rfl⟩
  obtain ⟨y, Y, e, hy, h1, h2, h3⟩ := computeY_spec K hr odd
  have e' : Curve.computeYInt cap C x odd verify = .ok y := by
    unfold Curve.computeYInt Curve.makeFe
    cases verify
    · exact e
    · rw [if_pos rfl, check_true ((isValidInteger_iff K cx).2 hx)]
      exact e
  generalize ((x.toInt : ℤ) : ZMod P) ^ 3 + res P C.a * ((x.toInt : ℤ) : ZMod P) + res P C.b = f at *
  refine ⟨y, Y, e', hy, ?_, ?_⟩
  · rintro ⟨z, z0, hz⟩
    have h4 := h1 ⟨z, by rw [← hz]; ring⟩
    have h5 : Y ≠ 0 := by
      rintro rfl
      rw [← hz] at h4
      exact z0 (pow_eq_zero_iff (two_ne_zero) |>.1 (by rw [← h4]; ring))
    exact ⟨h5, h4, h3 h5⟩
  · intro h
    by_cases hs : IsSquare f
    · by_contra h0
      exact h ⟨Y, h0, h1 hs⟩
    · exact h2 hs

/-- C77: construction from integers.  Coordinates outside [0, p) abort.  Without verification every pair in range is
taken.  With verification the construction in each type completes exactly when the pair is a point of the curve other than
the identity that n annihilates; the result denotes that point. -/
theorem C77_make_point (K : CurveOk P cap C) (hn : C.n.Canon) (x y : Big) (cx : x.Canon) (cy : y.Canon) :
    (¬ (0 ≤ x.toInt ∧ x.toInt < P ∧ 0 ≤ y.toInt ∧ y.toInt < P) → ∀ v,
      Curve.makePointU kindA cap C x y v = .error .abort ∧ Curve.makePointU kindP cap C x y v = .error .abort ∧
      Curve.makePointU kindJ cap C x y v = .error .abort) ∧
    (0 ≤ x.toInt ∧ x.toInt < P ∧ 0 ≤ y.toInt ∧ y.toInt < P →
      (∀ Q : C.Pt P, APt.Rep C ⟨some C, ⟨x, some C.p⟩, ⟨y, some C.p⟩⟩ Q →
        (∃ r, Curve.makePointU kindA cap C x y false = .ok r ∧ r.Rep C Q) ∧ (∃ r, Curve.makePointU kindP cap C x y false = .ok r ∧ r.Rep C Q) ∧
        (∃ r, Curve.makePointU kindJ cap C x y false = .ok r ∧ r.Rep C Q) ∧
        (Q ≠ 0 → C.n.toInt • Q = 0 →
          (∃ r, Curve.makePointU kindA cap C x y true = .ok r ∧ r.Rep C Q) ∧ (∃ r, Curve.makePointU kindP cap C x y true = .ok r ∧ r.Rep C Q) ∧
          (8 < P → cap.fits (C.n.ws.length + 1) = true → ∃ r, Curve.makePointU kindJ cap C x y true = .ok r ∧ r.Rep C Q))) ∧
      ((¬ ∃ Q : C.Pt P, APt.Rep C ⟨some C, ⟨x, some C.p⟩, ⟨y, some C.p⟩⟩ Q ∧ Q ≠ 0 ∧ C.n.toInt • Q = 0) →
        Curve.makePointU kindA cap C x y true = .error .abort ∧ Curve.makePointU kindP cap C x y true = .error .abort ∧
        (8 < P → cap.fits (C.n.ws.length + 1) = true → Curve.makePointU kindJ cap C x y true = .error .abort))) := by
  obtain ⟨h1, h2⟩ := makePoint_spec K hn cx cy
  obtain ⟨tp, tj⟩ := makePointU_true K hn cx cy
  have ta : ∀ v, Curve.makePointU kindA cap C x y v = Curve.makePoint cap C x y v := fun _ => rfl
  have fp := makePointU_false (k := kindP) cap C x y
  have fj := makePointU_false (k := kindJ) cap C x y
  refine ⟨fun h v => ?_, fun h => ⟨fun Q hQ => ?_, fun hh => ?_⟩⟩
  · exact ⟨makePointU_abort K cx cy h v, makePointU_abort K cx cy h v, makePointU_abort K cx cy h v⟩
  · rw [fp, fj, ta, ta, (h2 h).1, tp]
    refine ⟨⟨_, rfl, hQ⟩, PPt.ofAffine_spec K hQ, JPt.ofAffine_spec K hQ, fun h0 hn => ?_⟩
    have e := (h2 h).2
    rw [if_pos ⟨Q, hQ, h0, hn⟩] at e
    rw [e]
    refine ⟨⟨_, rfl, hQ⟩, PPt.ofAffine_spec K hQ, fun h8 hf => ?_⟩
    rw [tj h8 hf, e]
    exact JPt.ofAffine_spec K hQ
  · have e := (h2 h).2
    rw [if_neg hh] at e
    rw [ta, tp, e]
    exact ⟨rfl, rfl, fun h8 hf => by rw [tj h8 hf, e]; rfl⟩

/-- C77: `generate_point` on hexadecimal text (one terminating zero character is dropped, so a view and a literal agree):
text that is not a numeral, that is too long for the storage, or whose value is outside [1, n-1] aborts; otherwise the
result is that multiple of the generator. -/
theorem C77_generate_hex (K : CurveOk P cap C) (cn : C.n.Canon) (G : C.Pt P) (hG : C.g.Rep C G) (s : List Byte) (hs : s.getLast? ≠ some 0) :
    C.generateLitA cap s = C.generateHexA cap s ∧ C.generateLitP cap s = C.generateHexP cap s ∧ C.generateLitJ cap s = C.generateHexJ cap s ∧
    (∀ v, hexNum s = some v → (∀ M, cap = some M → (s.length + 1) / 2 ≤ 4 * M) → 1 ≤ v → (v : ℤ) < C.n.toInt →
      (∃ r, C.generateHexA cap s = .ok r ∧ r.Rep C (v • G)) ∧ (∃ r, C.generateHexP cap s = .ok r ∧ r.Rep C (v • G)) ∧
      (8 < P → cap.fits (C.n.ws.length + 1) = true → ∃ r, C.generateHexJ cap s = .ok r ∧ r.Rep C (v • G))) ∧
    ((¬ ∃ v, hexNum s = some v ∧ (∀ M, cap = some M → (s.length + 1) / 2 ≤ 4 * M) ∧ 1 ≤ v ∧ (v : ℤ) < C.n.toInt) →
      C.generateHexA cap s = .error .abort ∧ C.generateHexP cap s = .error .abort ∧ C.generateHexJ cap s = .error .abort) := by
  have f1 : cap.fits 1 = true := K.M.room.fits (by have := Canon.len_pos K.M.canon; omega)
  have s1 : stripNul s = s := if_neg hs
  have s2 : stripNul (s ++ [0]) = s := by unfold stripNul; rw [if_pos (by simp)]; simp
  have hl : ofHex cap (s ++ [0]) = ofHex cap s := by
    have h1 := fromHex_spec s
    have h2 := fromHex_spec (s ++ [0])
    rw [s1] at h1
    rw [s2] at h2
    unfold ofHex
    cases hv : hexNum s with
    | none =>
      rw [hv] at h1 h2
      dsimp only at h1 h2
      rw [h1, h2]
    | some v =>
      rw [hv] at h1 h2
      obtain ⟨d, l, e, he⟩ := h1
      obtain ⟨d', l', e', he'⟩ := h2
      rw [he, he', beVal_inj (l'.trans l.symm) (e'.trans e.symm)]
  have hw : cap.fits (wordSize ((s.length + 1) / 2)) = true ↔ ∀ M, cap = some M → (s.length + 1) / 2 ≤ 4 * M := by
    rw [fits_iff]
    unfold wordSize
    constructor <;> intro h M hM <;> have := h M hM <;> omega
  refine ⟨by unfold Curve.generateLitA Curve.generateHexA; rw [hl], by unfold Curve.generateLitP Curve.generateHexP; rw [hl],
    by unfold Curve.generateLitJ Curve.generateHexJ; rw [hl], ?_⟩
  have h := ofHex_spec cap f1 s
  rw [s1] at h
  unfold Curve.generateHexA Curve.generateHexP Curve.generateHexJ
  cases hv : hexNum s with
  | none =>
    rw [hv] at h
    dsimp only at h
    rw [h]
    exact ⟨fun v e => (by cases e), fun _ => ⟨rfl, rfl, rfl⟩⟩
  | some v =>
    rw [hv] at h
    dsimp only at h
    by_cases hf : cap.fits (wordSize ((s.length + 1) / 2)) = true
    · rw [if_pos hf] at h
      obtain ⟨x, ex, cx, vx⟩ := h
      rw [ex]
      refine ⟨fun w e _ h1 h2 => ?_, fun hn => ?_⟩
      · cases e
        have := generate_ok K cx cn (by omega) hG
        rw [vx] at this
        simp only [natCast_zsmul] at this
        exact this
      · apply generate_abort cx cn
        intro h3
        exact hn ⟨v, rfl, hw.1 hf, by omega, by omega⟩
    · rw [if_neg hf] at h
      rw [h]
      exact ⟨fun w e h1 => absurd (hw.2 h1) hf, fun _ => ⟨rfl, rfl, rfl⟩⟩

end

/-! The hypotheses are met by the curve over GF(17): the points G, 2G and an x without point, pairs on and off the curve,
the identity pair, and texts. -/
example : CurveOk 17 (some 2) ex17 ∧ ex17.n.Canon ∧ (pt17 6 3).Rep ex17 H17 ∧ ex17.g.Rep ex17 G17 ∧
    ex17.decodeU kindJ (some 2) [3, 6] = .ok ⟨some ex17, fe17 6, fe17 3, fe17 1⟩ ∧
    ex17.decodeU kindP (some 2) [4, 6, 3] = .ok ⟨some ex17, fe17 6, fe17 3, fe17 1⟩ ∧
    ex17.decodeU kindJ (some 2) [2, 1] = .ok JPt.identity ∧
    ex17.computeYInt (some 2) (ofInt32 6) true true = .ok (fe17 3) ∧
    ex17.makePointU kindJ (some 2) (ofInt32 6) (ofInt32 3) true = .ok ⟨some ex17, fe17 6, fe17 3, fe17 1⟩ ∧
    ex17.makePointU kindJ (some 2) (ofInt32 6) (ofInt32 4) true = .error .abort ∧
    ex17.makePointU kindJ (some 2) (ofInt32 6) (ofInt32 4) false = .ok ⟨some ex17, fe17 6, fe17 4, fe17 1⟩ ∧
    ex17.makePointU kindP (some 2) (ofInt32 0) (ofInt32 0) true = .error .abort ∧
    ex17.makePointU kindP (some 2) (ofInt32 17) (ofInt32 3) false = .error .abort :=
  ⟨ex17_ok, canon1 _, H17_rep, G17_rep, by decide +kernel⟩

example : ex17.generateHexA (some 2) [0x30, 0x32] = .ok (pt17 6 3) ∧ ex17.generateLitA (some 2) [0x32] = .ok (pt17 6 3) ∧
    ex17.generateHexA (some 2) [0x31, 0x33] = .error .abort ∧ ex17.generateHexJ (some 2) [0x7a] = .error .abort ∧
    ex17.generateHexP (some 2) (List.replicate 17 0x30 ++ [0x32]) = .error .abort := by decide +kernel

end Ack.Props
