import Verif.Proof.EcCurve
/-!
# Decompression, encoding, decoding, constructors, key generation
-/
namespace Ack
open Big WeierstrassCurve

theorem bitLength_le_words {x : Big} (hx : x.Canon) : x.bitLength ≤ 32 * x.ws.length := by
  have hp := List.length_pos_iff.2 hx.1
  rw [bitLength_spec hx]
  split
  · omega
  · rw [Nat.size_le, ← B_eq]; exact val_lt _

theorem wordSize_byteLength {x : Big} (hx : x.Canon) : wordSize x.byteLength ≤ x.ws.length := by
  have := bitLength_le_words hx
  unfold wordSize byteLength; omega

section
variable {P : ℕ} [Fact P.Prime] {cap : Cap} {C : Curve}

theorem CurveOk.odd (K : CurveOk P cap C) : P % 2 = 1 := by
  rcases (Fact.out : P.Prime).eq_two_or_odd with h | h
  · have := K.gt3; omega
  · exact h

theorem Rep.zval {p : Big} (M : Mod cap p P) {a : Fe} {x : ZMod P} (h : Rep P p a x) : (x.val : ℤ) = a.v.toInt := by
  have h0 := h.elt.nn
  have h1 := h.elt.lt
  rw [M.eq] at h1
  obtain ⟨n, hn⟩ := Int.eq_ofNat_of_zero_le h0
  have : x = (n : ZMod P) := by rw [← h.val]; unfold res; rw [hn]; simp
  rw [this, ZMod.val_natCast, hn, Nat.mod_eq_of_lt (by omega)]

theorem Rep.bit0 {p : Big} (M : Mod cap p P) {a : Fe} {x : ZMod P} (h : Rep P p a x) : a.v.testBit 0 = decide (x.val % 2 = 1) := by
  rw [testBit_spec]
  have h1 := h.zval M
  have h2 : |a.v.toInt| = Ack.val a.v.ws := abs_toInt _
  rw [abs_of_nonneg h.elt.nn] at h2
  have : x.val = Ack.val a.v.ws := by omega
  rw [this, Nat.testBit_zero]

theorem val_neg_parity (hodd : P % 2 = 1) {y : ZMod P} (h : y ≠ 0) : (-y).val % 2 = 1 ↔ ¬ y.val % 2 = 1 := by
  haveI : NeZero y := ⟨h⟩
  have h1 := ZMod.val_neg_of_ne_zero y
  have h2 := ZMod.val_lt y
  omega

/-- `compute_y`. -/
theorem computeY_spec (K : CurveOk P cap C) {x : Fe} {X : ZMod P} (hx : Rep P C.p x X) (odd : Bool) :
    ∃ y Y, Curve.computeY cap C x odd = .ok y ∧ Rep P C.p y Y ∧
      (IsSquare (X ^ 3 + res P C.a * X + res P C.b) → Y ^ 2 = X ^ 3 + res P C.a * X + res P C.b) ∧
      (¬ IsSquare (X ^ 3 + res P C.a * X + res P C.b) → Y = 0) ∧ (Y ≠ 0 → (Y.val % 2 = 1 ↔ odd = true)) := by
  unfold Curve.computeY
  step x2 r1 := hx.sqr K.M
  step t r2 := r1.addB K.M K.a
  step t2 r3 := r2.mul K.M hx
  step t3 r4 := r3.addB K.M K.b
  replace r4 := r4.congr (show _ = X ^ 3 + res P C.a * X + res P C.b by ring)
  obtain ⟨y, Y, e, hy, h1, h2⟩ := r4.sqrt K.M (by have := K.gt3; omega)
  rw [e, ok_bind, hy.bit0 K.M]
  by_cases ho : (odd != decide (Y.val % 2 = 1)) = true
  · rw [if_pos ho]
    obtain ⟨c, e2, hc⟩ := hy.neg K.M
    refine ⟨c, -Y, e2, hc, fun h => by rw [neg_sq]; exact h1 h, fun h => by rw [h2 h, neg_zero], fun h => ?_⟩
    rw [val_neg_parity K.odd (neg_ne_zero.1 h)]
    cases odd <;> simp at ho ⊢ <;> exact ho
  · rw [if_neg ho]
    refine ⟨y, Y, rfl, hy, h1, h2, fun h => ?_⟩
    cases odd <;> simp at ho ⊢ <;> exact ho

theorem decompress_spec (K : CurveOk P cap C) {x : Fe} {X : ZMod P} (hx : Rep P C.p x X) (odd : Bool) :
    ∃ r, Curve.decompress cap C x odd = .ok r ∧
      ((∃ y : ZMod P, y ≠ 0 ∧ y ^ 2 = X ^ 3 + res P C.a * X + res P C.b) →
        ∃ Y h, r.Rep C (.some X Y h) ∧ Y ≠ 0 ∧ (Y.val % 2 = 1 ↔ odd = true)) ∧
      ((¬ ∃ y : ZMod P, y ≠ 0 ∧ y ^ 2 = X ^ 3 + res P C.a * X + res P C.b) → r = APt.identity) := by
  unfold Curve.decompress
  obtain ⟨y, Y, e, hy, h1, h2, h3⟩ := computeY_spec K hx odd
  rw [e, ok_bind]
  by_cases h0 : Y = 0
  · rw [if_pos ((hy.isZero_iff K.M).2 h0)]
    refine ⟨_, rfl, ?_, fun _ => rfl⟩
    rintro ⟨y', hy0, hy'⟩
    have := h1 ⟨y', by rw [← hy', sq]⟩
    rw [← hy', h0] at this
    exact absurd (by simpa using this.symm) hy0
  · rw [if_neg (by rw [hy.isZero_iff K.M]; exact h0)]
    have hs : IsSquare (X ^ 3 + res P C.a * X + res P C.b) := by
      by_contra hc; exact h0 (h2 hc)
    refine ⟨_, rfl, fun _ => ⟨Y, K.ns.2 (h1 hs), ⟨rfl, hx, hy⟩, h0, h3 h0⟩, fun hc => absurd ⟨Y, h0, h1 hs⟩ hc⟩

/-! ## Encoding -/

theorem byteLength_pred (K : CurveOk P cap C) : (subs1 cap C.p 1).byteLength = C.p.byteLength ∧
    (subs1 cap C.p 1).Canon ∧ (subs1 cap C.p 1).toInt = P - 1 := by
  have hroom := K.M.room
  have hp := K.M.one_lt
  have fp : Big.Fits cap C.p := fun N hN => by have := fits_iff.1 hroom N hN; omega
  obtain ⟨c, -, v⟩ := subs1_spec cap C.p 1 K.M.canon fp
  have v : (subs1 cap C.p 1).toInt = P - 1 := by
    rcases v with v | ⟨-, v⟩
    · rw [v, K.M.eq]; simp
    · exfalso
      have := List.length_pos_iff.2 K.M.canon.1
      rw [fits_mono hroom (by omega)] at v; cases v
  refine ⟨?_, c, v⟩
  have hP := K.gt3
  have v1 : val (subs1 cap C.p 1).ws = P - 1 := by
    have : |(subs1 cap C.p 1).toInt| = val (subs1 cap C.p 1).ws := abs_toInt _
    rw [v, abs_of_nonneg (by omega)] at this; omega
  have v2 : val C.p.ws = P := by
    have : |C.p.toInt| = val C.p.ws := abs_toInt _
    rw [K.M.eq, abs_of_nonneg (by omega)] at this; omega
  apply le_antisymm
  · apply byteLength_le c _ (byteLength_pos K.M.canon)
    have := lt_byteLength K.M.canon
    omega
  · apply byteLength_le K.M.canon _ (byteLength_pos c)
    have h1 := lt_byteLength c
    have h2 := byteLength_pos c
    rw [v1] at h1
    rw [v2]
    rcases Nat.lt_or_ge P (256 ^ (subs1 cap C.p 1).byteLength) with h | h
    · exact h
    · exfalso
      have e : P = 256 ^ (subs1 cap C.p 1).byteLength := by omega
      have ho := K.odd
      obtain ⟨k, hk⟩ := Nat.exists_eq_succ_of_ne_zero h2.ne'
      rw [hk, pow_succ] at e
      omega

theorem feBytes_spec (K : CurveOk P cap C) {a : Fe} {x : ZMod P} (h : Rep P C.p a x) :
    (a.toBytes cap).length = C.p.byteLength ∧ beVal (a.toBytes cap) = x.val := by
  unfold Fe.toBytes
  rw [max_byteLength K.M h]
  obtain ⟨l, v⟩ := h.toBytes_len K.M (subs1 cap C.p 1).byteLength
  obtain ⟨e, c, vp⟩ := byteLength_pred K
  refine ⟨?_, ?_⟩
  · rw [l, e]
    apply max_eq_left
    apply byteLength_le h.elt.c _ (byteLength_pos K.M.canon)
    have h1 := lt_byteLength K.M.canon
    have h2 : |a.v.toInt| = val a.v.ws := abs_toInt _
    rw [abs_of_nonneg h.elt.nn] at h2
    have h3 : |C.p.toInt| = val C.p.ws := abs_toInt _
    rw [abs_of_nonneg (by have := K.M.one_lt; omega)] at h3
    have := h.elt.lt
    omega
  · have := h.zval K.M
    omega

theorem ofBytes_field (K : CurveOk P cap C) (d : List Byte) (hd : d.length ≤ C.p.byteLength) :
    ∃ x, ofBytes cap d = .ok x ∧ x.Canon ∧ x.neg = false ∧ x.toInt = beVal d := by
  have h1 := wordSize_byteLength K.M.canon
  have hp := List.length_pos_iff.2 K.M.canon.1
  obtain ⟨x, e, c, -, n, v⟩ := setBytes_spec cap d (fits_mono K.M.room (by unfold wordSize at *; omega)) (fits_mono K.M.room (by omega))
  exact ⟨x, by unfold ofBytes; rw [e], c, n, v⟩

theorem isValidInteger_iff (K : CurveOk P cap C) {x : Big} (c : x.Canon) :
    C.isValidInteger x = true ↔ 0 ≤ x.toInt ∧ x.toInt < P := by
  unfold Curve.isValidInteger
  rw [Bool.and_eq_true, Bool.not_eq_true', ← Bool.not_eq_true, isNegative_iff c, opLt_iff c K.M.canon, K.M.eq]
  omega


theorem zmod_nat_rep (K : CurveOk P cap C) {x : Big} (c : x.Canon) (h0 : 0 ≤ x.toInt) (h1 : x.toInt < P) {X : ZMod P}
    (e : x.toInt = X.val) : Rep P C.p ⟨x, some C.p⟩ X := by
  refine ⟨rfl, ⟨c, h0, by rw [K.M.eq]; exact h1⟩, ?_⟩
  show res P x = X
  unfold res
  rw [e]; simp

omit [Fact P.Prime] in
theorem decode_cons (cap : Cap) (C : Curve) (t : Byte) (r : List Byte) :
    Curve.decode cap C (t :: r) = (do
      check (decide (t.toNat ≤ 4) && t != 1)
      if t = 2 ∨ t = 3 then do
        check (r.length + 1 == C.p.byteLength + 1)
        let x ← ofBytes cap (r.take C.p.byteLength)
        Curve.decompressInt cap C x ((t &&& 1) == 1) false
      else if t = 4 then do
        check (r.length + 1 == 2 * C.p.byteLength + 1)
        let x ← ofBytes cap (r.take C.p.byteLength)
        let y ← ofBytes cap ((r.drop C.p.byteLength).take C.p.byteLength)
        Curve.makePoint cap C x y false
      else .ok APt.identity) := by
  unfold Curve.decode
  dsimp only
  rw [Nat.add_comm 1 C.p.byteLength, List.drop_succ_cons, List.drop_succ_cons, List.drop_zero, List.headD_cons, List.length_cons]
  rfl

/-- Encoding then decoding an uncompressed point, or the identity. -/
theorem decode_uncompressed (K : CurveOk P cap C) {x y : List Byte} (hx : x.length = C.p.byteLength) (hy : y.length = C.p.byteLength) :
    (beVal x < P ∧ beVal y < P →
      ∃ bx b_y, Curve.decode cap C (4 :: (x ++ y)) = .ok ⟨some C, ⟨bx, some C.p⟩, ⟨b_y, some C.p⟩⟩ ∧
        Rep P C.p ⟨bx, some C.p⟩ ((beVal x : ℕ) : ZMod P) ∧ Rep P C.p ⟨b_y, some C.p⟩ ((beVal y : ℕ) : ZMod P)) ∧
    (¬ (beVal x < P ∧ beVal y < P) → Curve.decode cap C (4 :: (x ++ y)) = .error .abort) := by
  obtain ⟨bx, ex, cx, nx, vx⟩ := ofBytes_field K x (by omega)
  obtain ⟨b_y, ey, cy, ny, vy⟩ := ofBytes_field K y (by omega)
  have hd : Curve.decode cap C (4 :: (x ++ y)) = Curve.makePoint cap C bx b_y false := by
    have e1 : ((x ++ y).drop C.p.byteLength).take C.p.byteLength = y := by
      rw [← hx, List.drop_left, hx, ← hy, List.take_length]
    have e2 : (x ++ y).take C.p.byteLength = x := by rw [← hx, List.take_left]
    have e3 : (x ++ y).length + 1 = 2 * C.p.byteLength + 1 := by simp; omega
    rw [decode_cons, e1, e2, ex, ey, e3, check_true (b := _ && _) (by decide), ok_bind, if_neg (by decide), if_pos rfl, check_true (by simp)]
    rfl
  rw [hd]
  unfold Curve.makePoint
  have i1 := isValidInteger_iff K cx
  have i2 := isValidInteger_iff K cy
  rw [vx] at i1
  rw [vy] at i2
  constructor
  · rintro ⟨h1, h2⟩
    rw [check_true (i1.2 (by omega)), ok_bind, check_true (i2.2 (by omega)), ok_bind]
    refine ⟨bx, b_y, rfl, zmod_nat_rep K cx (by omega) (by omega) ?_, zmod_nat_rep K cy (by omega) (by omega) ?_⟩
    · rw [vx, ZMod.val_natCast, Nat.mod_eq_of_lt h1]
    · rw [vy, ZMod.val_natCast, Nat.mod_eq_of_lt h2]
  · intro h
    by_cases h1 : beVal x < P
    · rw [check_true (i1.2 (by omega)), ok_bind, check_false]; rfl
      rw [← Bool.not_eq_true, i2]; omega
    · rw [check_false]; rfl
      rw [← Bool.not_eq_true, i1]; omega

/-- A compressed encoding with an x-coordinate in range. -/
theorem decode_compressed (K : CurveOk P cap C) {x : List Byte} (hx : x.length = C.p.byteLength) (odd : Bool) (h : beVal x < P) :
    ∃ bx, Curve.decode cap C ((if odd then 3 else 2) :: x) = Curve.decompress cap C ⟨bx, some C.p⟩ odd ∧
      Rep P C.p ⟨bx, some C.p⟩ ((beVal x : ℕ) : ZMod P) := by
  obtain ⟨bx, ex, cx, nx, vx⟩ := ofBytes_field K x (by omega)
  refine ⟨bx, ?_, zmod_nat_rep K cx (by omega) (by omega) (by rw [vx, ZMod.val_natCast, Nat.mod_eq_of_lt h])⟩
  have e2 : x.take C.p.byteLength = x := by rw [← hx, List.take_length]
  rw [decode_cons, e2, ex, hx]
  cases odd with
  | false =>
    rw [if_neg (show ¬ (false = true) by simp), check_true (b := _ && _) (by decide), ok_bind, if_pos (by decide), check_true (by simp)]
    rfl
  | true =>
    rw [if_pos rfl, check_true (b := _ && _) (by decide), ok_bind, if_pos (by decide), check_true (by simp)]
    rfl

theorem natCast_val_self (x : ZMod P) : ((x.val : ℕ) : ZMod P) = x := by
  haveI := (Fact.out : P.Prime).pos
  haveI : NeZero P := ⟨(Fact.out : P.Prime).ne_zero⟩
  exact ZMod.natCast_zmod_val x

theorem val_lt_P (x : ZMod P) : x.val < P := by
  haveI : NeZero P := ⟨(Fact.out : P.Prime).ne_zero⟩
  exact ZMod.val_lt x

theorem roundtrip_uncompressed (K : CurveOk P cap C) {q : APt} {Q : C.Pt P} (h : q.Rep C Q) :
    ∃ r, Curve.decode cap C (Curve.encode cap q false) = .ok r ∧ r.Rep C Q := by
  unfold Curve.encode
  cases Q with
  | zero => rw [if_pos (show q.isIdentity = true from h)]; exact ⟨APt.identity, rfl, rfl⟩
  | some x y hn =>
    rw [if_neg (by rw [h.not_id K]; simp), if_neg (by simp)]
    obtain ⟨hc, hx, hy⟩ := h
    obtain ⟨lx, vx⟩ := feBytes_spec K hx
    obtain ⟨ly, vy⟩ := feBytes_spec K hy
    obtain ⟨bx, b_y, e, r1, r2⟩ := (decode_uncompressed K lx ly).1 ⟨by rw [vx]; exact val_lt_P x, by rw [vy]; exact val_lt_P y⟩
    rw [vx, natCast_val_self] at r1
    rw [vy, natCast_val_self] at r2
    exact ⟨_, e, rfl, r1, r2⟩

theorem roundtrip_compressed (K : CurveOk P cap C) {q : APt} {Q : C.Pt P} (h : q.Rep C Q) (hy0 : ∀ x hn, Q ≠ .some x 0 hn) :
    ∃ r, Curve.decode cap C (Curve.encode cap q true) = .ok r ∧ r.Rep C Q := by
  unfold Curve.encode
  cases Q with
  | zero => rw [if_pos (show q.isIdentity = true from h)]; exact ⟨APt.identity, rfl, rfl⟩
  | some x y hn =>
    rw [if_neg (by rw [h.not_id K]; simp), if_pos rfl]
    obtain ⟨hc, hx, hy⟩ := h
    have h0 : y ≠ 0 := by rintro rfl; exact hy0 x hn rfl
    obtain ⟨lx, vx⟩ := feBytes_spec K hx
    obtain ⟨bx, e, r1⟩ := decode_compressed K lx (q.y.v.testBit 0) (by rw [vx]; exact val_lt_P x)
    rw [vx, natCast_val_self] at r1
    rw [e]
    obtain ⟨r, er, h1, -⟩ := decompress_spec K r1 (q.y.v.testBit 0)
    obtain ⟨Y, hY, rr, hY0, par⟩ := h1 ⟨y, h0, K.ns.1 hn⟩
    refine ⟨r, er, ?_⟩
    rw [hy.bit0 K.M] at par
    have hsq : Y ^ 2 = y ^ 2 := by rw [K.ns.1 hY, K.ns.1 hn]
    rcases sq_eq_sq_iff_eq_or_eq_neg.1 hsq with e' | e'
    · rw [← (some_eq_iff (h := hY) (h' := hn)).2 ⟨rfl, e'⟩]; exact rr
    · exfalso
      rw [e', val_neg_parity K.odd h0, decide_eq_true_iff] at par
      tauto

/-! ## Constructor, generator multiples -/

open scoped Classical in
theorem makePoint_spec (K : CurveOk P cap C) (hn : C.n.Canon) {x y : Big} (cx : x.Canon) (cy : y.Canon) :
    (¬ (0 ≤ x.toInt ∧ x.toInt < P ∧ 0 ≤ y.toInt ∧ y.toInt < P) → ∀ v, Curve.makePoint cap C x y v = .error .abort) ∧
    (0 ≤ x.toInt ∧ x.toInt < P ∧ 0 ≤ y.toInt ∧ y.toInt < P →
      Curve.makePoint cap C x y false = .ok ⟨some C, ⟨x, some C.p⟩, ⟨y, some C.p⟩⟩ ∧
      Curve.makePoint cap C x y true = (if ∃ Q : C.Pt P, APt.Rep C ⟨some C, ⟨x, some C.p⟩, ⟨y, some C.p⟩⟩ Q ∧ Q ≠ 0 ∧ C.n.toInt • Q = 0
        then .ok ⟨some C, ⟨x, some C.p⟩, ⟨y, some C.p⟩⟩ else .error .abort)) := by
  have i1 := isValidInteger_iff K cx
  have i2 := isValidInteger_iff K cy
  constructor
  · intro h v
    unfold Curve.makePoint
    by_cases h1 : 0 ≤ x.toInt ∧ x.toInt < P
    · rw [check_true (i1.2 h1), ok_bind, check_false]; rfl
      rw [← Bool.not_eq_true, i2]; omega
    · rw [check_false]; rfl
      rw [← Bool.not_eq_true, i1]; exact h1
  · rintro ⟨h1, h2, h3, h4⟩
    unfold Curve.makePoint
    rw [check_true (i1.2 ⟨h1, h2⟩), ok_bind, check_true (i2.2 ⟨h3, h4⟩), ok_bind]
    refine ⟨rfl, ?_⟩
    have rx : Rep P C.p ⟨x, some C.p⟩ (res P x) := ⟨rfl, ⟨cx, h1, by rw [K.M.eq]; exact h2⟩, rfl⟩
    have ry : Rep P C.p ⟨y, some C.p⟩ (res P y) := ⟨rfl, ⟨cy, h3, by rw [K.M.eq]; exact h4⟩, rfl⟩
    obtain ⟨b, e, hb⟩ := APt.isValid_spec (q := ⟨some C, ⟨x, some C.p⟩, ⟨y, some C.p⟩⟩) K hn rfl rx ry
    simp only [if_true]
    rw [e, ok_bind]
    by_cases h : b = true
    · rw [if_pos (hb.1 h), h]; rfl
    · rw [if_neg (by rw [← hb]; exact h)]
      rw [Bool.not_eq_true] at h
      rw [h]; rfl

theorem inRange_iff {x n : Big} (cx : x.Canon) (cn : n.Canon) : (gtS x 0 && opLt x n) = true ↔ 0 < x.toInt ∧ x.toInt < n.toInt := by
  rw [Bool.and_eq_true, gtS_iff cx, opLt_iff cx cn]; rfl

theorem generate_abort {x : Big} (cx : x.Canon) (cn : C.n.Canon) (h : ¬ (0 < x.toInt ∧ x.toInt < C.n.toInt)) :
    C.generateA cap x = .error .abort ∧ C.generateP cap x = .error .abort ∧ C.generateJ cap x = .error .abort := by
  unfold Curve.generateA Curve.generateP Curve.generateJ
  have hf : (gtS x 0 && opLt x C.n) = false := by rw [← Bool.not_eq_true, inRange_iff cx cn]; exact h
  rw [check_false hf]
  exact ⟨rfl, rfl, rfl⟩

theorem generate_ok (K : CurveOk P cap C) {x : Big} (cx : x.Canon) (cn : C.n.Canon) (h : 0 < x.toInt ∧ x.toInt < C.n.toInt)
    {G : C.Pt P} (hG : C.g.Rep C G) :
    (∃ r, C.generateA cap x = .ok r ∧ r.Rep C (x.toInt • G)) ∧ (∃ r, C.generateP cap x = .ok r ∧ r.Rep C (x.toInt • G)) ∧
    (8 < P → cap.fits (C.n.ws.length + 1) = true → ∃ r, C.generateJ cap x = .ok r ∧ r.Rep C (x.toInt • G)) := by
  unfold Curve.generateA Curve.generateP Curve.generateJ
  rw [check_true ((inRange_iff cx cn).2 h), ok_bind, ok_bind, ok_bind]
  refine ⟨APt.mul_spec K hG cx, ?_, ?_⟩
  · step q hq := PPt.ofAffine_spec K hG
    exact PPt.mul_spec K hq cx
  · intro h8 fn
    step q hq := JPt.ofAffine_spec K hG
    apply JPt.mul_spec K h8 hq cx
    apply fits_mono fn
    have h1 : |x.toInt| = val x.ws := abs_toInt _
    have h2 : |C.n.toInt| = val C.n.ws := abs_toInt _
    rw [abs_of_pos (by omega)] at h1
    rw [abs_of_pos (by omega)] at h2
    have := CanonW.length_le (x := x.ws) (y := C.n.ws) cx cn.1 (by omega)
    omega

/-- The constructor refuses a generator with a coordinate out of range, and sets the two flags correctly. -/
theorem make_spec {addr : Nat} {p a b gx gy n : Big} {h : Word} (M : Mod cap p P) (hP : 3 < P) (ca : Elt p a)
    (cx : gx.Canon) (cy : gy.Canon) :
    (¬ (0 ≤ gx.toInt ∧ gx.toInt < P ∧ 0 ≤ gy.toInt ∧ gy.toInt < P) → Curve.make cap addr p a b gx gy n h = .error .abort) ∧
    (0 ≤ gx.toInt ∧ gx.toInt < P ∧ 0 ≤ gy.toInt ∧ gy.toInt < P → ∃ c, Curve.make cap addr p a b gx gy n h = .ok c ∧
      c.addr = addr ∧ c.p = p ∧ c.a = a ∧ c.b = b ∧ c.gx = ⟨gx, some p⟩ ∧ c.gy = ⟨gy, some p⟩ ∧ c.n = n ∧ c.h = h ∧
      (c.aIsMinus3 = true ↔ res P a = -3) ∧ (c.aIsZero = true ↔ res P a = 0) ∧ c.pMinusN = sub cap p n) := by
  have hroom := M.room
  have hp := M.one_lt
  have fp : Big.Fits cap p := fun N hN => by have := fits_iff.1 hroom N hN; omega
  obtain ⟨c3, -, v3⟩ := subs1_spec cap p 3 M.canon fp
  have v3 : (subs1 cap p 3).toInt = P - 3 := by
    rcases v3 with v | ⟨-, v⟩
    · rw [v, M.eq]; simp
    · exfalso
      have := List.length_pos_iff.2 M.canon.1
      rw [fits_mono hroom (by omega)] at v; cases v
  have f1 : opEq a (subs1 cap p 3) = true ↔ res P a = -3 := by
    rw [opEq_iff ca.c c3, v3]
    have : res P (subs1 cap p 3) = -3 := by unfold res; rw [v3]; simp
    rw [← this, res_inj M.eq ca ⟨c3, by omega, by rw [v3, M.eq]; omega⟩, v3]
  have f2 : a.isZero = true ↔ res P a = 0 := by rw [isZero_iff ca.c, res_eq_zero_iff M ca]
  have iv : ∀ {x : Big} (C : Curve), C.p = p → x.Canon → (C.isValidInteger x = true ↔ 0 ≤ x.toInt ∧ x.toInt < P) := by
    intro x C hC c
    unfold Curve.isValidInteger
    rw [Bool.and_eq_true, Bool.not_eq_true', ← Bool.not_eq_true, isNegative_iff c, hC, opLt_iff c M.canon, M.eq]
    omega
  unfold Curve.make
  dsimp only
  constructor
  · intro hr
    by_cases h1 : 0 ≤ gx.toInt ∧ gx.toInt < P
    · rw [check_true ((iv _ rfl cx).2 h1), ok_bind, check_false]; rfl
      rw [← Bool.not_eq_true, iv _ rfl cy]; omega
    · rw [check_false]; rfl
      rw [← Bool.not_eq_true, iv _ rfl cx]; exact h1
  · rintro ⟨h1, h2, h3, h4⟩
    rw [check_true ((iv _ rfl cx).2 ⟨h1, h2⟩), ok_bind, check_true ((iv _ rfl cy).2 ⟨h3, h4⟩), ok_bind]
    exact ⟨_, rfl, rfl, rfl, rfl, rfl, rfl, rfl, rfl, rfl, f1, f2, rfl⟩

end
end Ack
