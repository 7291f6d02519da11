import Verif.Proof.EcPre
import Verif.Proof.EcMul
import Verif.Props.BigBits
import Verif.Props.Ec
/-!
# Exact outcomes where the full statement of a property fails, and fixed storage for C14

C05 (three-way comparison), C14 (recoding on storage of fixed size), C20 (what the wrong overloads compute, for every
operand), C37 (what decoding returns for every byte string).
-/
namespace Ack.Props
open Ack Big WeierstrassCurve

/-! ## C05 -/

/-- C05: the three-way comparison has the sign of the difference of the integers. -/
theorem C05_compare (x y : Big) (hx : x.Canon) (hy : y.Canon) :
    (compare x y < 0 ↔ x.toInt < y.toInt) ∧ (compare x y = 0 ↔ x.toInt = y.toInt) ∧ (0 < compare x y ↔ y.toInt < x.toInt) := by
  rw [compare_spec hx hy]
  by_cases h : x.toInt < y.toInt
  · rw [if_pos h]; omega
  · rw [if_neg h]
    by_cases h2 : x.toInt = y.toInt
    · rw [if_pos h2]; omega
    · rw [if_neg h2]; omega

example : (ofInt32 (-7)).Canon ∧ (ofInt32 5).Canon ∧ compare (ofInt32 (-7)) (ofInt32 5) < 0 ∧ 0 < compare (ofInt32 5) (ofInt32 (-7)) := by decide

/-! ## C14 -/

theorem digitsVal_zeros (n : Nat) : ∀ l : List (BitVec 8), digitsVal (l ++ List.replicate n 0) = digitsVal l
  | [] => by
    induction n with
    | zero => rfl
    | succ n ih =>
      have e : digitsVal (List.replicate n 0) = 0 := ih
      show (0 : BitVec 8).toInt + 2 * digitsVal (List.replicate n 0) = 0
      rw [e]; rfl
  | d :: l => by rw [List.cons_append, digitsVal, digitsVal_zeros n l, digitsVal]

theorem nonAdjacent_zeros (n : Nat) : ∀ l : List (BitVec 8), NonAdjacent l → NonAdjacent (l ++ List.replicate n 0)
  | [], _ => by
    induction n with
    | zero => trivial
    | succ n ih =>
      cases n with
      | zero => trivial
      | succ n => exact ⟨Or.inl rfl, ih⟩
  | [d], _ => by
    cases n with
    | zero => trivial
    | succ n => exact ⟨Or.inr rfl, nonAdjacent_zeros (n + 1) [] trivial⟩
  | a :: b :: l, h => ⟨h.1, nonAdjacent_zeros n (b :: l) h.2⟩

/-- C14: the representation is unique: two recodings without neighbouring non-zero digits and with a leading digit one
that have the same value are the same list. -/
theorem C14_unique_top {l l' : List (BitVec 8)} (na : NonAdjacent l) (na' : NonAdjacent l')
    (dg : ∀ d ∈ l, d.toInt = 0 ∨ d.toInt = 1 ∨ d.toInt = -1) (dg' : ∀ d ∈ l', d.toInt = 0 ∨ d.toInt = 1 ∨ d.toInt = -1)
    (tp : l ≠ [] → (l.getLastD 0).toInt = 1) (tp' : l' ≠ [] → (l'.getLastD 0).toInt = 1) (h : digitsVal l = digitsVal l') : l = l' := by
  wlog hl : l.length ≤ l'.length generalizing l l'
  · exact (this na' na dg' dg tp' tp h.symm (by omega)).symm
  have e := C14_unique (l ++ List.replicate (l'.length - l.length) 0) l' (nonAdjacent_zeros _ _ na) na'
    (by
      intro d hd
      rcases List.mem_append.1 hd with hd | hd
      · exact dg d hd
      · rw [(List.mem_replicate.1 hd).2]; exact Or.inl rfl)
    dg' (by rw [List.length_append, List.length_replicate]; omega) (by rw [digitsVal_zeros, h])
  cases hn : l'.length - l.length with
  | zero => rw [hn] at e; simpa using e
  | succ n =>
    exfalso
    rw [hn, List.replicate_succ', ← List.append_assoc] at e
    have := tp' (by rw [← e]; simp)
    rw [← e, List.getLastD_concat] at this
    revert this; decide

/-- C14 on any storage that has room for one word more than the scalar: the digits are those of the growable case. -/
theorem C14_fixed (cap : Cap) (x : Big) (hx : x.Canon) (h0 : x.neg = false) (hc : cap.fits (x.ws.length + 1) = true) :
    ∃ l, toNaf cap x = .ok l ∧ toNaf none x = .ok l ∧ toRnaf cap x = .ok l.reverse ∧ digitsVal l = x.toInt ∧ NonAdjacent l ∧
      (∀ d ∈ l, d.toInt = 0 ∨ d.toInt = 1 ∨ d.toInt = -1) ∧ (l ≠ [] → (l.getLastD 0).toInt = 1) ∧ l.length ≤ x.bitLength + 1 := by
  have hb := (lt_two_pow_bitLength hx).le
  obtain ⟨l, e, v, na, dg, -, top, len⟩ := nafGo_spec cap x.ws.length hc x.bitLength (x.bitLength + 2) x hx h0 le_rfl hb le_rfl
  obtain ⟨l', e', v', na', dg', top', len', -⟩ := C14_naf x hx h0
  have dd : ∀ d ∈ l, d.toInt = 0 ∨ d.toInt = 1 ∨ d.toInt = -1 := by
    intro d hd
    rcases dg d hd with rfl | rfl | rfl <;> decide
  have tp : l ≠ [] → (l.getLastD 0).toInt = 1 := by
    intro hl; rw [show (0 : BitVec 8) = 0#8 from rfl, top hl]; decide
  have hv : digitsVal l = x.toInt := by rw [v, toInt_of_nonneg h0]
  have : l = l' := C14_unique_top na na' dd dg' tp top' (by rw [hv, v'])
  subst this
  exact ⟨l, e, e', by unfold toRnaf toNaf; rw [e]; rfl, hv, na, dd, tp, len⟩

/-- C14: a negative number has no digits, on any storage. -/
theorem C14_negative_any (cap : Cap) (x : Big) (h : x.neg = true) : toNaf cap x = .ok [] ∧ toRnaf cap x = .ok [] :=
  ⟨by unfold toNaf nafGo compareu1; rw [h]; rfl, toRnaf_neg cap x h⟩

example : (ofInt32 7).Canon ∧ (ofInt32 7).neg = false ∧ Cap.fits (some 2) ((ofInt32 7).ws.length + 1) = true ∧
    toNaf (some 2) (ofInt32 7) = .ok [0xff, 0, 0, 1] ∧ toRnaf (some 2) (ofInt32 7) = .ok [1, 0, 0, 0xff] ∧
    toNaf (some 2) (ofInt32 (-7)) = .ok [] := by decide

/-! ## C20 -/

/-- C20, division by an unsigned word, for every dividend: the quotient is that of the absolute value, so the sign of a
negative dividend is lost; zero aborts. -/
theorem C20_div_word_exact (cap : Cap) (x : Big) (y : Word) (hx : x.Canon) (fx : Fits cap x) :
    (y ≠ 0 → ∃ q, divu1 cap x y = .ok q ∧ q.toInt = |x.toInt|.tdiv y.toNat) ∧ (y = 0 → divu1 cap x y = .error .abort) := by
  refine ⟨fun hy => ?_, fun hy => by rw [hy]; exact divu1_zero cap x fx⟩
  obtain ⟨q, e, -, -, v⟩ := divu1_spec cap x y hx fx (by rw [ne_eq, ← wordEqZero]; exact hy)
  exact ⟨q, e, v⟩

example : (ofInt32 (-7)).Canon ∧ Fits none (ofInt32 (-7)) ∧ ∃ q, divu1 none (ofInt32 (-7)) 2 = .ok q ∧ q.toInt = 3 :=
  ⟨by decide, Fits_none _, ⟨false, [3]⟩, by decide, by decide⟩

/-- C20, `x %= y` with a 64-bit operand, for every x and every y ≠ 0: the quotient, not the remainder, is stored. -/
theorem C20_modAssign64_exact (x : Big) (y : BitVec 64) (hx : x.Canon) :
    (y.toInt ≠ 0 → ∃ z, modAssignS64 none x y = .ok z ∧ z.toInt = x.toInt.tdiv y.toInt) ∧
    (y.toNat ≠ 0 → ∃ z, modAssignU64 none x y = .ok z ∧ z.toInt = x.toInt.tdiv y.toNat) :=
  ⟨fun h => (C20_int64 x y hx).2.2.2.1 h, fun h => (C20_uint64 x y hx).2.2.2.1 h⟩

example : (ofInt32 (-17)).Canon ∧ ∃ z, modAssignS64 none (ofInt32 (-17)) 5 = .ok z ∧ z.toInt = -3 :=
  ⟨by decide, ⟨true, [3]⟩, by decide, by decide⟩

/-! ## C37 -/

section
variable {P : ℕ} [Fact P.Prime] {cap : Cap} {C : Curve}

/-- C37, tags 2 and 3, for every coordinate that has the length of the modulus, reduced or not: when the right-hand side
of the curve equation at x is a non-zero square, the result stores x **as it was encoded** together with the reduced root
of the parity of the tag; otherwise it is the identity.  It never aborts and is never undefined. -/
theorem C37_exact (K : CurveOk P cap C) (x : List Byte) (hx : x.length = C.p.byteLength) (odd : Bool) :
    ((∃ y : ZMod P, y ≠ 0 ∧ y ^ 2 = ((beVal x : ℕ) : ZMod P) ^ 3 + res P C.a * ((beVal x : ℕ) : ZMod P) + res P C.b) →
      ∃ q Y, Curve.decode cap C ((if odd then 3 else 2) :: x) = .ok q ∧ q.curve = some C ∧ q.x.pm = some C.p ∧
        q.x.v.toInt = beVal x ∧ Rep P C.p q.y Y ∧
        Y ^ 2 = ((beVal x : ℕ) : ZMod P) ^ 3 + res P C.a * ((beVal x : ℕ) : ZMod P) + res P C.b ∧ (Y.val % 2 = 1 ↔ odd = true)) ∧
    ((¬ ∃ y : ZMod P, y ≠ 0 ∧ y ^ 2 = ((beVal x : ℕ) : ZMod P) ^ 3 + res P C.a * ((beVal x : ℕ) : ZMod P) + res P C.b) →
      Curve.decode cap C ((if odd then 3 else 2) :: x) = .ok APt.identity) := by
  obtain ⟨bx, e, v, h⟩ := decode_compressed_pre K hx odd
  obtain ⟨h1, h2⟩ := decompress_pre K h odd
  rw [e]
  refine ⟨fun hh => ?_, h2⟩
  obtain ⟨y, Y, e, hy, h3, -, h4⟩ := h1 hh
  exact ⟨_, Y, e, rfl, rfl, v, hy, h3, h4⟩

/-- C37 and C36 are violated together for **every** compressed encoding of an x-coordinate at or above the modulus that
decodes to a point: encoding that point again, compressed, gives the tag alone, which does not decode; and the point is not
equal to the point with the reduced coordinate. -/
theorem C37_unreduced_encode (K : CurveOk P cap C) (x : List Byte) (hx : x.length = C.p.byteLength) (odd : Bool) (h : P ≤ beVal x)
    (q : APt) (hq : Curve.decode cap C ((if odd then 3 else 2) :: x) = .ok q) (h0 : q.isIdentity = false) :
    Curve.encode cap q true = [if odd then 3 else 2] ∧ Curve.decode cap C (Curve.encode cap q true) = .error .abort ∧
    ∀ r X Y hn, r.Rep C (.some (X : ZMod P) Y hn) → q.eq r = false := by
  obtain ⟨h1, h2⟩ := C37_exact K x hx odd
  by_cases hh : ∃ y : ZMod P, y ≠ 0 ∧ y ^ 2 = ((beVal x : ℕ) : ZMod P) ^ 3 + res P C.a * ((beVal x : ℕ) : ZMod P) + res P C.b
  swap
  · rw [h2 hh] at hq; cases hq; cases h0
  obtain ⟨q', Y, e, hc, hpm, hv, hy, -, hpar⟩ := h1 hh
  rw [hq] at e; cases e
  have cx : q.x.v.Canon := by
    obtain ⟨bx, e, v, hp⟩ := decode_compressed_pre K hx odd
    obtain ⟨g1, -⟩ := decompress_pre K hp odd
    obtain ⟨y', Y', e', -⟩ := g1 hh
    rw [e, e'] at hq; cases hq
    exact hp.pre.c
  have hi : q.x.isValid = false := by
    unfold Fe.isValid; rw [hpm, ← Bool.not_eq_true]; dsimp only
    rw [fp_isValid_iff cx K.M.canon, K.M.eq, hv]; omega
  have hx0 : q.x.toBytes cap = [] := by unfold Fe.toBytes Fe.toBytesLen; rw [hi]; rfl
  have hb : q.y.v.testBit 0 = odd := by
    rw [hy.bit0 K.M]
    cases odd <;> simp at hpar ⊢ <;> omega
  have he : Curve.encode cap q true = [if odd then 3 else 2] := by
    unfold Curve.encode; rw [h0, if_neg (by decide), if_pos rfl, hx0, hb]
  refine ⟨he, ?_, ?_⟩
  · rw [he]
    have hpos : 0 < C.p.byteLength := by
      have := K.gt3; have := K.M.eq
      unfold Big.byteLength
      rcases Nat.eq_zero_or_pos C.p.bitLength with hz | hz
      · exfalso
        have h3 := lt_two_pow_bitLength K.M.canon
        have h4 := abs_toInt C.p
        rw [abs_of_nonneg (by omega)] at h4
        rw [hz] at h3; omega
      · omega
    refine (C37_malformed_partial K).2.2.1 _ [] (by cases odd <;> simp) ?_
    rw [List.length_nil]; omega
  · intro r X Y hn hr
    obtain ⟨-, hrx, -⟩ := hr
    unfold APt.eq
    have : q.x.eq r.x = false := by
      unfold Fe.eq
      rw [← Bool.not_eq_true]
      intro hcon
      have h3 : opEq q.x.v r.x.v = true := by simpa using hcon
      rw [opEq_iff cx hrx.elt.c, hv] at h3
      have := hrx.elt.lt
      rw [K.M.eq] at this; omega
    rw [this]; rfl

/-- C37: decoding returns a point or aborts for **every** byte string; it is never undefined and always finishes. -/
theorem C37_total (K : CurveOk P cap C) (e : List Byte) :
    Curve.decode cap C e = .error .abort ∨ ∃ q, Curve.decode cap C e = .ok q := by
  obtain ⟨m1, m2, m3, m4, m5⟩ := C37_malformed_partial K
  cases e with
  | nil => exact Or.inl m1
  | cons t r =>
    by_cases h0 : t = 0
    · subst h0
      exact Or.inr ⟨APt.identity, by rw [decode_cons]; rfl⟩
    by_cases h2 : t = 2 ∨ t = 3
    · by_cases hl : r.length = C.p.byteLength
      · right
        have : ∃ odd : Bool, t = if odd then 3 else 2 := by
          rcases h2 with h | h
          · exact ⟨false, h⟩
          · exact ⟨true, h⟩
        obtain ⟨odd, rfl⟩ := this
        obtain ⟨g1, g2⟩ := C37_exact K r hl odd
        by_cases hh : ∃ y : ZMod P, y ≠ 0 ∧ y ^ 2 = ((beVal r : ℕ) : ZMod P) ^ 3 + res P C.a * ((beVal r : ℕ) : ZMod P) + res P C.b
        · obtain ⟨q, -, e, -⟩ := g1 hh
          exact ⟨q, e⟩
        · exact ⟨_, g2 hh⟩
      · exact Or.inl (m3 t r h2 hl)
    by_cases h4 : t = 4
    · subst h4
      by_cases hl : r.length = 2 * C.p.byteLength
      · have hs : r = r.take C.p.byteLength ++ r.drop C.p.byteLength := (List.take_append_drop _ _).symm
        have l1 : (r.take C.p.byteLength).length = C.p.byteLength := by rw [List.length_take]; omega
        have l2 : (r.drop C.p.byteLength).length = C.p.byteLength := by rw [List.length_drop]; omega
        rw [hs]
        by_cases hb : beVal (r.take C.p.byteLength) < P ∧ beVal (r.drop C.p.byteLength) < P
        · obtain ⟨q, e, -⟩ := C37_uncompressed_accepts K _ _ l1 l2 hb
          exact Or.inr ⟨q, e⟩
        · exact Or.inl (m5 _ _ l1 l2 hb)
      · exact Or.inl (m4 r hl)
    · exact Or.inl (m2 t r h0 (fun h => h2 (Or.inl h)) (fun h => h2 (Or.inr h)) h4)

end

/-- On the curve of 19 points over 17 elements: x = 22 decodes to a point that passes `is_valid`, does not equal the point
(5, 1) it denotes and encodes to the tag alone; x = 39 decodes to a point on which `is_valid` itself aborts. -/
theorem C37_unreduced_wrong :
    ex17.decode (some 2) [3, 22] = .ok (pt17 22 1) ∧ ex17.decode (some 2) [3, 5] = .ok (pt17 5 1) ∧
    (pt17 22 1).isValid (some 2) = .ok true ∧ (pt17 22 1).eq (pt17 5 1) = false ∧ Curve.encode (some 2) (pt17 22 1) true = [3] ∧
    ex17.decode (some 2) [3, 39] = .ok (pt17 39 1) ∧ (pt17 39 1).isOnCurve (some 2) = .ok true ∧
    (pt17 39 1).isValid (some 2) = .error .abort := by decide +kernel

/-- An x-coordinate past the modulus of 17: 22 ≡ 5, and 5 is the x-coordinate of the point (5, 1). -/
example : CurveOk 17 (some 2) ex17 ∧ [(22 : Byte)].length = ex17.p.byteLength ∧ ¬ beVal [22] < 17 ∧
    ex17.decode (some 2) [3, 22] = .ok (pt17 22 1) ∧ ex17.decode (some 2) [2, 22] = .ok (pt17 22 16) ∧
    ex17.decode (some 2) [2, 18] = .ok APt.identity := ⟨ex17_ok, by decide +kernel⟩

end Ack.Props
