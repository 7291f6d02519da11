import Verif.Proof.Native
import Verif.Props.Formula
/-!
# Native operands and comparison operators (C78)

Every comparison operator, in either operand order, and every arithmetic operator with a native operand of any of the four
types; the field functions and members that take one; and the sign of zero in field computations, on which comparison with an
unsigned zero depends.
-/
namespace Ack.Props
open Ack Ack.Big Ack.Spec

/-- What a comparison operator means on integers. -/
def holds : Cmp → Int → Int → Prop
  | .eq, a, b => a = b | .ne, a, b => a ≠ b | .lt, a, b => a < b | .le, a, b => a ≤ b | .gt, a, b => b < a | .ge, a, b => b ≤ a

instance (o : Cmp) (a b : Int) : Decidable (holds o a b) := by
  cases o <;> unfold holds <;> infer_instance

private theorem holds_R {s a b : Int} (h : Sgn s a b) (o : Cmp) :
    (match o with
    | .eq => s == 0 | .ne => !(s == 0) | .lt => decide (s < 0) | .le => !decide (s > 0) | .gt => decide (s > 0) | .ge => !decide (s < 0))
      = decide (holds o a b) := by
  obtain ⟨h1, h2, h3⟩ := h
  rw [Bool.eq_iff_iff, decide_eq_true_eq]
  cases o <;> simp only [holds, beq_iff_eq, Bool.not_eq_true', beq_eq_false_iff_ne, decide_eq_true_eq, decide_eq_false_iff_not, ne_eq] <;> omega

private theorem holds_L {s a b : Int} (h : Sgn s a b) (o : Cmp) :
    (match o with
    | .eq => s == 0 | .ne => !(s == 0) | .lt => decide (s > 0) | .le => !decide (s < 0) | .gt => decide (s < 0) | .ge => !decide (s > 0))
      = decide (holds o b a) := by
  obtain ⟨h1, h2, h3⟩ := h
  rw [Bool.eq_iff_iff, decide_eq_true_eq]
  cases o <;> simp only [holds, beq_iff_eq, Bool.not_eq_true', beq_eq_false_iff_ne, decide_eq_true_eq, decide_eq_false_iff_not, ne_eq] <;> omega

/-! ## comparisons -/

/-- C78: the six comparison operators between a big integer and a native integer of any type, in both orders, compare the
integers.  The storage must hold a value of the native type; the one excluded case is a negative zero against `0u`. -/
theorem C78_compare (cap : Cap) (x : Big) (n : Native) (o : Cmp) (hx : x.Canon) (h : cap.fits n.words = true)
    (h0 : ¬ (n = .u32 0 ∧ x.neg = true ∧ x.toInt = 0)) :
    cmpR cap o x n = .ok (decide (holds o x.toInt n.toInt)) ∧ cmpL cap o n x = .ok (decide (holds o n.toInt x.toInt)) := by
  obtain ⟨s, e, hs⟩ := cmpNative_spec hx n h h0
  unfold cmpR cmpL
  rw [e, ok_bind, ok_bind]
  exact ⟨congrArg _ (holds_R hs o), congrArg _ (holds_L hs o)⟩

/-- The excluded case, exactly: a negative zero compares with `0u` as -1 does, whatever the operator and the order. -/
theorem C78_negative_zero_wrong (cap : Cap) (x : Big) (o : Cmp) (hn : x.neg = true) :
    cmpR cap o x (.u32 0) = .ok (decide (holds o (-1) 0)) ∧ cmpL cap o (.u32 0) x = .ok (decide (holds o 0 (-1))) := by
  have e : cmpNative cap x (.u32 0) = .ok (-1) := by
    show Except.ok (compareu1 x 0) = _
    unfold compareu1; rw [if_pos hn]
  have hs : Sgn (-1) (-1) 0 := by unfold Sgn; omega
  unfold cmpR cmpL
  rw [e, ok_bind, ok_bind]
  exact ⟨congrArg _ (holds_R hs o), congrArg _ (holds_L hs o)⟩

/-- C78: with storage for less than two words every comparison with a 64-bit integer aborts. -/
theorem C78_compare_abort (cap : Cap) (x : Big) (n : Native) (o : Cmp) (f : Fits cap x) (hx : x.Canon) (h : cap.fits n.words = false) :
    cmpR cap o x n = .error .abort ∧ cmpL cap o n x = .error .abort := by
  have hp := List.length_pos_iff.2 hx.1
  have e : cmpNative cap x n = .error .abort := by
    cases n with
    | s32 v => rw [show cap.fits (Native.s32 v).words = true from fits_mono f.fits (by simp only [Native.words]; omega)] at h; cases h
    | u32 v => rw [show cap.fits (Native.u32 v).words = true from fits_mono f.fits (by simp only [Native.words]; omega)] at h; cases h
    | s64 v => unfold cmpNative; simp only [(wide_abort cap h).2 v]; rfl
    | u64 v => unfold cmpNative; simp only [(wide_abort cap h).1 v]; rfl
  unfold cmpR cmpL
  rw [e]; exact ⟨rfl, rfl⟩

/-- C78: the six operators on two big integers. -/
theorem C78_compare_big (x y : Big) (o : Cmp) (hx : x.Canon) (hy : y.Canon) : cmpB o x y = decide (holds o x.toInt y.toInt) := by
  have hs := sgn_of (compare_spec hx hy)
  rw [← holds_R hs o]
  cases o <;> unfold cmpB <;> rfl

/-- Non-vacuity: a two-word number against all four types. -/
example : cmpR none .le ⟨true, [7, 1]⟩ (.s64 (-4294967303)) = .ok true ∧ cmpR none .lt ⟨true, [7, 1]⟩ (.s64 (-4294967303)) = .ok false ∧
    cmpL none .gt (.u64 4294967304) ⟨false, [7, 1]⟩ = .ok true ∧ cmpL none .ge (.s32 (-1)) ⟨false, [0]⟩ = .ok false ∧
    cmpR none .ne ⟨false, [4294967295]⟩ (.u32 4294967295) = .ok false := by decide

/-! ## arithmetic -/

/-- C78: `+`, `-` and `*` with a native operand of any type are exact when the storage has room for the words of both
operands. -/
theorem C78_arith (cap : Cap) (x : Big) (n : Native) (hx : x.Canon) (h : cap.fits (x.ws.length + n.words) = true) :
    (∃ z, Big.addN cap x n = .ok z ∧ z.Canon ∧ z.toInt = x.toInt + n.toInt) ∧
    (∃ z, Big.subN' cap x n = .ok z ∧ z.Canon ∧ z.toInt = x.toInt - n.toInt) ∧
    (∃ z, Big.mulN cap x n = .ok z ∧ z.Canon ∧ z.toInt = x.toInt * n.toInt) := by
  obtain ⟨a, ea, ca, -, va⟩ := addNat_spec hx n h
  obtain ⟨b, eb, cb, -, vb⟩ := subNat_spec hx n h
  obtain ⟨c, ec, cc, -, vc⟩ := mulNat_spec hx n h
  exact ⟨⟨a, ea, ca, va⟩, ⟨b, eb, cb, vb⟩, ⟨c, ec, cc, vc⟩⟩

example : Big.addN (some 3) ⟨false, [4294967295, 4294967295]⟩ (.u32 1) = .ok ⟨false, [0, 0, 1]⟩ ∧
    Big.subN' none ⟨false, [5]⟩ (.s64 (-4294967296)) = .ok ⟨false, [5, 1]⟩ ∧
    Big.mulN none ⟨true, [5]⟩ (.s64 (-4294967296)) = .ok ⟨false, [0, 5]⟩ := by decide

/-! ## field functions -/

/-- C78: `fp_is_valid` and `fp_neg` on a native integer. -/
theorem C78_fp_native (cap : Cap) (n : Native) (p : Big) (cp : p.Canon) (h : cap.fits (p.ws.length + n.words) = true)
    (p0 : 0 < p.toInt) :
    Fp.isValidN cap n p = .ok (decide (0 ≤ n.toInt ∧ n.toInt < p.toInt)) ∧
    (∃ z, Fp.negN cap n p = .ok z ∧ z.Canon ∧ z.toInt = if n.toInt = 0 then 0 else p.toInt - n.toInt) := by
  constructor
  · unfold Fp.isValidN
    by_cases h0 : 0 ≤ n.toInt
    · rw [if_pos h0, (C78_compare cap p n .lt cp (fits_mono h (by omega)) (by rintro ⟨-, -, h⟩; omega)).2]
      congr 1; unfold holds; simp [h0]
    · rw [if_neg h0]; congr 1; symm; rw [decide_eq_false_iff_not]; tauto
  · unfold Fp.negN
    by_cases h0 : n.toInt = 0
    · rw [if_pos h0, if_pos h0]
      obtain ⟨z, e, c, -, v, -⟩ := n.toBig_spec cap (fits_mono h (by omega))
      exact ⟨z, e, c, v.trans h0⟩
    · rw [if_neg h0, if_neg h0]
      obtain ⟨b, eb, cb, -, vb⟩ := subNat_spec cp n h
      exact ⟨b, eb, cb, vb⟩

/-- C78, exact law of the members `add`, `sub`, `mul` with a native operand of any type and any value, on an element holding
any value `a`: one conditional subtraction, one conditional addition, a truncated remainder with two shortcuts. -/
theorem C78_field_law (cap : Cap) (a p : Big) (n : Native) (ca : a.Canon) (cp : p.Canon) (fp : Fits cap p) (p0 : 0 < p.toInt)
    (h : cap.fits (a.ws.length + n.words) = true) :
    (∃ c, Fe.addN cap ⟨a, some p⟩ n = .ok ⟨c, some p⟩ ∧ c.Canon ∧
      c.toInt = if p.toInt ≤ a.toInt + n.toInt then a.toInt + n.toInt - p.toInt else a.toInt + n.toInt) ∧
    (∃ c, Fe.subN cap ⟨a, some p⟩ n = .ok ⟨c, some p⟩ ∧ c.Canon ∧
      c.toInt = if a.toInt < n.toInt then a.toInt - n.toInt + p.toInt else a.toInt - n.toInt) ∧
    (∃ c, Fe.mulN cap ⟨a, some p⟩ n = .ok ⟨c, some p⟩ ∧ c.Canon ∧
      c.toInt = if a.toInt = 1 then n.toInt else if n.toInt = 1 then a.toInt else (a.toInt * n.toInt).tmod p.toInt) := by
  refine ⟨?_, ?_, ?_⟩
  · obtain ⟨z, e, E, -⟩ := fp_addN ca cp fp p0 n h
    exact ⟨z, by unfold Fe.addN; simp only [Fe.deref, ok_bind, e], E.1, E.2.2⟩
  · obtain ⟨z, e, E, -⟩ := fp_subN ca cp fp p0 n h
    refine ⟨z, by unfold Fe.subN; simp only [Fe.deref, ok_bind, e], E.1, ?_⟩
    rw [E.2.2]
    by_cases hh : a.toInt < n.toInt
    · rw [if_pos hh, if_pos (by omega)]
    · rw [if_neg hh, if_neg (by omega)]
  · unfold Fe.mulN
    by_cases h1 : a.toInt = 1
    · rw [if_pos ((isOne_iff ca).2 h1), if_pos h1]
      obtain ⟨z, e, c, -, v, -⟩ := n.toBig_spec cap (fits_mono h (by omega))
      exact ⟨z, by simp only [Fe.deref, ok_bind, e], c, v⟩
    · rw [if_neg (fun hh => h1 ((isOne_iff ca).1 hh)), if_neg h1]
      by_cases h2 : n.toInt = 1
      · rw [if_pos h2, if_pos h2]; exact ⟨a, rfl, ca, rfl⟩
      · rw [if_neg h2, if_neg h2]
        obtain ⟨z, e, E, -⟩ := fp_mulN ca cp p0.ne' n h
        exact ⟨z, by simp only [Fe.deref, ok_bind, e], E.1, E.2.2⟩

/-- C78: with a native operand in `[0, p)` these members are the field operations. -/
theorem C78_field (cap : Cap) (p : Big) (n : Native) (a : Fe) (cp : p.Canon) (ha : IsElt p a) (hp : 1 < p.toInt)
    (h : cap.fits (p.ws.length + n.words) = true) (n0 : 0 ≤ n.toInt) (np : n.toInt < p.toInt) :
    (∃ c, Fe.addN cap a n = .ok c ∧ IsElt p c ∧ c.v.toInt = (a.v.toInt + n.toInt) % p.toInt) ∧
    (∃ c, Fe.subN cap a n = .ok c ∧ IsElt p c ∧ c.v.toInt = (a.v.toInt - n.toInt) % p.toInt) ∧
    (∃ c, Fe.mulN cap a n = .ok c ∧ IsElt p c ∧ c.v.toInt = (a.v.toInt * n.toInt) % p.toInt) := by
  obtain ⟨a, pm⟩ := a
  obtain ⟨hpm, ea⟩ := ha
  cases hpm
  have hl := ea.len cp
  have nn := ea.nn
  have lt := ea.lt
  simp only at nn lt hl
  obtain ⟨⟨x, ex, cx, vx⟩, ⟨y, ey, cy, vy⟩, ⟨z, ez, cz, vz⟩⟩ :=
    C78_field_law cap a p n ea.c cp (fits_iff.1 (fits_mono h (by omega))) (by omega) (fits_mono h (by omega))
  have fin : ∀ (c : Big) (v : Int), c.Canon → 0 ≤ c.toInt → c.toInt < p.toInt → (∃ k, v = c.toInt + p.toInt * k) →
      IsElt p ⟨c, some p⟩ ∧ c.toInt = v % p.toInt := by
    rintro c v cc h0 h1 ⟨k, rfl⟩
    exact ⟨⟨rfl, ⟨cc, h0, h1⟩⟩, by rw [Int.add_mul_emod_self_left, Int.emod_eq_of_lt h0 h1]⟩
  refine ⟨⟨_, ex, fin x _ cx ?_ ?_ ?_⟩, ⟨_, ey, fin y _ cy ?_ ?_ ?_⟩, ⟨_, ez, fin z _ cz ?_ ?_ ?_⟩⟩
  · rw [vx]; split <;> omega
  · rw [vx]; split <;> omega
  · rw [vx]; split
    · exact ⟨1, by ring⟩
    · exact ⟨0, by ring⟩
  · rw [vy]; split <;> omega
  · rw [vy]; split <;> omega
  · rw [vy]; split
    · exact ⟨-1, by ring⟩
    · exact ⟨0, by ring⟩
  all_goals
    rw [vz]
    split
    · first | omega | exact ⟨0, by simp [*]⟩
    · split
      · first | omega | exact ⟨0, by simp [*]⟩
      · have h3 := mul_nonneg nn n0
        rw [Int.tmod_eq_emod_of_nonneg h3]
        first
        | exact Int.emod_nonneg _ (by omega)
        | exact Int.emod_lt_of_pos _ (by omega)
        | exact ⟨_, (Int.emod_add_mul_ediv _ _).symm⟩

/-- C78: the comparison operators of field elements, against an element, a big integer, and a native integer. -/
theorem C78_field_compare (cap : Cap) (a b : Fe) (x : Big) (n : Native) (o : Cmp) (ca : a.v.Canon) (cb : b.v.Canon) (cx : x.Canon)
    (h : cap.fits n.words = true) (h0 : ¬ (n = .u32 0 ∧ a.v.neg = true ∧ a.v.toInt = 0)) :
    Fe.cmp o a b = decide (holds o a.v.toInt b.v.toInt) ∧ Fe.cmpBig o a x = decide (holds o a.v.toInt x.toInt) ∧
    Fe.cmpN cap o a n = .ok (decide (holds o a.v.toInt n.toInt)) :=
  ⟨C78_compare_big _ _ o ca cb, C78_compare_big _ _ o ca cx, (C78_compare cap a.v n o ca h h0).1⟩

/-- Non-vacuity: 12 in the field of 13 elements, and a 64-bit operand larger than the modulus, for which the results are
congruent but not reduced. -/
example : IsElt (ofInt32 13) ⟨ofInt32 12, some (ofInt32 13)⟩ ∧ Fe.addN none ⟨ofInt32 12, some (ofInt32 13)⟩ (.u64 7) = .ok ⟨⟨false, [6]⟩, some (ofInt32 13)⟩ ∧
    Fe.addN none ⟨ofInt32 12, some (ofInt32 13)⟩ (.u64 20) = .ok ⟨⟨false, [19]⟩, some (ofInt32 13)⟩ ∧
    Fe.mulN none ⟨ofInt32 12, some (ofInt32 13)⟩ (.s64 (-1)) = .ok ⟨⟨true, [12]⟩, some (ofInt32 13)⟩ ∧
    Fe.cmpN none .ge ⟨ofInt32 12, some (ofInt32 13)⟩ (.u32 12) = .ok true := by
  refine ⟨⟨rfl, ⟨by decide, by decide, by decide⟩⟩, by decide, by decide, by decide, by decide⟩

/-! ## C79: the sign of zero -/

/-- The element carries no minus sign (in particular it is not a negative zero). -/
def Plain (a : Fe) : Prop := a.v.neg = false

section
variable {cap : Cap} {p : Big} (r : Room cap p) (cp : p.Canon) (hp : 1 < p.toInt)
include r cp hp

/-- C79: a sum of plain elements carries no minus sign. -/
theorem C79_add (a b c : Fe) (ha : IsElt p a) (hb : IsElt p b) (na : Plain a) (e : Fe.add cap a b = .ok c) : Plain c := by
  obtain ⟨c', e', hc, v⟩ := C22_add r cp hp a b ha hb
  cases e.symm.trans e'
  refine plain_of_nonneg hc.2.nn fun hz => ?_
  unfold Fe.add Fe.addB Fe.deref at e
  rw [ha.1] at e; simp only [ok_bind] at e; cases e
  have hl := ha.2.len cp
  have hl' := hb.2.len cp
  have hpl := Canon.len_pos cp
  obtain ⟨ca, va⟩ := add_room r ha.2.c hb.2.c hl hl' hpl
  have ra : (Big.add cap a.v b.v).neg = false := by
    refine plain_of_nonneg (by rw [va]; have := ha.2.nn; have := hb.2.nn; omega) fun h => ?_
    exact (addSigned_zero ha.2.c hb.2.c (hb.2.fits r cp) h).trans na
  show (Fp.addFin cap (Big.add cap a.v b.v) p).neg = false
  change (Fp.addFin cap (Big.add cap a.v b.v) p).toInt = 0 at hz
  unfold Fp.addFin at hz ⊢
  split
  · rename_i hg
    rw [if_pos hg] at hz
    exact (addSigned_zero ca cp r.fitsP hz).trans ra
  · exact ra

/-- C79: a difference of plain elements carries no minus sign. -/
theorem C79_sub (a b c : Fe) (ha : IsElt p a) (hb : IsElt p b) (na : Plain a) (e : Fe.sub cap a b = .ok c) : Plain c := by
  obtain ⟨c', e', hc, v⟩ := C22_sub r cp hp a b ha hb
  cases e.symm.trans e'
  refine plain_of_nonneg hc.2.nn fun hz => ?_
  unfold Fe.sub Fe.subB Fe.deref at e
  rw [ha.1] at e; simp only [ok_bind] at e; cases e
  have h1 := ha.2.nn; have h2 := ha.2.lt; have h3 := hb.2.nn; have h4 := hb.2.lt
  obtain ⟨cs, fs, vs⟩ := sub_spec cap a.v b.v ha.2.c hb.2.c (ha.2.fits r cp) (hb.2.fits r cp)
  show (Fp.subFin cap (Big.sub cap a.v b.v) p).neg = false
  change (Fp.subFin cap (Big.sub cap a.v b.v) p).toInt = 0 at hz
  have hpl := Canon.len_pos cp
  have hl := ha.2.len cp; have hl' := hb.2.len cp
  have vs : (Big.sub cap a.v b.v).toInt = a.v.toInt - b.v.toInt := by
    rcases vs with h | h
    · exact h
    · have := h.2.2; rw [r.fits (by omega)] at this; cases this
  have E := subFin_exact cs fs cp r.fitsP (by omega)
  have hz' := hz
  rw [E.2.2, vs] at hz'
  have hr : ¬ a.v.toInt - b.v.toInt < 0 := by intro hh; rw [if_pos hh] at hz'; omega
  rw [if_neg hr, ← vs] at hz'
  have h0 := ltS_iff cs 0
  rw [show (0 : BitVec 32).toInt = 0 from rfl] at h0
  unfold Fp.subFin
  rw [if_neg (fun hh => hr (by rw [← vs]; exact h0.1 hh))]
  exact (addSigned_zero ha.2.c hb.2.c (hb.2.fits r cp) hz').trans na

/-- C79: an opposite of plain elements carries no minus sign. -/
theorem C79_neg (a c : Fe) (ha : IsElt p a) (na : Plain a) (e : Fe.neg cap a = .ok c) : Plain c := by
  obtain ⟨c', e', hc, v⟩ := C22_neg r cp hp a ha
  cases e.symm.trans e'
  refine plain_of_nonneg hc.2.nn fun hz => ?_
  rw [hz] at v
  have h1 := ha.2.nn; have h2 := ha.2.lt
  have a0 : a.v.toInt = 0 := by
    have := Int.emod_emod_of_dvd (-a.v.toInt) (dvd_refl p.toInt)
    have hd := Int.dvd_of_emod_eq_zero v.symm
    have hd' := (Int.dvd_neg).1 hd
    by_contra h
    exact absurd (Int.le_of_dvd (by omega) hd') (by omega)
  unfold Fe.neg Fe.deref at e
  rw [ha.1] at e; simp only [ok_bind] at e; cases e
  show (Fp.neg cap a.v p).neg = false
  unfold Fp.neg
  rw [if_pos ((eqS_iff ha.2.c 0).2 a0)]
  exact na

omit r in
private theorem mod_plain {x z : Big} (cx : x.Canon) (fx : Fits cap x) (hn : x.neg = false) (e : mod cap x p = .ok z) : z.neg = false := by
  obtain ⟨r', e', -, -, -, h⟩ := mod_spec cap x p cx cp fx (by omega)
  cases e.symm.trans e'
  rw [h, hn]

/-- C79: a product of plain elements carries no minus sign. -/
theorem C79_mul (a b c : Fe) (ha : IsElt p a) (hb : IsElt p b) (na : Plain a) (nb : Plain b) (e : Fe.mul cap a b = .ok c) : Plain c := by
  unfold Fe.mul Fe.mulB Fe.deref at e
  rw [ha.1] at e
  split at e
  · simp only [ok_bind] at e; cases e; exact nb
  · split at e
    · cases e; exact na
    · simp only [ok_bind] at e
      have hl := ha.2.len cp; have hl' := hb.2.len cp
      obtain ⟨cm, fm, -⟩ := mul_fits ha.2.c hb.2.c (r.fits (cap := cap) (n := a.v.ws.length + b.v.ws.length) (by omega))
      cases h : Fp.mul cap a.v b.v p with
      | error => rw [h] at e; cases e
      | ok z =>
        rw [h, ok_bind] at e; cases e
        exact mod_plain cp hp cm fm (mul_plain na nb) h

/-- C79: a square of plain elements carries no minus sign. -/
theorem C79_sqr (a c : Fe) (ha : IsElt p a) (na : Plain a) (e : Fe.sqr cap a = .ok c) : Plain c := by
  unfold Fe.sqr Fe.deref at e
  rw [ha.1] at e
  split at e
  · cases e; exact na
  · simp only [ok_bind] at e
    have hl := ha.2.len cp
    obtain ⟨cm, fm, -⟩ := mul_fits ha.2.c ha.2.c (r.fits (cap := cap) (n := a.v.ws.length + a.v.ws.length) (by omega))
    cases h : Fp.sqr cap a.v p with
    | error => rw [h] at e; cases e
    | ok z =>
      rw [h, ok_bind] at e; cases e
      exact mod_plain cp hp cm fm (mul_plain na na) h

/-- C79: an inverse of plain elements carries no minus sign. -/
theorem C79_inv (a c : Fe) (ha : IsElt p a) (e : Fe.inv cap a = .ok c) : Plain c := by
  unfold Fe.inv Fe.deref at e
  rw [ha.1] at e
  simp only [ok_bind] at e
  rcases modinv_elt r cp hp ha.2 with ⟨h, -⟩ | ⟨i, h, -, -, h0, -⟩
  · rw [h] at e; cases e
  · rw [h, ok_bind] at e; cases e; exact plain_of_pos h0

/-- C79: a quotient of plain elements carries no minus sign. -/
theorem C79_div (a b c : Fe) (ha : IsElt p a) (hb : IsElt p b) (na : Plain a) (e : Fe.div cap a b = .ok c) : Plain c := by
  unfold Fe.div Fe.divB Fe.deref at e
  rw [ha.1] at e
  split at e
  · cases e; exact na
  · simp only [ok_bind] at e
    unfold Fp.div at e
    rcases modinv_elt r cp hp hb.2 with ⟨h, -⟩ | ⟨i, h, -, hi, h0, -⟩
    · rw [h] at e; cases e
    · rw [h, ok_bind] at e
      have hl := ha.2.len cp; have hl' := hi.len cp
      obtain ⟨cm, fm, -⟩ := mul_fits ha.2.c hi.c (r.fits (cap := cap) (n := a.v.ws.length + i.ws.length) (by omega))
      cases h : mod cap (Big.mul cap a.v i) p with
      | error => rw [h] at e; cases e
      | ok z =>
        rw [h, ok_bind] at e; cases e
        exact mod_plain cp hp cm fm (mul_plain na (plain_of_pos h0)) h

/-- C79: a square root (also the zero returned for a non-square) of plain elements carries no minus sign. -/
theorem C79_sqrt (prime : Nat.Prime p.toInt.toNat) (odd : p.toInt ≠ 2) (a c : Fe) (ha : IsElt p a) (na : Plain a)
    (e : Fe.sqrt cap a = .ok c) : Plain c := by
  obtain ⟨c', e', hc, h1, h2⟩ := C24_sqrt r cp hp prime odd a ha
  cases e.symm.trans e'
  refine plain_of_nonneg hc.2.nn fun hz => ?_
  have := Fact.mk prime
  unfold Fe.sqrt Fe.deref at e
  rw [ha.1] at e
  split at e
  · cases e; exact na
  · simp only [ok_bind] at e
    have hp' : p.toInt = (p.toInt.toNat : ℤ) := by omega
    unfold Fp.sqrt at e
    rw [jacobi_elt r cp hp' ha.2 (by omega), ok_bind] at e
    have hj : legendreSym p.toInt.toNat a.v.toInt ≠ 1 := by
      intro h
      have n0 : ((a.v.toInt : ℤ) : ZMod p.toInt.toNat) ≠ 0 := by
        intro h0; rw [(legendreSym.eq_zero_iff _ _).2 h0] at h; cases h
      obtain ⟨y, hy⟩ := (legendreSym.eq_one_iff _ n0).1 h
      have : NeZero p.toInt.toNat := ⟨by omega⟩
      have := h1 ⟨(y.val : ℤ), (res_eq hp' ha.2 (k := y.val * y.val) (by unfold res; rw [hy]; push_cast; rw [ZMod.natCast_zmod_val])).symm⟩
      rw [hz] at this
      simp at this
      rw [← this] at n0; simp at n0
    rw [if_pos hj, ok_bind] at e
    cases e; rfl

end

/-- C79: any formula evaluated over plain elements of a prime field gives a plain element, so comparing it with any native
zero (also `0u`) answers correctly. -/
theorem C79_formula {cap : Cap} {p : Big} (r : Room cap p) (cp : p.Canon) (prime : Nat.Prime p.toInt.toNat) (env : ℕ → Fe)
    (he : ∀ i, IsElt p (env i)) (hn : ∀ i, Plain (env i)) (f : Formula) (c : Fe) (e : Fe.eval cap env f = .ok c) :
    IsElt p c ∧ Plain c ∧ ∀ n o, cap.fits n.words = true → Fe.cmpN cap o c n = .ok (decide (holds o c.v.toInt n.toInt)) := by
  have hp : 1 < p.toInt := by have := prime.one_lt; omega
  have key : IsElt p c ∧ Plain c := by
    induction f generalizing c with
    | var i => cases e; exact ⟨he i, hn i⟩
    | neg a ia =>
      unfold Fe.eval at e
      cases h : Fe.eval cap env a with
      | error => rw [h] at e; cases e
      | ok x =>
        rw [h, ok_bind] at e
        obtain ⟨hx, nx⟩ := ia x h
        obtain ⟨c', e', hc, -⟩ := C22_neg r cp hp x hx
        cases e.symm.trans e'
        exact ⟨hc, C79_neg r cp hp x _ hx nx e⟩
    | sqr a ia =>
      unfold Fe.eval at e
      cases h : Fe.eval cap env a with
      | error => rw [h] at e; cases e
      | ok x =>
        rw [h, ok_bind] at e
        obtain ⟨hx, nx⟩ := ia x h
        obtain ⟨c', e', hc, -⟩ := C22_sqr r cp hp x hx
        cases e.symm.trans e'
        exact ⟨hc, C79_sqr r cp hp x _ hx nx e⟩
    | inv a ia =>
      unfold Fe.eval at e
      cases h : Fe.eval cap env a with
      | error => rw [h] at e; cases e
      | ok x =>
        rw [h, ok_bind] at e
        obtain ⟨hx, nx⟩ := ia x h
        obtain ⟨h0, h1⟩ := C23_inv r cp hp prime x hx
        by_cases hz : x.v.toInt = 0
        · rw [h0 hz] at e; cases e
        · obtain ⟨c', e', hc, -⟩ := h1 hz
          cases e.symm.trans e'
          exact ⟨hc, C79_inv r cp hp x _ hx e⟩
    | add a b ia ib =>
      unfold Fe.eval at e
      cases h : Fe.eval cap env a with
      | error => rw [h] at e; cases e
      | ok x =>
        rw [h, ok_bind] at e
        cases h' : Fe.eval cap env b with
        | error => rw [h'] at e; cases e
        | ok y =>
          rw [h', ok_bind] at e
          obtain ⟨hx, nx⟩ := ia x h
          obtain ⟨hy, ny⟩ := ib y h'
          obtain ⟨c', e', hc, -⟩ := C22_add r cp hp x y hx hy
          cases e.symm.trans e'
          exact ⟨hc, C79_add r cp hp x y _ hx hy nx e⟩
    | sub a b ia ib =>
      unfold Fe.eval at e
      cases h : Fe.eval cap env a with
      | error => rw [h] at e; cases e
      | ok x =>
        rw [h, ok_bind] at e
        cases h' : Fe.eval cap env b with
        | error => rw [h'] at e; cases e
        | ok y =>
          rw [h', ok_bind] at e
          obtain ⟨hx, nx⟩ := ia x h
          obtain ⟨hy, ny⟩ := ib y h'
          obtain ⟨c', e', hc, -⟩ := C22_sub r cp hp x y hx hy
          cases e.symm.trans e'
          exact ⟨hc, C79_sub r cp hp x y _ hx hy nx e⟩
    | mul a b ia ib =>
      unfold Fe.eval at e
      cases h : Fe.eval cap env a with
      | error => rw [h] at e; cases e
      | ok x =>
        rw [h, ok_bind] at e
        cases h' : Fe.eval cap env b with
        | error => rw [h'] at e; cases e
        | ok y =>
          rw [h', ok_bind] at e
          obtain ⟨hx, nx⟩ := ia x h
          obtain ⟨hy, ny⟩ := ib y h'
          obtain ⟨c', e', hc, -⟩ := C22_mul r cp hp x y hx hy
          cases e.symm.trans e'
          exact ⟨hc, C79_mul r cp hp x y _ hx hy nx ny e⟩
    | div a b ia ib =>
      unfold Fe.eval at e
      cases h : Fe.eval cap env a with
      | error => rw [h] at e; cases e
      | ok x =>
        rw [h, ok_bind] at e
        cases h' : Fe.eval cap env b with
        | error => rw [h'] at e; cases e
        | ok y =>
          rw [h', ok_bind] at e
          obtain ⟨hx, nx⟩ := ia x h
          obtain ⟨hy, ny⟩ := ib y h'
          obtain ⟨h0, h1⟩ := C23_div r cp hp prime x y hx hy
          by_cases hz : y.v.toInt = 0
          · rw [h0 hz] at e; cases e
          · obtain ⟨c', e', hc, -⟩ := h1 hz
            cases e.symm.trans e'
            exact ⟨hc, C79_div r cp hp x y _ hx hy nx e⟩
  refine ⟨key.1, key.2, fun n o h => (C78_compare cap c.v n o key.1.2.c h ?_).1⟩
  rintro ⟨-, h, -⟩
  rw [key.2] at h; cases h

/-- Non-vacuity: `a - a` in the field of 13 elements is the plain zero and equals `0u`; outside a field `(-5) + 5` is a negative
zero, which does not. -/
example : Fe.eval none (fun _ => ⟨ofInt32 12, some (ofInt32 13)⟩) (.sub (.var 0) (.var 0)) = .ok ⟨⟨false, [0]⟩, some (ofInt32 13)⟩ ∧
    Fe.cmpN none .eq ⟨⟨false, [0]⟩, some (ofInt32 13)⟩ (.u32 0) = .ok true ∧
    Big.addN none (ofInt32 (-5)) (.u32 5) = .ok ⟨true, [0]⟩ ∧ cmpR none .eq ⟨true, [0]⟩ (.u32 0) = .ok false := by decide

/-- C79 needs the operands to be plain: an element holding a negative zero is accepted as valid, stays negative through
multiplication, and is then not equal to `0u`. -/
theorem C79_negative_zero_wrong : Fe.mk' ⟨true, [0]⟩ (ofInt32 13) true = .ok ⟨⟨true, [0]⟩, some (ofInt32 13)⟩ ∧
    Fe.mul none ⟨⟨true, [0]⟩, some (ofInt32 13)⟩ ⟨ofInt32 5, some (ofInt32 13)⟩ = .ok ⟨⟨true, [0]⟩, some (ofInt32 13)⟩ ∧
    Fe.cmpN none .eq ⟨⟨true, [0]⟩, some (ofInt32 13)⟩ (.u32 0) = .ok false ∧
    Fe.cmpN none .eq ⟨⟨true, [0]⟩, some (ofInt32 13)⟩ (.s32 0) = .ok true := by decide

end Ack.Props
