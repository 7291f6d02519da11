import Verif.Model.Named
import Verif.Proof.Utils
import Verif.Proof.EcVerify
import Verif.Proof.Ecpp
/-!
# From checked numbers to curve objects
-/
namespace Ack
open Big WeierstrassCurve

/-- The literal `s` denotes `v` and fits in the storage of the curve. -/
@[reducible] def LitOk (q : CurveParams) (s : String) (v : Nat) : Prop :=
  hexNum (chars s) = some v ∧ (chars s).getLast? ≠ some 0 ∧ ((chars s).length + 1) / 2 ≤ 8 * bitsizeToWordsize q.bits

/-- Facts about the constants of a curve. -/
structure NumCert (q : CurveParams) (P A B X Y N : ℕ) : Prop where
  hp : LitOk q q.p P
  ha : LitOk q q.a A
  hb : LitOk q q.b B
  hgx : LitOk q q.gx X
  hgy : LitOk q q.gy Y
  hn : LitOk q q.n N
  np : N.Prime
  run : ecppCheck P A B X Y N = true
  root : ∃ u0 u1 v0 v1 v2, noRootCheck P A B u0 u1 v0 v1 v2 = true
  num : 8 < P ∧ A < P ∧ 0 < B ∧ B < P ∧ X < P ∧ Y < P ∧ P < 2 * N ∧ 2 * P + 1 < 3 * N ∧ N ≠ P - 1 ∧
    P < 2 ^ q.bits ∧ 2 ^ (q.bits - 1) ≤ P ∧ N < 2 ^ q.bits ∧ 2 ^ (q.bits - 1) ≤ N ∧ 0 < q.bits ∧ q.h = 1

theorem cap_fits (q : CurveParams) (w : Bool) {n : Nat} (h : n ≤ 2 * bitsizeToWordsize q.bits) : (q.cap w).fits n = true := by
  rw [fits_iff]
  intro M hM
  unfold CurveParams.cap at hM
  split at hM
  · cases hM
  · cases hM
    unfold bitsizeToWordsize at *
    omega

theorem cap_none_or (q : CurveParams) (w : Bool) : q.cap w = none ∨ q.cap w = some (2 * bitsizeToWordsize q.bits) := by
  unfold CurveParams.cap
  split
  · exact Or.inl rfl
  · right; congr 1; unfold bitsizeToWordsize; omega

theorem lit_spec {q : CurveParams} {s : String} {v : Nat} (h : LitOk q s v) (hb : 0 < q.bits) (w : Bool) :
    ∃ x, Big.ofHexLit (q.cap w) (chars s) = .ok x ∧ x.Canon ∧ Fits (q.cap w) x ∧ x.toInt = v := by
  obtain ⟨h1, h2, h3⟩ := h
  have hs : stripNul (chars s) = chars s := if_neg h2
  have hf := fromHexFixed_spec (((chars s).length + 1) / 2) (chars s) (by rw [hs])
  rw [hs, h1] at hf
  obtain ⟨d, l, hv, e⟩ := hf
  rw [l, Nat.sub_self, List.replicate_zero, List.append_nil] at e
  have hw : 1 ≤ bitsizeToWordsize q.bits := by unfold bitsizeToWordsize; omega
  obtain ⟨x, ex, cx, fx, -, tx⟩ := setBytes_spec (q.cap w) d (cap_fits q w (by unfold wordSize; omega)) (cap_fits q w (by omega))
  refine ⟨x, ?_, cx, fx, by rw [tx, hv]⟩
  unfold Big.ofHexLit fromHexLit
  rw [e, ok_bind]
  unfold Big.ofBytes
  rw [ex]

theorem length_of_lt {x : Big} (c : x.Canon) {k : Nat} (hk : 0 < k) (h : x.toInt.natAbs < 2 ^ (32 * k)) : x.ws.length ≤ k := by
  by_contra hlt
  have h1 : B (x.ws.length - 1) ≤ val x.ws := c.w.ge (by omega)
  have h2 : B k ≤ B (x.ws.length - 1) := by
    unfold B; exact Nat.pow_le_pow_right (by norm_num) (by omega)
  have h3 : x.toInt.natAbs = val x.ws := by
    unfold toInt; split <;> omega
  have h4 : B k = 2 ^ (32 * k) := by unfold B; rw [pow_mul]; norm_num
  omega

theorem res_nat {P : ℕ} {x : Big} {v : ℕ} (h : x.toInt = v) : res P x = (v : ZMod P) := by
  unfold res; rw [h]; simp

theorem named_spec {q : CurveParams} {P A B X Y N : ℕ} (K : NumCert q P A B X Y N) [Fact P.Prime] (w : Bool) (addr : Nat) :
    ∃ (C : Curve) (G : C.Pt P), q.build w addr = .ok C ∧ C.addr = addr ∧
      C.p.toInt = P ∧ C.a.toInt = A ∧ C.b.toInt = B ∧ C.gx.v.toInt = X ∧ C.gy.v.toInt = Y ∧ C.n.toInt = N ∧ C.h = 1 ∧
      C.n.Canon ∧ C.n.ws.length ≤ bitsizeToWordsize q.bits ∧ C.p.ws.length ≤ bitsizeToWordsize q.bits ∧
      CurveOk P (q.cap w) C ∧ C.g.Rep C G ∧ G ≠ 0 ∧ (N : ℤ) • G = 0 ∧ Nat.card (C.Pt P) = N ∧
      C.pMinusN = sub (q.cap w) C.p C.n ∧ C.verify (q.cap w) = .ok true := by
  obtain ⟨h3, hA, hB0, hB, hX, hY, hPN, hPN3, hNP, hPb, hPb', hNb, hNb', hbits, hh⟩ := K.num
  obtain ⟨p, ep, cp, fp, vp⟩ := lit_spec K.hp hbits w
  obtain ⟨a, ea, ca, fa, va⟩ := lit_spec K.ha hbits w
  obtain ⟨b, eb, cb, fb, vb⟩ := lit_spec K.hb hbits w
  obtain ⟨gx, egx, cgx, fgx, vgx⟩ := lit_spec K.hgx hbits w
  obtain ⟨gy, egy, cgy, fgy, vgy⟩ := lit_spec K.hgy hbits w
  obtain ⟨n, en, cn, fn, vn⟩ := lit_spec K.hn hbits w
  have hwp : 0 < bitsizeToWordsize q.bits := by unfold bitsizeToWordsize; omega
  have h32 : 2 ^ q.bits ≤ 2 ^ (32 * bitsizeToWordsize q.bits) := Nat.pow_le_pow_right (by norm_num) (by unfold bitsizeToWordsize; omega)
  have lp : p.ws.length ≤ bitsizeToWordsize q.bits := length_of_lt cp hwp (by rw [vp]; simp; omega)
  have ln : n.ws.length ≤ bitsizeToWordsize q.bits := length_of_lt cn hwp (by rw [vn]; simp; omega)
  have M : Mod (q.cap w) p P := ⟨cap_fits q w (by omega), cp, vp, by omega⟩
  have ela : Elt p a := ⟨ca, by omega, by omega⟩
  have elb : Elt p b := ⟨cb, by omega, by omega⟩
  obtain ⟨C, eC, c0, c1, c2, c3, c4, c5, c6, c7, c8, c9, c10⟩ :=
    (make_spec (addr := addr) (b := b) (n := n) (h := q.h) M (by omega) ela cgx cgy).2 ⟨by omega, by omega, by omega, by omega⟩
  obtain ⟨h2, hd, hon, hm⟩ := ecppCheck_spec K.run (dvd_refl P)
  have ra : res P C.a = A := by rw [c2]; exact res_nat va
  have rb : res P C.b = B := by rw [c3]; exact res_nat vb
  have hb0 : (B : ZMod P) ≠ 0 := by
    rw [Ne, ZMod.natCast_eq_zero_iff]
    exact fun hdv => absurd (Nat.le_of_dvd hB0 hdv) (by omega)
  have KC : CurveOk P (q.cap w) C :=
    { M := c1 ▸ M, gt3 := by omega, a := by rw [c1, c2]; exact ela, b := by rw [c1, c3]; exact elb, b0 := by rw [rb]; exact hb0,
      disc := by rw [ra, rb]; exact hd, m3 := fun h => c2 ▸ c8.1 h, z := fun h => c2 ▸ c9.1 h }
  have W : C.W P = shortW (A : ZMod P) (B : ZMod P) := by unfold Curve.W; rw [ra, rb]
  have rx : Rep P C.p C.gx (X : ZMod P) := by
    rw [c1, c4]; exact ⟨rfl, ⟨cgx, by dsimp only; omega, by dsimp only; omega⟩, res_nat vgx⟩
  have ry : Rep P C.p C.gy (Y : ZMod P) := by
    rw [c1, c5]; exact ⟨rfl, ⟨cgy, by dsimp only; omega, by dsimp only; omega⟩, res_nat vgy⟩
  have hns : (C.W P).Nonsingular (X : ZMod P) (Y : ZMod P) := KC.ns.2 (by rw [ra, rb]; exact hon)
  have hG0 : (Affine.Point.some _ _ hns : C.Pt P) ≠ 0 := Affine.Point.some_ne_zero hns
  have hnG : N • (Affine.Point.some _ _ hns : C.Pt P) = 0 := by
    revert hns
    rw [W]
    exact fun hns _ => hm hns
  have hcard : Nat.card (C.Pt P) = N := by
    obtain ⟨u0, u1, v0, v1, v2, hr⟩ := K.root
    have hr' := noRoot hr
    rw [← ra, ← rb] at hr'
    exact card_eq h2 K.np hPN3 hr' _ hG0 hnG
  have hrep : C.g.Rep C (Affine.Point.some _ _ hns : C.Pt P) := ⟨rfl, rx, ry⟩
  refine ⟨C, .some _ _ hns, ?_, c0, by rw [c1, vp], by rw [c2, va], by rw [c3, vb], by rw [c4]; exact vgx, by rw [c5]; exact vgy, by rw [c6, vn],
    by rw [c7, hh], by rw [c6]; exact cn, by rw [c6]; exact ln, by rw [c1]; exact lp, KC, hrep, hG0, ?_, hcard, by rw [c1, c6]; exact c10, ?_⟩
  · unfold CurveParams.build
    rw [ep, ok_bind, ea, ok_bind, eb, ok_bind, egx, ok_bind, egy, ok_bind, en, ok_bind, eC]
  · rw [natCast_zsmul]; exact hnG
  · have rx' : res P C.gx.v = X := by rw [c4]; exact res_nat vgx
    have ry' : res P C.gy.v = Y := by rw [c5]; exact res_nat vgy
    obtain ⟨r, er, hr⟩ := verify_spec (C := C) KC.M (c2 ▸ ca) (c3 ▸ cb) (c6 ▸ cn) (c6 ▸ fn) (by rw [c3, vb]; omega) (by rw [rx']; exact rx)
      (by rw [ry']; exact ry) KC.m3 KC.z
    rw [er, hr.2]
    refine ⟨by omega, by rw [c6, vn]; omega, by rw [c2, va]; omega, by rw [c3, vb]; omega, KC.disc, ⟨_, hrep, hG0, ?_⟩, ?_, ?_, ?_⟩
    · rw [c6, vn, natCast_zsmul]; exact hnG
    · rw [c7, hh]; decide
    · rw [c7, hh]; show 1 < P; omega
    · rw [c7, hh, c6, vn]; show (N : ℤ) * ((1 : ℕ) : ℤ) ≠ P - 1; push_cast; omega

end Ack
