import Verif.Proof.CurveMem
import Verif.Props.NamedMem
/-! # Validation of a curve, on real storage -/
namespace Ack.Props
open Ack.Mem Ack.Spec.Ec Ack.Spec.Prog
open Big (Byte)

variable {K : Kind} {d : DomBytes} {P N : ℕ}

/-- What a program that makes a curve and validates it sees. -/
def curveSees (K : Kind) (fuel : ℕ) (d : DomBytes) : Res Bool := (curveProgram K fuel d BigSt.init).map Prod.fst

theorem curveSees_eq (r : Params K d P N) (S : EcSetting K d P N) (h27 : 27 < P) {fuel : ℕ} (hP : Spec.Passes P fuel) :
    curveSees K fuel d = r.make >>= fun c => c.verify K.lim := by
  have hs := curveProgram_sim r S h27 hP
  unfold curveSees
  cases e : r.make >>= fun c => c.verify K.lim with
  | error x => rw [e] at hs; rw [show curveProgram K fuel d BigSt.init = .error x from hs]; rfl
  | ok v =>
    rw [e] at hs
    obtain ⟨b, s, eb, -, rfl⟩ := hs
    rw [eb]; rfl

/-- The parameters `d` describe a curve and a generator: the curve y² = x³ + a x + b over the integers modulo `P` is not singular, the
generator is one of its points, other than the point at infinity, `N` times the generator is the point at infinity, and the cofactor
is at least 1, less than `P`, and not the quotient of `P - 1` by `N`. -/
def ValidDomain (P N : ℕ) [Fact P.Prime] (d : DomBytes) : Prop :=
  4 * ((beVal d.a : ℕ) : ZMod P) ^ 3 + 27 * ((beVal d.b : ℕ) : ZMod P) ^ 2 ≠ 0 ∧
  (∃ (x y : ZMod P) (h : (shortW ((beVal d.a : ℕ) : ZMod P) ((beVal d.b : ℕ) : ZMod P)).Nonsingular x y),
    beVal d.gx = x.val ∧ beVal d.gy = y.val ∧ (N : ℤ) • (WeierstrassCurve.Affine.Point.some x y h) = 0) ∧
  1 ≤ d.h.toNat ∧ d.h.toNat < P ∧ N * d.h.toNat ≠ P - 1

/-- **C89**: validation of a curve on real storage (temporaries included) ends normally and tells exactly whether the parameters are
valid, for every prime above 27, all coefficients, generators, orders and cofactors, on fixed and on growable storage. -/
theorem C89_verify [Fact P.Prime] (S : EcSetting K d P N) (h27 : 27 < P) (hb : beVal d.b ≠ 0) (hx : beVal d.gx < P) (hy : beVal d.gy < P)
    {fuel : ℕ} (hP : Spec.Passes P fuel) : ∃ b, curveSees K fuel d = .ok b ∧ (b = true ↔ ValidDomain P N d) := by
  obtain ⟨r⟩ := params S
  rw [curveSees_eq r S h27 hP, r.make_ok hx hy, ok_bind]
  have vx := r.vx
  have vy := r.vy
  have vp := r.mp.eq
  have ex : Elt r.p r.gx := ⟨r.cx, by omega, by omega⟩
  have ey : Elt r.p r.gy := ⟨r.cy, by omega, by omega⟩
  obtain ⟨c, ec, -, -, -, -, -, -, -, -, h3, h0, -⟩ := (make_spec (addr := 1) (b := r.b) (n := r.n) (h := d.h) r.mp (by omega) r.la r.cx r.cy).2
    ⟨by omega, by omega, by omega, by omega⟩
  have : c = r.curve := by
    have em := r.make_ok hx hy
    rw [show r.make = .ok c from ec] at em
    cases em; rfl
  subst this
  have hbz : r.b.toInt ≠ 0 := by rw [r.vb]; exact_mod_cast hb
  obtain ⟨b, e, hv⟩ := verify_spec (C := r.curve) r.mp r.la.c r.lb.c r.mn.canon r.mn.room.fitsP hbz ⟨rfl, ex, rfl⟩ ⟨rfl, ey, rfl⟩ h3.1 h0.1
  refine ⟨b, e, hv.trans ?_⟩
  have hA := r.resA
  have hB := r.resB
  have va := r.va
  have vb := r.vb
  have la := S.alt
  have lb := S.blt
  have vn := r.mn.eq
  have n1 := S.n1
  unfold ValidDomain
  rw [← hA, ← hB]
  dsimp only
  have hh : (r.n.toInt * d.h.toNat ≠ P - 1) ↔ N * d.h.toNat ≠ P - 1 := by
    rw [vn, ne_eq, ne_eq, not_iff_not]
    constructor
    · intro h
      have : ((N * d.h.toNat : ℕ) : ℤ) = P - 1 := by push_cast; exact h
      omega
    · intro h
      have : ((N * d.h.toNat : ℕ) : ℤ) = P - 1 := by omega
      push_cast at this; exact this
  rw [hh, vn]
  have bnz : res P r.b ≠ 0 := by
    rw [hB, ne_eq, ZMod.natCast_eq_zero_iff]
    exact fun hd => absurd (Nat.le_of_dvd (Nat.pos_of_ne_zero hb) hd) (by omega)
  constructor
  · rintro ⟨-, -, -, -, hd, ⟨Q, hQ, hQ0, hN⟩, h1, h2, h4⟩
    have K' : CurveOk P K.lim r.curve := ⟨r.mp, by omega, r.la, r.lb, bnz, hd, h3.1, h0.1⟩
    refine ⟨hd, ?_, h1, h2, h4⟩
    cases Q with
    | zero => exact absurd rfl hQ0
    | some x y hn =>
      have e1 := rep_toInt K' hQ.2.1
      have e2 := rep_toInt K' hQ.2.2
      exact ⟨x, y, hn, by exact_mod_cast vx.symm.trans e1, by exact_mod_cast vy.symm.trans e2, hN⟩
  · rintro ⟨hd, ⟨x, y, hn, e1, e2, hN⟩, h1, h2, h4⟩
    have K' : CurveOk P K.lim r.curve := ⟨r.mp, by omega, r.la, r.lb, bnz, hd, h3.1, h0.1⟩
    rw [e1] at vx
    rw [e2] at vy
    exact ⟨by omega, by omega, ⟨by omega, by omega⟩, ⟨by omega, by omega⟩, hd, ⟨.some x y hn, ⟨rfl, rep_val K' r.cx vx, rep_val K' r.cy vy⟩,
      WeierstrassCurve.Affine.Point.some_ne_zero hn, hN⟩, h1, h2, h4⟩

/-- **C89**: a curve whose generator does not have residues as coordinates is not made. -/
theorem C89_generator (S : EcSetting K d P N) (h27 : 27 < P) (h : ¬ (beVal d.gx < P ∧ beVal d.gy < P)) {fuel : ℕ} (hP : Spec.Passes P fuel) :
    curveSees K fuel d = .error .abort := by
  obtain ⟨r⟩ := params S
  rw [curveSees_eq r S h27 hP, r.make_err S h]
  rfl

/-- **C89**: if the order is prime, a validated curve is in the domain of every theorem about programs on curves. -/
theorem C89_domain [Fact P.Prime] (S : EcSetting K d P N) (h27 : 27 < P) (hb : beVal d.b ≠ 0) (np : N.Prime)
    {fuel : ℕ} (hP : Spec.Passes P fuel) (h : curveSees K fuel d = .ok true) :
    ∃ G, EcDomain (P := P) K d N ((beVal d.a : ℕ) : ZMod P) ((beVal d.b : ℕ) : ZMod P) G := by
  by_cases hg : beVal d.gx < P ∧ beVal d.gy < P
  swap
  · rw [C89_generator S h27 hg hP] at h; cases h
  obtain ⟨b, eb, hb'⟩ := C89_verify S h27 hb hg.1 hg.2 hP
  rw [h] at eb
  cases eb
  obtain ⟨h1, ⟨x, y, hn, ex, ey, ho⟩, -⟩ := hb'.1 rfl
  refine ⟨.some x y hn, S, rfl, rfl, ?_, h1, ⟨x, y, hn, rfl, ex, ey⟩, np, ho⟩
  rw [ne_eq, ZMod.natCast_eq_zero_iff]
  exact fun hd => absurd (Nat.le_of_dvd (Nat.pos_of_ne_zero hb) hd) (by have := S.blt; omega)

/-- **C89**: for every modulus, also one that is not prime: what happens on storage is what the function of the value model says. -/
theorem C89_refines (S : EcSetting K d P N) (h27 : 27 < P) {fuel : ℕ} (hP : Spec.Passes P fuel) : ∃ p a b gx gy n,
    Big.ofBytes K.lim d.p = .ok p ∧ Big.ofBytes K.lim d.a = .ok a ∧ Big.ofBytes K.lim d.b = .ok b ∧ Big.ofBytes K.lim d.gx = .ok gx ∧
    Big.ofBytes K.lim d.gy = .ok gy ∧ Big.ofBytes K.lim d.n = .ok n ∧
    curveSees K fuel d = Curve.make K.lim 1 p a b gx gy n d.h >>= fun c => c.verify K.lim := by
  obtain ⟨r⟩ := params S
  exact ⟨r.p, r.a, r.b, r.gx, r.gy, r.n, r.ep, r.ea, r.eb, r.ex, r.ey, r.en, curveSees_eq r S h27 hP⟩

theorem std_cofactor (c : Named) : c.params.h = 1 ∧ (stdCurve c).n * 1 ≠ (stdCurve c).p - 1 ∧ 27 < (stdCurve c).p := by
  cases c <;> decide +kernel

/-- **C89**: every named curve passes its own validation on the storage of its integers, in either build. -/
theorem C89_named (c : Named) (wasm : Bool) {fuel : ℕ} (hf : 2 * (stdCurve c).bits + 3 ≤ fuel) :
    ∃ d, c.params.bytes = .ok d ∧ curveSees (c.params.kind wasm) fuel d = .ok true := by
  have K := std_cert c
  haveI : Fact (stdCurve c).p.Prime := ⟨ecpp K.np K.run⟩
  obtain ⟨d, ed, S, va, vb, vx, vy, hh⟩ := named_setting K wasm
  obtain ⟨d', ed', G, E, hg, -⟩ := named_ec K wasm
  rw [ed] at ed'
  cases ed'
  obtain ⟨hh1, hn, h27⟩ := std_cofactor c
  rw [hh1] at hh
  obtain ⟨h3, hA, hB0, hB, hX, hY, -⟩ := K.num
  obtain ⟨b, e, hb⟩ := C89_verify S h27 (by omega) (by omega) (by omega) (std_passes c hf).1
  have hv : b = true := by
    rw [hb]
    unfold ValidDomain
    obtain ⟨x, y, h, e1, ex, ey⟩ := E.g
    have ea := E.a
    have eb := E.b
    have hd := E.disc
    have ho := E.ord
    rw [e1] at ho
    rw [ea, eb, hh]
    exact ⟨hd, ⟨x, y, h, ex, ey, ho⟩, by decide, by show 1 < _; omega, hn⟩
  exact ⟨d, ed, by rw [e, hv]⟩

example (K : Kind) (hK : K = ⟨8, false⟩ ∨ K = ⟨4, true⟩) : EcSetting K d229 229 211 ∧ beVal d229.b ≠ 0 ∧ beVal d229.gx < 229 ∧ beVal d229.gy < 229 ∧
    curveSees K 19 d229 = .ok true := by
  refine ⟨(d229_dom K hK).toEcSetting, by decide, by decide, by decide, ?_⟩
  rcases hK with rfl | rfl <;> decide +kernel
/-- A wrong order; a generator that is not on the curve; a singular curve; cofactors 0 and 229; a generator that is no pair of residues. -/
example : curveSees ⟨8, false⟩ 19 {d229 with n := [210]} = .ok false := by decide +kernel
example : curveSees ⟨8, false⟩ 19 {d229 with gy := [6]} = .ok false := by decide +kernel
example : curveSees ⟨8, false⟩ 19 {d229 with a := [226], b := [2], gx := [1], gy := [0]} = .ok false := by decide +kernel
example : curveSees ⟨8, false⟩ 19 {d229 with h := 0} = .ok false := by decide +kernel
example : curveSees ⟨8, false⟩ 19 {d229 with h := 229} = .ok false := by decide +kernel
example : curveSees ⟨8, false⟩ 19 {d229 with gy := [234]} = .error .abort := by decide +kernel

end Ack.Props
