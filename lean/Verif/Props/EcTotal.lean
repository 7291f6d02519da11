import Verif.Proof.EcTotal
import Verif.Props.EcProg
/-! # Programs on curves with arbitrary points -/
namespace Ack.Props
open Ack.Mem Ack.Spec.Ec Ack.Spec.Prog
open Big (Byte)

variable {K : Kind} {d : DomBytes} {P N : ℕ} [Fact P.Prime] {A B : ZMod P} {G : (shortW A B).Point}

theorem forms_run (E : EcDomain K d N A B G) {R : List ℤ → EcStmt → Prop} {ts : List EcStmt} {xs : List ℤ} {ks : List Kd}
    (h : EcForms R [] [] ts xs ks) {fuel : ℕ} (hP : Spec.Passes P fuel) (hN : N.size ≤ fuel) :
    (∃ pts bs, ecSees K fuel d ts = .ok (xs, pts, bs) ∧ pts.length = ks.length ∧ ∀ c ∈ pts, Residues P c) ∨
      ecSees K fuel d ts = .error .abort ∧ ¬ ∀ xs t, R xs t → EcPasses K.lim P N xs t := by
  obtain ⟨r⟩ := params E.toEcSetting
  have hA := r.resA.trans E.a
  have hB := r.resB.trans E.b
  subst hA hB
  obtain ⟨em, D⟩ := params_dom r E
  have hs := program_sim r E.toEcSetting hP hN ts
  rw [r.program, em, ok_bind] at hs
  rcases form_runs (C := r.curve) D h ⟨[], [], []⟩ ⟨.nil, .nil⟩ with ⟨V, eV, dV⟩ | ⟨eV, hn⟩
  · left
    rw [eV] at hs
    obtain ⟨v, s, ep, g, C, eC, hv⟩ := hs
    cases eC
    have X : Ctx K D0 s := ctx_init.mono g
    have H := r.pc E.toEcSetting hP hN em
    obtain ⟨cs, s', e1, g1, l1, r1⟩ := readPts_any H D.K X hv.pts dV.pts
    have e2 := readInts_is (hv.mono g1).ints (dV.ints.imp fun _ _ h => ⟨h.1, h.2.2⟩)
    refine ⟨cs, v.bools, ?_, l1, r1⟩
    unfold ecSees ecReport
    rw [bind_run ep, bind_run e1, bind_run e2]
    rfl
  · right
    rw [eV] at hs
    refine ⟨?_, hn⟩
    unfold ecSees ecReport
    rw [bind_err hs]
    rfl

/-- **C85**: a program that names declared variables of the right classes has no undefined behaviour and ends, whatever the
coordinates of its points (on the curve or not) and the size of its scalars: it ends normally, having one value for each variable,
with coordinates that are residues, or it is stopped by a check. -/
theorem C85_no_undefined (E : EcDomain K d N A B G) {ts : List EcStmt} {xs : List ℤ} {ks : List Kd}
    (h : EcForms (fun _ _ => True) [] [] ts xs ks) {fuel : ℕ} (hP : Spec.Passes P fuel) (hN : N.size ≤ fuel) :
    ecSees K fuel d ts = .error .abort ∨
      ∃ pts bs, ecSees K fuel d ts = .ok (xs, pts, bs) ∧ pts.length = ks.length ∧ ∀ c ∈ pts, Residues P c := by
  rcases forms_run E h hP hN with h | h
  · exact .inr h
  · exact .inl h.1

/-- **C85**: if moreover the bytes fit, unverified coordinates are residues and private scalars are in range, it ends normally. -/
theorem C85_total (E : EcDomain K d N A B G) {ts : List EcStmt} {xs : List ℤ} {ks : List Kd}
    (h : EcForms (EcPasses K.lim P N) [] [] ts xs ks) {fuel : ℕ} (hP : Spec.Passes P fuel) (hN : N.size ≤ fuel) :
    ∃ pts bs, ecSees K fuel d ts = .ok (xs, pts, bs) ∧ pts.length = ks.length ∧ ∀ c ∈ pts, Residues P c := by
  rcases forms_run E h hP hN with h | ⟨-, h⟩
  · exact h
  · exact absurd (fun _ _ h => h) h

/-- The point (1, 1) is not on the curve; the program uses it in all three classes, with a scalar that fills the storage, and as a
public key. -/
def off229 : List EcStmt := [.int [1], .point 0 0 false, .dbl 0, .conv .jac 1, .conv .proj 0, .int (List.replicate 32 255), .mul 2 1, .mul 3 1,
  .mulAdd 1 4 1 2, .isValid 4, .verify 0 [0xab] 0 1, .eq 2 4]

example : ∃ xs ks, EcForms (EcPasses (some 8) 229 211) [] [] off229 xs ks ∧ xs.length = 2 ∧ ks.length = 7 ∧
    ∃ pts bs, ecSees ⟨8, false⟩ 19 d229 off229 = .ok (xs, pts, bs) ∧ pts.length = ks.length ∧ ∀ c ∈ pts, Residues 229 c := by
  suffices h : ∃ xs ks, EcForms (EcPasses (some 8) 229 211) [] [] off229 xs ks ∧ xs.length = 2 ∧ ks.length = 7 by
    obtain ⟨xs, ks, h, h1, h2⟩ := h
    exact ⟨xs, ks, h, h1, h2, C85_total (d229_dom ⟨8, false⟩ (Or.inl rfl)) h p229 n211⟩
  exact ⟨_, _, .cons (.int _) (fun M h => by cases h; decide) (.cons (.point _ rfl rfl) ⟨rfl, 1, 1, by decide, by decide, rfl, rfl⟩
    (.cons (.dbl rfl) trivial (.cons (.conv .jac rfl (Or.inr rfl)) trivial (.cons (.conv .proj rfl (Or.inr rfl)) trivial
    (.cons (.int _) (fun M h => by cases h; decide) (.cons (.mul rfl rfl) trivial (.cons (.mul rfl rfl) trivial
    (.cons (.mulAdd rfl rfl rfl rfl) trivial (.cons (.isValid rfl) trivial (.cons (.verify _ rfl rfl rfl) trivial
    (.cons (.eq rfl rfl) trivial (.nil _ _)))))))))))), rfl, rfl⟩

/-- **C85**: with a scalar that fills fixed storage the Jacobian class does not compute the multiple, although it ends normally: for
2⁶⁴ - 1 on two words it answers the opposite of the generator (2, 5).  (C84 asks for a free word.) -/
theorem C85_full_scalar_wrong : EcSetting ⟨2, false⟩ d229 229 211 ∧
    ecSees ⟨2, false⟩ 19 d229 [.int (List.replicate 8 255), .int [2], .int [5], .point 1 2 false, .conv .jac 0, .mul 1 0] =
      .ok ([2 ^ 64 - 1, 2, 5], [some (2, 5), some (2, 5), some (2, 224)], []) ∧
    coords ((2 ^ 64 - 1 : ℤ) • G229) ≠ some (2, 224) := by
  refine ⟨?_, by decide +kernel, ?_⟩
  · refine ⟨by decide, by decide, by decide, by decide, by decide, by decide, ?_, by decide, by decide, by decide⟩
    intro s hs M hM
    have : s.length = 1 := by
      simp only [d229, List.mem_cons, List.not_mem_nil, or_false] at hs
      rcases hs with rfl | rfl | rfl | rfl | rfl | rfl <;> rfl
    cases (show some 2 = some M from hM); omega
  · intro h
    have h1 : (2 ^ 64 - 1 : ℤ) • G229 = -G229 := by
      generalize (2 ^ 64 - 1 : ℤ) • G229 = Q at h
      cases Q with
      | zero => cases h
      | some x y hn =>
        obtain ⟨h', e⟩ := neg_at (a := res 229 ex229.a) (b := res 229 ex229.b) (x := 2) (y := 5) (ex229_ok.ns.2 (by unfold res; decide))
        have h0 : ((x.val : ℤ), (y.val : ℤ)) = (2, 224) := Option.some.inj h
        have h1 : x.val = 2 := Int.ofNat.inj (congrArg Prod.fst h0)
        have h2 : y.val = 224 := Int.ofNat.inj (congrArg Prod.snd h0)
        have hx : x = 2 := ZMod.val_injective _ (h1.trans rfl)
        have hy : y = -5 := ZMod.val_injective _ (h2.trans rfl)
        subst hx hy
        exact e.symm
    have h2 : (2 ^ 64 : ℤ) • G229 = 0 := by
      rw [show (2 ^ 64 : ℤ) = (2 ^ 64 - 1) + 1 by norm_num, add_zsmul, h1, one_zsmul, neg_add_cancel]
    have h3 : (211 : ℤ) • G229 = 0 := G229_ord
    have h4 : G229 = 0 := by
      have : (1 : ℤ) = 2 ^ 64 * Int.gcdA (2 ^ 64) 211 + 211 * Int.gcdB (2 ^ 64) 211 := by decide +kernel
      rw [← one_zsmul G229, this, add_zsmul, mul_comm, mul_zsmul, h2, mul_comm, mul_zsmul, h3, zsmul_zero, zsmul_zero, _root_.add_zero]
    exact WeierstrassCurve.Affine.Point.some_ne_zero _ h4

end Ack.Props
