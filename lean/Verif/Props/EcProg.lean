import Verif.Proof.EcWhole
import Verif.Props.Ecdsa
/-! # Programs on curves, on real storage -/
namespace Ack.Props
open Ack.Mem Ack.Spec.Ec Ack.Spec.Prog
open Big (Byte)

variable {K : Kind} {d : DomBytes} {P N : ℕ}

/-- **C84**: a program makes integers from bytes, a curve from them, points (from coordinates or from scalars, of all three classes),
converts, adds, subtracts, doubles, negates and multiplies them in any order, compares them, asks whether they are valid, and
verifies signatures; in the end it reads all its variables.  Within the domains of the functions it ends normally and sees the
answers of the group, the values of integer arithmetic, and for each of its points, whatever its class and its representative,
the coordinates of the element of the group.  This holds for every number of variables and statements, on fixed and on growable
storage, for every bound on the loops that exceeds the two moduli. -/
theorem C84_programs [Fact P.Prime] {A B : ZMod P} {G : (shortW A B).Point} (E : EcDomain K d N A B G) {ts : List EcStmt}
    {e : EcEnv (shortW A B)} (h : EcRuns K.lim N G ⟨[], [], []⟩ ts e) {fuel : ℕ} (hP : Spec.Passes P fuel) (hN : N.size ≤ fuel) :
    ecSees K fuel d ts = .ok (e.ints, e.pts.map (fun Q => coords Q.2), e.bools) := by
  obtain ⟨r⟩ := params E.toEcSetting
  have hA := r.resA.trans E.a
  have hB := r.resB.trans E.b
  subst hA hB
  obtain ⟨em, D⟩ := params_dom r E
  obtain ⟨V, eV, dV⟩ := den_runs (C := r.curve) D h ⟨[], [], []⟩ ⟨.nil, .nil, rfl⟩
  have hs := program_sim r E.toEcSetting hP hN ts
  rw [r.program, em, ok_bind, eV] at hs
  obtain ⟨v, s, ep, g, C, eC, hv⟩ := hs
  cases eC
  have X : Ctx K D0 s := ctx_init.mono g
  have H := r.pc E.toEcSetting hP hN em
  obtain ⟨s', e1, g1⟩ := readPts_run H D.K X hv.pts dV.pts
  have e2 := readInts_is (hv.mono g1).ints dV.ints
  unfold ecSees ecReport
  rw [bind_run ep, bind_run e1, bind_run e2]
  show Except.ok _ = _
  rw [hv.bools, dV.bools]

/-- **C84**: a statement whose arguments the library rejects (bytes too long for the storage, coordinates that are not residues, a
point that does not pass the requested check, a private scalar out of range) stops the program, after any statements that ran
normally and whatever comes later. -/
theorem C84_stops [Fact P.Prime] {A B : ZMod P} {G : (shortW A B).Point} (E : EcDomain K d N A B G) {ts us : List EcStmt} {t : EcStmt}
    {e : EcEnv (shortW A B)} (h : EcRuns K.lim N G ⟨[], [], []⟩ ts e) (ht : EcStops K.lim N e t) {fuel : ℕ} (hP : Spec.Passes P fuel) (hN : N.size ≤ fuel) :
    ecSees K fuel d (ts ++ t :: us) = .error .abort := by
  obtain ⟨r⟩ := params E.toEcSetting
  have hA := r.resA.trans E.a
  have hB := r.resB.trans E.b
  subst hA hB
  obtain ⟨em, D⟩ := params_dom r E
  obtain ⟨V, eV, dV⟩ := den_runs (C := r.curve) D h ⟨[], [], []⟩ ⟨.nil, .nil, rfl⟩
  have hx : ∀ (ts : List EcStmt) V0, evExec K.lim r.curve ts V0 = .ok V → evExec K.lim r.curve (ts ++ t :: us) V0 = .error .abort := by
    intro ts
    induction ts with
    | nil =>
      intro V0 h0
      cases h0
      rw [List.nil_append]
      unfold evExec
      rw [den_stop (C := r.curve) D dV ht]
      rfl
    | cons t' ts ih =>
      intro V0 h0
      rw [List.cons_append]
      unfold evExec at h0 ⊢
      cases h1 : evStep K.lim r.curve V0 t' with
      | error x => rw [h1] at h0; cases h0
      | ok V1 => rw [h1] at h0; rw [ok_bind]; exact ih V1 h0
  have hs := program_sim r E.toEcSetting hP hN (ts ++ t :: us)
  rw [r.program, em, ok_bind, hx ts _ eV] at hs
  unfold ecSees ecReport
  rw [bind_err hs]
  rfl

/-- **C84**: a curve whose generator does not have residues as coordinates is not made. -/
theorem C84_generator (S : EcSetting K d P N) (h : ¬ (beVal d.gx < P ∧ beVal d.gy < P)) (ts : List EcStmt) {fuel : ℕ} (hP : Spec.Passes P fuel) (hN : N.size ≤ fuel) :
    ecSees K fuel d ts = .error .abort := by
  obtain ⟨r⟩ := params S
  have em := r.make_err S h
  have hs := program_sim r S hP hN ts
  rw [r.program, em] at hs
  unfold ecSees ecReport
  rw [bind_err hs]
  rfl

/-- **C84**: for every program, also one that makes points that are not on the curve, runs out of room or names a variable it has not
declared, and for every modulus, also one that is not prime: what happens on storage is what the functions of the value model say,
normal end, failed check and undefined behaviour alike. -/
theorem C84_refines (S : EcSetting K d P N) (ts : List EcStmt) {fuel : ℕ} (hP : Spec.Passes P fuel) (hN : N.size ≤ fuel) :
    (∀ x, ecProgram K fuel d ts BigSt.init = .error x ↔ evProgram K.lim d ts = .error x) ∧
    ∀ V, evProgram K.lim d ts = .ok V → ∃ v s, ecProgram K fuel d ts BigSt.init = .ok (v, s) ∧ v.bools = V.bools ∧
      List.Forall₂ (fun i X => s.value i = .ok X.toInt) v.ints V.ints := by
  obtain ⟨r⟩ := params S
  have hs := program_sim r S hP hN ts
  cases e : evProgram K.lim d ts with
  | error y =>
    rw [e] at hs
    have hs : ecProgram K fuel d ts BigSt.init = .error y := hs
    exact ⟨fun x => by rw [hs]; simp, fun V h => by cases h⟩
  | ok V =>
    rw [e] at hs
    obtain ⟨v, s, ep, -, C, -, hv⟩ := hs
    refine ⟨fun x => by rw [ep]; simp, fun V' h => ?_⟩
    cases h
    exact ⟨v, s, ep, hv.bools, hv.ints.imp fun _ _ h => value_of h.rep⟩

/-! ### A curve of 211 points over the integers modulo 229 -/

def d229 : DomBytes := ⟨[229], [5], [7], [2], [5], [211], 1⟩

theorem d229_dom (K : Kind) (hK : K = ⟨8, false⟩ ∨ K = ⟨4, true⟩) :
    EcDomain K d229 211 (res 229 ex229.a) (res 229 ex229.b) G229 where
  p := by decide
  big := by decide
  alt := by decide
  a := by unfold res; decide
  blt := by decide
  b := by unfold res; decide
  b0 := ex229_ok.b0
  disc := ex229_ok.disc
  g := ⟨2, 5, _, rfl, by decide, by decide⟩
  n := by decide
  n1 := by decide
  np := by norm_num
  ord := G229_ord
  fits := by
    intro s hs M hM
    have : s.length = 1 := by
      simp only [d229, List.mem_cons, List.not_mem_nil, or_false] at hs
      rcases hs with rfl | rfl | rfl | rfl | rfl | rfl <;> rfl
    rcases hK with rfl | rfl
    · cases (show some 8 = some M from hM); omega
    · cases (show none = some M from hM)
  roomP := by rcases hK with rfl | rfl <;> decide
  roomN := by rcases hK with rfl | rfl <;> decide
  inline := by rcases hK with rfl | rfl <;> decide

/-- 19 passes are enough: 229 has 8 bits, and 2 is no square modulo 229. -/
theorem p229 : Spec.Passes 229 19 := ⟨by decide +kernel, fun _ => ⟨2, by decide, by decide +kernel⟩⟩
theorem n211 : Nat.size 211 ≤ 19 := by decide +kernel

/-- 37 G in Jacobian coordinates; as an affine point; its double, minus itself; are they equal?; a signature; a sum of multiples. -/
def prog229 : List EcStmt := [.int [37], .generate .jac 0, .conv .aff 0, .dbl 1, .sub 2 1, .eq 3 1, .int [134], .int [138], .verify 1 [0xab] 1 2,
  .mulAdd 0 0 2 0, .neg 0, .mul 4 3, .isValid 5]

open Classical in
example (K : Kind) (hK : K = ⟨8, false⟩ ∨ K = ⟨4, true⟩) : ∃ e, EcRuns K.lim 211 G229 ⟨[], [], []⟩ prog229 e ∧ e.ints = [37, 134, 138, -37] ∧
    e.pts.map Prod.fst = [.jac, .aff, .aff, .aff, .jac, .jac] ∧ e.bools[0]? = some true ∧
    ecSees K 19 d229 prog229 = .ok (e.ints, e.pts.map (fun Q => coords Q.2), e.bools) := by
  have fb : ∀ x : Byte, Ack.Spec.Ec.FitsBytes K.lim [x] := by
    intro x M hM
    rcases hK with rfl | rfl
    · cases (show some 8 = some M from hM); exact Nat.le_of_ble_eq_true rfl
    · cases (show none = some M from hM)
  have fr : ∀ n : ℕ, n ≤ 8 → Cap.fits K.lim n = true := by
    intro n hn
    rcases hK with rfl | rfl
    · exact decide_eq_true hn
    · rfl
  suffices h : ∃ e, EcRuns K.lim 211 G229 ⟨[], [], []⟩ prog229 e ∧ e.ints = [37, 134, 138, -37] ∧
      e.pts.map Prod.fst = [.jac, .aff, .aff, .aff, .jac, .jac] ∧ e.bools[0]? = some true by
    obtain ⟨e, h, h1, h2, h3⟩ := h
    exact ⟨e, h, h1, h2, h3, C84_programs (d229_dom K hK) h p229 n211⟩
  exact ⟨_, .cons (.int _ (fb _)) (.cons (.generate .jac rfl (by decide) (by decide) fun _ => fr _ (by decide)) (.cons (.conv .aff rfl (Or.inl rfl))
      (.cons (.dbl rfl) (.cons (.sub rfl rfl) (.cons (.eq (b := true) rfl rfl ⟨fun _ => add_sub_cancel_right _ _, fun _ => rfl⟩)
      (.cons (.int _ (fb _)) (.cons (.int _ (fb _)) (.cons (.verify _ rfl rfl rfl (decide_eq_true_iff (p := EcdsaValidSmall _ _ _ _ _ _)))
      (.cons (.mulAdd rfl rfl rfl rfl (fr _ (by decide)) (fr _ (by decide))) (.cons (.neg rfl) (.cons (.mul rfl rfl fun _ => fr _ (by decide))
      (.cons (.isValid rfl (decide_eq_true_iff (p := _ ∧ _)) fun _ => fr _ (by decide)) (.nil _))))))))))))), rfl, rfl, rfl⟩

example : ecSees ⟨8, false⟩ 19 d229 [.int [2], .int [5], .point 0 1 false, .opp 0, .conv .jac 1, .eq 0 1] =
    .ok ([2, 5], [some (2, 5), some (2, 224), some (2, 224)], [false]) := by decide +kernel
example : ecSees ⟨4, true⟩ 19 d229 [.int [2], .int [5], .point 0 1 false, .opp 0, .conv .jac 1, .eq 0 1] =
    .ok ([2, 5], [some (2, 5), some (2, 224), some (2, 224)], [false]) := by decide +kernel
example : ecSees ⟨8, false⟩ 19 d229 [.int [2], .int [5], .point 0 1 false, .add 0 0] =
    .ok ([2, 5], [some (2, 5), some (134, 137)], []) := by decide +kernel

example : EcRuns (W := ex229.W 229) (some 8) 211 G229 ⟨[], [], []⟩ [.int [211]] ⟨[211], [], []⟩ ∧
    EcStops (P := 229) (W := ex229.W 229) (some 8) 211 ⟨[211], [], []⟩ (.generate .jac 0) ∧
    ecSees ⟨8, false⟩ 19 d229 ([.int [211]] ++ .generate .jac 0 :: [.dbl 0]) = .error .abort :=
  ⟨.cons (.int _ fun M h => by cases h; decide) (.nil _), .generate _ rfl (by decide),
    C84_stops (d229_dom ⟨8, false⟩ (Or.inl rfl)) (.cons (.int _ fun M h => by cases (show some 8 = some M from h); decide) (.nil _))
      (.generate _ rfl (by decide)) p229 n211⟩
/-- (1, 1) is not on the curve; (229, 5) does not have residues as coordinates; 33 bytes do not fit 8 words. -/
example : ecSees ⟨8, false⟩ 19 d229 [.int [1], .point 0 0 true] = .error .abort ∧
    ecSees ⟨8, false⟩ 19 d229 [.int [229], .int [5], .point 0 1 false] = .error .abort ∧
    ecSees ⟨8, false⟩ 19 d229 [.int (List.replicate 33 0)] = .error .abort ∧
    ecSees ⟨8, false⟩ 19 ⟨[229], [5], [7], [229], [5], [211], 1⟩ [] = .error .abort :=
  ⟨by decide +kernel, by decide +kernel, by decide +kernel, by decide +kernel⟩
/-- A point that is not on the curve, made without the check: the functions go on with it. -/
example : EcSetting ⟨8, false⟩ d229 229 211 ∧
    ecSees ⟨8, false⟩ 19 d229 [.int [1], .point 0 0 false, .dbl 0, .isOnCurve 0] = .ok ([1], [some (1, 1), some (14, 176)], [false]) :=
  ⟨(d229_dom _ (Or.inl rfl)).toEcSetting, by decide +kernel⟩

end Ack.Props
