import Verif.Proof.PtProg
import Verif.Props.EcTotal
/-! # Programs that assign to points -/
namespace Ack.Props
open Ack.Mem Ack.Spec.Ec Ack.Spec.Prog
open Big (Byte)

variable {K : Kind} {d : DomBytes} {P N : ℕ}

theorem prog_run (r : Params K d P N) (S : EcSetting K d P N) {C : Curve} (em : r.make = .ok C) {fuel : ℕ} (hP : Spec.Passes P fuel) (hN : N.size ≤ fuel)
    (ts : List PtStmt) :
    match pvExec K.lim C ts ⟨[], [], []⟩ with
    | .error e => ptProgram K fuel d ts BigSt.init = .error e
    | .ok V => ∃ v s, ptProgram K fuel d ts BigSt.init = .ok (v, s) ∧ Ctx K D0 s ∧ VSim D0 D0 r.p C s v V := by
  have hs := pt_program r S hP hN ts
  unfold pvProgram at hs
  rw [r.start, em, ok_bind] at hs
  cases e : pvExec K.lim C ts ⟨[], [], []⟩ with
  | error x => rw [e] at hs; exact hs
  | ok V =>
    rw [e] at hs
    obtain ⟨v, s, C', B, c, ep, eC, M⟩ := hs
    cases eC
    exact ⟨v, s, ep, ⟨M.inv, fun _ h => h.elim⟩, M.plain⟩

/-- **C92**: a program declares integers and points as in C84 and assigns to points, of all three classes: `P += Q`, `P -= Q`,
`P *= x`, `P = Q`, `P = -Q`, `P = c.generate_point(x)` and so on, where the point assigned to may occur on the right side.  Within the
domains of the functions it ends normally; each point it reads has the coordinates of the element that its last assignment gave it,
and no other variable is changed by an assignment.  This holds for every number of variables and statements, on fixed and on growable
storage. -/
theorem C92_programs [Fact P.Prime] {A B : ZMod P} {G : (shortW A B).Point} (E : EcDomain K d N A B G) {ts : List PtStmt}
    {e : EcEnv (shortW A B)} (h : PtRuns K.lim N G ⟨[], [], []⟩ ts e) {fuel : ℕ} (hP : Spec.Passes P fuel) (hN : N.size ≤ fuel) :
    ptSees K fuel d ts = .ok (e.ints, e.pts.map (fun Q => coords Q.2), e.bools) := by
  obtain ⟨r⟩ := params E.toEcSetting
  have hA := r.resA.trans E.a
  have hB := r.resB.trans E.b
  subst hA hB
  obtain ⟨em, D⟩ := params_dom r E
  obtain ⟨V, eV, dV⟩ := pden_runs (C := r.curve) D h ⟨[], [], []⟩ ⟨.nil, .nil, rfl⟩
  have hs := prog_run r E.toEcSetting em hP hN ts
  rw [eV] at hs
  obtain ⟨v, s, ep, X, hv⟩ := hs
  have H := r.pc E.toEcSetting hP hN em
  obtain ⟨s', e1, g1⟩ := readPts_run H D.K X hv.pts dV.pts
  have e2 := readInts_is (hv.mono g1).ints dV.ints
  unfold ptSees ptReport
  rw [bind_run ep, bind_run e1, bind_run e2]
  show Except.ok _ = _
  rw [hv.bools, dV.bools]

/-- **C92**: a declaration or an assignment whose right side the library rejects stops the program. -/
theorem C92_stops [Fact P.Prime] {A B : ZMod P} {G : (shortW A B).Point} (E : EcDomain K d N A B G) {ts us : List PtStmt} {t : PtStmt}
    {e : EcEnv (shortW A B)} (h : PtRuns K.lim N G ⟨[], [], []⟩ ts e) (ht : PtStops K.lim N e t) {fuel : ℕ} (hP : Spec.Passes P fuel) (hN : N.size ≤ fuel) :
    ptSees K fuel d (ts ++ t :: us) = .error .abort := by
  obtain ⟨r⟩ := params E.toEcSetting
  have hA := r.resA.trans E.a
  have hB := r.resB.trans E.b
  subst hA hB
  obtain ⟨em, D⟩ := params_dom r E
  obtain ⟨V, eV, dV⟩ := pden_runs (C := r.curve) D h ⟨[], [], []⟩ ⟨.nil, .nil, rfl⟩
  have hs := prog_run r E.toEcSetting em hP hN (ts ++ t :: us)
  rw [pvExec_stop eV (pden_stop (C := r.curve) D dV ht)] at hs
  unfold ptSees ptReport
  rw [bind_err hs]
  rfl

theorem pforms_run [Fact P.Prime] {A B : ZMod P} {G : (shortW A B).Point} (E : EcDomain K d N A B G) {R : List ℤ → PtStmt → Prop}
    {ts : List PtStmt} {xs : List ℤ} {ks : List Kd} (h : PtForms R [] [] ts xs ks) {fuel : ℕ} (hP : Spec.Passes P fuel) (hN : N.size ≤ fuel) :
    (∃ pts bs, ptSees K fuel d ts = .ok (xs, pts, bs) ∧ pts.length = ks.length ∧ ∀ c ∈ pts, Residues P c) ∨
      ptSees K fuel d ts = .error .abort ∧ ¬ ∀ xs t, R xs t → PtPasses K.lim P N xs t := by
  obtain ⟨r⟩ := params E.toEcSetting
  have hA := r.resA.trans E.a
  have hB := r.resB.trans E.b
  subst hA hB
  obtain ⟨em, D⟩ := params_dom r E
  have hs := prog_run r E.toEcSetting em hP hN ts
  rcases pform_runs (C := r.curve) D h ⟨[], [], []⟩ ⟨.nil, .nil⟩ with ⟨V, eV, dV⟩ | ⟨eV, hn⟩
  · left
    rw [eV] at hs
    obtain ⟨v, s, ep, X, hv⟩ := hs
    have H := r.pc E.toEcSetting hP hN em
    obtain ⟨cs, s', e1, g1, l1, r1⟩ := readPts_any H D.K X hv.pts dV.pts
    have e2 := readInts_is (hv.mono g1).ints (dV.ints.imp fun _ _ h => ⟨h.1, h.2.2⟩)
    refine ⟨cs, v.bools, ?_, l1, r1⟩
    unfold ptSees ptReport
    rw [bind_run ep, bind_run e1, bind_run e2]
    rfl
  · right
    rw [eV] at hs
    refine ⟨?_, hn⟩
    unfold ptSees ptReport
    rw [bind_err hs]
    rfl

/-- **C92**: a program whose statements name declared variables of the right classes has no undefined behaviour and ends, whatever
the coordinates of its points (on the curve or not) and the size of its scalars: it ends normally, having one value for each variable,
with coordinates that are residues, or it is stopped by a check. -/
theorem C92_no_undefined [Fact P.Prime] {A B : ZMod P} {G : (shortW A B).Point} (E : EcDomain K d N A B G) {ts : List PtStmt} {xs : List ℤ}
    {ks : List Kd} (h : PtForms (fun _ _ => True) [] [] ts xs ks) {fuel : ℕ} (hP : Spec.Passes P fuel) (hN : N.size ≤ fuel) :
    ptSees K fuel d ts = .error .abort ∨
      ∃ pts bs, ptSees K fuel d ts = .ok (xs, pts, bs) ∧ pts.length = ks.length ∧ ∀ c ∈ pts, Residues P c := by
  rcases pforms_run E h hP hN with h | h
  · exact .inr h
  · exact .inl h.1

/-- **C92**: if moreover the arguments pass the checks of the library, it ends normally. -/
theorem C92_total [Fact P.Prime] {A B : ZMod P} {G : (shortW A B).Point} (E : EcDomain K d N A B G) {ts : List PtStmt} {xs : List ℤ}
    {ks : List Kd} (h : PtForms (PtPasses K.lim P N) [] [] ts xs ks) {fuel : ℕ} (hP : Spec.Passes P fuel) (hN : N.size ≤ fuel) :
    ∃ pts bs, ptSees K fuel d ts = .ok (xs, pts, bs) ∧ pts.length = ks.length ∧ ∀ c ∈ pts, Residues P c := by
  rcases pforms_run E h hP hN with h | ⟨-, h⟩
  · exact h
  · exact absurd (fun _ _ h => h) h

/-- **C92**: for every program, whatever its points, scalars and variables, and for every modulus, also one that is not prime: what
happens on storage is what the functions of the value model say, with assignment as replacement of one value. -/
theorem C92_refines (S : EcSetting K d P N) (ts : List PtStmt) {fuel : ℕ} (hP : Spec.Passes P fuel) (hN : N.size ≤ fuel) :
    (∀ x, ptProgram K fuel d ts BigSt.init = .error x ↔ pvProgram K.lim d ts = .error x) ∧
    ∀ V, pvProgram K.lim d ts = .ok V → ∃ v s, ptProgram K fuel d ts BigSt.init = .ok (v, s) ∧ v.bools = V.bools ∧
      List.Forall₂ (fun i X => s.value i = .ok X.toInt) v.ints V.ints ∧
      List.Forall₂ (fun q Q => List.Forall₂ (fun i X => s.value i = .ok (Big.toInt X)) q.cells Q.cells) v.pts V.pts := by
  obtain ⟨r⟩ := params S
  have hs := pt_program r S hP hN ts
  cases e : pvProgram K.lim d ts with
  | error y =>
    rw [e] at hs
    have hs : ptProgram K fuel d ts BigSt.init = .error y := hs
    exact ⟨fun x => by rw [hs]; simp, fun V h => by cases h⟩
  | ok V =>
    rw [e] at hs
    obtain ⟨v, s, C, B, c, ep, -, M⟩ := hs
    refine ⟨fun x => by rw [ep]; simp, fun V' h => ?_⟩
    cases h
    exact ⟨v, s, ep, M.vars.bools, M.vars.ints.imp fun _ _ h => value_of h.rep, M.vars.pts.imp fun _ _ h => h.value⟩

/-! ### The curve of 211 points over the integers modulo 229 -/

/-- G and 37 G; `P += P`, `P -= Q`, `Q *= x`, `P = -P`, `Q = P`, `P -= P`. -/
def mut229 : List PtStmt := [.decl (.int [2]), .decl (.int [5]), .decl (.point 0 1 true), .decl (.int [37]), .decl (.generate .aff 2), .addTo 0 0,
  .subFrom 0 1, .mulBy 1 2, .set 0 (.opp 0), .copy 1 0, .subFrom 0 0, .decl (.isIdentity 0)]

open Classical in
example (K : Kind) (hK : K = ⟨8, false⟩ ∨ K = ⟨4, true⟩) : ∃ e, PtRuns K.lim 211 G229 ⟨[], [], []⟩ mut229 e ∧ e.ints = [2, 5, 37] ∧
    e.pts = [(.aff, 0), (.aff, 35 • G229)] ∧ e.bools = [true] ∧
    ptSees K 19 d229 mut229 = .ok (e.ints, e.pts.map (fun Q => coords Q.2), e.bools) := by
  have fb : ∀ x : Byte, Ack.Spec.Ec.FitsBytes K.lim [x] := by
    intro x M hM
    rcases hK with rfl | rfl
    · cases (show some 8 = some M from hM); exact Nat.le_of_ble_eq_true rfl
    · cases (show none = some M from hM)
  suffices h : ∃ e, PtRuns K.lim 211 G229 ⟨[], [], []⟩ mut229 e ∧ e.ints = [2, 5, 37] ∧ e.pts = [(.aff, 0), (.aff, 35 • G229)] ∧ e.bools = [true] by
    obtain ⟨e, h, h1, h2, h3⟩ := h
    exact ⟨e, h, h1, h2, h3, C92_programs (d229_dom K hK) h p229 n211⟩
  have na : Kd.aff = .jac → False := by decide
  refine ⟨_, .cons (.decl (.int _ (fb _))) (.cons (.decl (.int _ (fb _))) (.cons (.decl (.point (x := 2) (y := 5) _ true rfl rfl fun _ => G229_ord))
    (.cons (.decl (.int _ (fb _))) (.cons (.decl (.generate .aff rfl (by decide) (by decide) fun h => (na h).elim)) (.cons (.addTo rfl rfl)
    (.cons (.subFrom rfl rfl) (.cons (.mulBy rfl rfl fun h => (na h).elim) (.cons (.set rfl (.opp rfl)) (.cons (.copy rfl rfl)
    (.cons (.subFrom rfl rfl) (.cons (.decl (.isIdentity (b := true) rfl ⟨fun _ => sub_self _, fun _ => rfl⟩)) (.nil _)))))))))))), rfl, ?_, rfl⟩
  show [(Kd.aff, _ - _), (Kd.aff, -(G229 + G229 - (37 : ℤ) • G229))] = _
  rw [sub_self]
  congr 3
  abel

example : ptSees ⟨8, false⟩ 19 d229 [.decl (.int [2]), .decl (.int [5]), .decl (.point 0 1 false), .copy 0 0, .addTo 0 0] =
    .ok ([2, 5], [some (134, 137)], []) := by decide +kernel
example : ptSees ⟨4, true⟩ 19 d229 [.decl (.int [2]), .decl (.int [5]), .decl (.point 0 1 false), .decl (.conv .jac 0), .decl (.dbl 1), .subFrom 2 1,
      .copy 1 2, .subFrom 2 1, .decl (.eq 1 2)] = .ok ([2, 5], [some (2, 5), some (2, 5), none], [false]) := by decide +kernel

/-- `P = c.generate_point(x)` with x = 211, the order. -/
example : PtRuns (W := ex229.W 229) (some 8) 211 G229 ⟨[], [], []⟩ [.decl (.int [1]), .decl (.generate .aff 0), .decl (.int [211])]
      ⟨[1, 211], [(.aff, (1 : ℤ) • G229)], []⟩ ∧
    PtStops (P := 229) (W := ex229.W 229) (some 8) 211 ⟨[1, 211], [(.aff, (1 : ℤ) • G229)], []⟩ (.set 0 (.generate .aff 1)) ∧
    ptSees ⟨8, false⟩ 19 d229 ([.decl (.int [1]), .decl (.generate .aff 0), .decl (.int [211])] ++ .set 0 (.generate .aff 1) :: []) = .error .abort := by
  have h : PtRuns (W := ex229.W 229) (some 8) 211 G229 ⟨[], [], []⟩ [.decl (.int [1]), .decl (.generate .aff 0), .decl (.int [211])]
      ⟨[1, 211], [(.aff, (1 : ℤ) • G229)], []⟩ :=
    .cons (.decl (.int _ fun M h => by cases h; decide)) (.cons (.decl (.generate .aff rfl (by decide) (by decide) fun h => by cases h))
      (.cons (.decl (.int _ fun M h => by cases h; decide)) (.nil _)))
  have h' : PtStops (P := 229) (W := ex229.W 229) (some 8) 211 ⟨[1, 211], [(.aff, (1 : ℤ) • G229)], []⟩ (.set 0 (.generate .aff 1)) :=
    .set rfl (.generate _ rfl (by decide))
  exact ⟨h, h', C92_stops (d229_dom ⟨8, false⟩ (Or.inl rfl)) h h' p229 n211⟩

/-- The point (1, 1), not on the curve, is doubled in place, multiplied by a scalar that fills the storage, and copied. -/
def moff229 : List PtStmt := [.decl (.int [1]), .decl (.point 0 0 false), .decl (.conv .jac 0), .addTo 0 0, .decl (.int (List.replicate 32 255)), .mulBy 1 1,
  .set 0 (.conv .aff 1), .copy 0 0]

example : ∃ xs, PtForms (PtPasses (some 8) 229 211) [] [] moff229 xs [.aff, .jac] ∧ xs.length = 2 ∧
    ∃ pts bs, ptSees ⟨8, false⟩ 19 d229 moff229 = .ok (xs, pts, bs) ∧ pts.length = 2 ∧ ∀ c ∈ pts, Residues 229 c := by
  suffices h : ∃ xs, PtForms (PtPasses (some 8) 229 211) [] [] moff229 xs [.aff, .jac] ∧ xs.length = 2 by
    obtain ⟨xs, h, h1⟩ := h
    exact ⟨xs, h, h1, C92_total (d229_dom ⟨8, false⟩ (Or.inl rfl)) h p229 n211⟩
  exact ⟨_, .cons (.decl (.int _)) (fun M h => by cases h; decide) (.cons (.decl (.point _ rfl rfl)) ⟨rfl, 1, 1, by decide, by decide, rfl, rfl⟩
    (.cons (.decl (.conv .jac rfl (Or.inr rfl))) trivial (.cons (.addTo rfl rfl) trivial (.cons (.decl (.int _)) (fun M h => by cases h; decide)
    (.cons (.mulBy rfl rfl) trivial (.cons (.set rfl (.conv .aff rfl (Or.inl rfl))) trivial (.cons (.copy rfl rfl) trivial (.nil _ _)))))))), rfl⟩

/-- An assignment to a variable of another class, and one to a variable that is not declared, are not programs. -/
example : EcSetting ⟨8, false⟩ d229 229 211 ∧
    ptSees ⟨8, false⟩ 19 d229 [.decl (.int [1]), .decl (.generate .aff 0), .set 0 (.conv .jac 0)] = .error .ub ∧
    ptSees ⟨8, false⟩ 19 d229 [.decl (.int [1]), .set 0 (.generate .aff 0)] = .error .ub :=
  ⟨(d229_dom _ (Or.inl rfl)).toEcSetting, by decide +kernel, by decide +kernel⟩

end Ack.Props
