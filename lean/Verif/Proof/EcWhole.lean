import Verif.Proof.EcDen
import Verif.Props.Alias
import Verif.Proof.Passes
/-! # Programs on curves: from bytes to variables -/
namespace Ack.Mem
open Big (Byte)
open Ack.Spec.Ec Ack.Spec.Prog Ack.Props

/-- The parameters, read. -/
structure Params (K : Kind) (d : DomBytes) (P N : ℕ) where
  p : Big
  a : Big
  b : Big
  gx : Big
  gy : Big
  n : Big
  ep : Big.ofBytes K.lim d.p = .ok p
  ea : Big.ofBytes K.lim d.a = .ok a
  eb : Big.ofBytes K.lim d.b = .ok b
  ex : Big.ofBytes K.lim d.gx = .ok gx
  ey : Big.ofBytes K.lim d.gy = .ok gy
  en : Big.ofBytes K.lim d.n = .ok n
  mp : Mod K.lim p P
  va : a.toInt = beVal d.a
  la : Elt p a
  vb : b.toInt = beVal d.b
  lb : Elt p b
  cx : gx.Canon
  vx : gx.toInt = beVal d.gx
  cy : gy.Canon
  vy : gy.toInt = beVal d.gy
  mn : Mod K.lim n N
  ip : K.dyn = true → p.ws.length ≤ K.N
  iN : K.dyn = true → n.ws.length ≤ K.N

section
variable {K : Kind} {d : DomBytes} {P N : ℕ}

theorem params (S : EcSetting K d P N) : Nonempty (Params K d P N) := by
  have hw : ∀ m : ℕ, 1 < m → 0 < words m := fun m hm => by
    unfold words; omega
  have f1 : Cap.fits K.lim 1 = true := Big.fits_mono S.roomP (by have := hw P (by have := S.big; omega); omega)
  have rd : ∀ s ∈ [d.p, d.a, d.b, d.gx, d.gy, d.n], ∃ x, Big.ofBytes K.lim s = .ok x ∧ x.Canon ∧ x.toInt = beVal s := by
    intro s hs
    rcases Ack.ofBytes_fits K.lim s f1 with ⟨-, h⟩ | ⟨h, -⟩
    · exact h
    · exact absurd (S.fits s hs) h
  obtain ⟨p, ep, cp, vp⟩ := rd d.p (by simp)
  obtain ⟨a, ea, ca, va⟩ := rd d.a (by simp)
  obtain ⟨b, eb, cb, vb⟩ := rd d.b (by simp)
  obtain ⟨gx, ex, cx, vx⟩ := rd d.gx (by simp)
  obtain ⟨gy, ey, cy, vy⟩ := rd d.gy (by simp)
  obtain ⟨n, en, cn, vn⟩ := rd d.n (by simp)
  rw [S.p] at vp
  rw [S.n] at vn
  have wp := words_nat cp vp
  have wn := words_nat cn vn
  have la := S.alt
  have lb := S.blt
  exact ⟨⟨p, a, b, gx, gy, n, ep, ea, eb, ex, ey, en, ⟨by unfold Room; rw [wp]; exact S.roomP, cp, vp, by have := S.big; omega⟩,
    va, ⟨ca, by omega, by omega⟩, vb, ⟨cb, by omega, by omega⟩, cx, vx, cy, vy,
    ⟨by unfold Room; rw [wn]; exact S.roomN, cn, vn, S.n1⟩, fun h => by rw [wp]; exact (S.inline h).1, fun h => by rw [wn]; exact (S.inline h).2⟩⟩

/-- Nothing will be changed. -/
abbrev D0 : Nat → Prop := fun _ => False

theorem ctx_init : Ctx K D0 BigSt.init := ⟨init_inv K, fun _ h => h.elim⟩

theorem Sim.newBytes {α β : Type} {R : BigSt → α → β → Prop} {D : Nat → Prop} {s : BigSt} (C : Ctx K D s) {f : Nat → M α} {v : Res β} {X : Big} {b : List Byte}
    (hf : Cap.fits K.lim 1 = true) (e : Big.ofBytes K.lim b = .ok X)
    (k : ∀ s' i, Grow K s s' → RepD D s' i X → Sim K R s' (f i) v) : Sim K R s (newObj (fun s => s.ofBytes K b) >>= f) v := by
  have hd := ofBytes_exact C.inv hf b
  rw [e] at hd
  obtain ⟨s', e', N1⟩ := hd
  exact Sim.step (newObj_run e') N1.grow (k s' _ N1.grow (C.fresh N1))

/-- The curve made of the parameters. -/
def Params.make (r : Params K d P N) : Res Curve := Curve.make K.lim 1 r.p r.a r.b r.gx r.gy r.n d.h

/-- The same, without the checks on the generator. -/
abbrev Params.curve (r : Params K d P N) : Curve :=
  ⟨1, r.p, r.a, r.b, ⟨r.gx, some r.p⟩, ⟨r.gy, some r.p⟩, r.n, d.h, Big.opEq r.a (Big.subs1 K.lim r.p 3), r.a.isZero, Big.sub K.lim r.p r.n⟩

theorem Params.make_cases (r : Params K d P N) : r.make = .ok r.curve ∨ r.make = .error .abort := by
  unfold Params.make Curve.make
  dsimp only
  cases h1 : r.curve.isValidInteger r.gx with
  | false => exact Or.inr rfl
  | true =>
    cases h2 : r.curve.isValidInteger r.gy with
    | false => exact Or.inr rfl
    | true => exact Or.inl rfl

theorem Params.make_err (r : Params K d P N) (S : EcSetting K d P N) (h : ¬ (beVal d.gx < P ∧ beVal d.gy < P)) : r.make = .error .abort := by
  have F : FC K r.p P _ := ⟨r.mp, S.big, r.ip, Spec.passes_big (by have := S.big; omega)⟩
  have vx := r.vx
  have vy := r.vy
  have vp := r.mp.eq
  unfold Params.make Curve.make
  dsimp only
  cases h1 : r.curve.isValidInteger r.gx with
  | false => rfl
  | true =>
    cases h2 : r.curve.isValidInteger r.gy with
    | false => rfl
    | true =>
      exfalso
      have l1 := (valid_elt F r.cx h1).lt
      have l2 := (valid_elt F r.cy h2).lt
      omega

theorem Params.fc (r : Params K d P N) (S : EcSetting K d P N) {fuel : ℕ} (hP : Spec.Passes P fuel) : FC K r.p P fuel := ⟨r.mp, S.big, r.ip, hP⟩

theorem Params.pc (r : Params K d P N) (S : EcSetting K d P N) {fuel : ℕ} (hP : Spec.Passes P fuel) (hN : N.size ≤ fuel) {C : Curve} (e : r.make = .ok C) :
    PC K r.p P N fuel C := by
  have hn : C.n = r.n := by
    rcases r.make_cases with h | h <;> rw [h] at e <;> cases e
    rfl
  exact ⟨r.fc S hP, by rw [hn]; exact r.mn, by rw [hn]; exact r.iN, hN⟩

theorem Params.program (r : Params K d P N) (ts : List EcStmt) :
    evProgram K.lim d ts = r.make >>= fun c => evExec K.lim c ts ⟨[], [], []⟩ := by
  unfold evProgram
  rw [r.ep, ok_bind, r.ea, ok_bind, r.eb, ok_bind, r.ex, ok_bind, r.ey, ok_bind, r.en, ok_bind]
  rfl

/-- **A whole program.** -/
theorem program_sim (r : Params K d P N) (S : EcSetting K d P N) {fuel : ℕ} (hP : Spec.Passes P fuel) (hN : N.size ≤ fuel) (ts : List EcStmt) :
    Sim K (fun s v V => ∃ C, r.make = .ok C ∧ VSim D0 D0 r.p C s v V) BigSt.init (ecProgram K fuel d ts) (evProgram K.lim d ts) := by
  have f1 := cap_fit1 r.mp
  rw [r.program]
  unfold ecProgram
  have C := ctx_init (K := K)
  refine Sim.newBytes C f1 r.ep fun s' _ g h1 => ?_
  lift g
  refine Sim.newBytes C f1 r.ea fun s' _ g h2 => ?_
  lift g
  refine Sim.newBytes C f1 r.eb fun s' _ g h3 => ?_
  lift g
  refine Sim.newBytes C f1 r.ex fun s' _ g h4 => ?_
  lift g
  refine Sim.newBytes C f1 r.ey fun s' _ g h5 => ?_
  lift g
  refine Sim.newBytes C f1 r.en fun s' _ g h6 => ?_
  lift g
  have hm := make_sim (r.fc S hP) C 1 d.h h1 h2 h3 h4 h5 h6 r.la r.lb r.cx r.cy
  change Sim K _ _ _ r.make at hm
  cases e : r.make with
  | error x => rw [e] at hm; exact bind_err hm
  | ok Cv =>
    rw [e] at hm
    obtain ⟨c, s1, em, g, hc⟩ := hm
    rw [ok_bind]
    refine Sim.step em g ?_
    have hx := exec_sim (r.pc S hP hN e) ts s1 ⟨[], [], []⟩ ⟨[], [], []⟩ (C.mono g) hc
      ⟨.nil, fun _ h => absurd h List.not_mem_nil, .nil, fun _ h => absurd h List.not_mem_nil, rfl⟩
    cases e1 : evExec K.lim Cv ts ⟨[], [], []⟩ with
    | error x => rw [e1] at hx; exact hx
    | ok V =>
      rw [e1] at hx
      obtain ⟨v, s2, e2, g2, h⟩ := hx
      exact ⟨v, s2, e2, g2, Cv, rfl, h⟩

variable [Fact P.Prime]

theorem Params.resA (r : Params K d P N) : res P r.a = ((beVal d.a : ℕ) : ZMod P) := by
  unfold res; rw [r.va]; push_cast; rfl
theorem Params.resB (r : Params K d P N) : res P r.b = ((beVal d.b : ℕ) : ZMod P) := by
  unfold res; rw [r.vb]; push_cast; rfl

/-- **The curve of proper parameters.** -/
theorem params_dom (r : Params K d P N) {G : (shortW (res P r.a) (res P r.b)).Point} (E : EcDomain K d N (res P r.a) (res P r.b) G) :
    r.make = .ok r.curve ∧ AnyDomain N K.lim r.curve G := by
  obtain ⟨x, y, hn, hG, hx, hy⟩ := E.g
  have vx := r.vx
  have vy := r.vy
  rw [hx] at vx
  rw [hy] at vy
  obtain ⟨c, ec, -, -, -, -, -, -, -, -, h3, h0, -⟩ := (make_spec (addr := 1) (b := r.b) (n := r.n) (h := d.h) r.mp (by have := E.big; omega) r.la r.cx r.cy).2
    (val_range vx vy)
  have em : r.make = .ok r.curve := by
    rcases r.make_cases with h | h
    · exact h
    · rw [show r.make = .ok c from ec] at h; cases h
  have : c = r.curve := by
    rw [show r.make = .ok c from ec] at em
    cases em; rfl
  subst this
  have K' : CurveOk P K.lim r.curve := ⟨r.mp, by have := E.big; omega, r.la, r.lb, E.b0, E.disc, h3.1, h0.1⟩
  refine ⟨em, K', E.big, r.mn, E.np, ?_, ?_, E.ord, rfl⟩
  · rw [hG]
    exact ⟨rfl, rep_val K' r.cx vx, rep_val K' r.cy vy⟩
  · rw [hG]
    exact WeierstrassCurve.Affine.Point.some_ne_zero hn

theorem rep_toInt {C : Curve} {cap : Cap} (hC : CurveOk P cap C) {a : Fe} {x : ZMod P} (h : Ack.Rep P C.p a x) : a.v.toInt = x.val := by
  have h1 := h.elt.nn
  have h2 := h.elt.lt
  rw [hC.M.eq] at h2
  rw [← h.val]
  unfold res
  rw [← Int.toNat_of_nonneg h1, Int.cast_natCast, ZMod.val_natCast, Nat.mod_eq_of_lt (by omega)]

/-- **What a program can read of a point.** -/
theorem read_point {C : Curve} {p : Big} {fuel : ℕ} (H : PC K p P N fuel C) (hC : CurveOk P K.lim C) {s : BigSt} (X : Ctx K D0 s)
    {q : PtR} {Q : PtV} (h : PtSim D0 D0 p s q Q) {k : Kd} {R : C.Pt P} (hd : PtDen C Q (k, R)) :
    ∃ s', q.read K fuel s = .ok (coords R, s') ∧ Grow K s s' := by
  obtain ⟨A, eA, hA⟩ := hd.conv hC .aff (Or.inl rfl)
  have hs := ptr_conv H X h .aff
  rw [eA] at hs
  obtain ⟨a, s', e, g, ha⟩ := hs
  cases A <;> first | exact False.elim hA | skip
  cases a <;> first | exact False.elim ha | skip
  rename_i A a
  refine ⟨s', ?_, g⟩
  unfold PtR.read
  rw [bind_run e]
  show (a.isIdentity >>= _) s' = _
  rw [bind_run (apt_isIdentity ha)]
  cases R with
  | zero => rw [show A.isIdentity = true from hA.1]; rfl
  | some x y hn =>
    rw [APt.Rep.not_id hC hA.1]
    have e1 := rep_toInt hC hA.1.2.1
    have e2 := rep_toInt hC hA.1.2.2
    have v1 := value_of ha.x.v.rep
    have v2 := value_of ha.y.v.rep
    rw [e1] at v1
    rw [e2] at v2
    simp only [Bool.false_eq_true, if_false]
    rw [bind_run (Is.ask v1), bind_run (Is.ask v2)]
    rfl

omit [Fact P.Prime] in
theorem readInts_is {s : BigSt} {e : List ℤ} : ∀ {l : List Nat} {L : List Big}, List.Forall₂ (RepD D0 s) l L →
    List.Forall₂ (fun X x => X.Canon ∧ X.toInt = x) L e → Is s (readInts l) e := by
  intro l L h
  induction h generalizing e with
  | nil => intro h'; cases h'; exact Is.pure _
  | cons h1 _ ih =>
    intro h'
    cases h' with
    | cons h2 h3 =>
      unfold readInts
      refine Is.bind (Is.ask (value_of h1.rep)) (Is.bind (ih h3) ?_)
      rw [h2.2]
      exact Is.pure _

theorem readPts_run {C : Curve} {p : Big} {fuel : ℕ} (H : PC K p P N fuel C) (hC : CurveOk P K.lim C) :
    ∀ {l : List PtR} {L : List PtV} {e : List (Kd × C.Pt P)} {s : BigSt}, Ctx K D0 s → List.Forall₂ (PtSim D0 D0 p s) l L →
    List.Forall₂ (PtDen C) L e → ∃ s', readPts K fuel l s = .ok (e.map fun Q => coords Q.2, s') ∧ Grow K s s'
  | [], L, e, s, X, h, d => by
    cases h; cases d
    exact ⟨s, rfl, Grow.refl X.inv⟩
  | _ :: _, L, e, s, X, h, d => by
    cases h with
    | cons h1 h2 =>
      cases d with
      | @cons _ R _ _ d1 d2 =>
        obtain ⟨k, R⟩ := R
        obtain ⟨s1, e1, g1⟩ := read_point H hC X h1 d1
        obtain ⟨s2, e2, g2⟩ := readPts_run H hC (X.mono g1) (h2.imp fun _ _ r => r.mono g1) d2
        refine ⟨s2, ?_, g1.trans g2⟩
        unfold readPts
        rw [bind_run e1, bind_run e2]
        rfl

end
end Ack.Mem
