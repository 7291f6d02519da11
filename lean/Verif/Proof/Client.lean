import Verif.Spec.Client
import Verif.Proof.PtProg
import Verif.Proof.KeyTotal
/-! # Clients: on memory they follow the value model, which computes in the group -/
namespace Ack.Mem
open Big (Byte)
open Ack.Spec.Ec Ack.Spec.Key Ack.Spec.Client

section
variable {K : Kind} {B : Nat} {D D1 E : Nat → Prop} {p : Big} {P N fuel : ℕ} {s s' : BigSt} {C' : Curve} {v : KVars} {V : KVals}

/-- A declaration has added one variable. -/
def KAdded (D E : Nat → Prop) (p : Big) (C' : Curve) (v : KVars) (V : KVals) (s : BigSt) (v' : KVars) (V' : KVals) : Prop :=
  (∃ w W, Added D E p C' v.ec V.ec s w W ∧ v' = { v with ec := w } ∧ V' = { V with ec := W }) ∨
    ∃ b, v' = { v with bytes := v.bytes ++ [b] } ∧ V' = { V with bytes := V.bytes ++ [b] }

theorem Sim.addAff {m : M APtR} {w : Res APt} (hs : Sim K (ASim D E p) s m w) (ho : Only (OwnA C') w) :
    Sim K (KAdded D E p C' v V) s (m >>= fun q => (Pure.pure (v.addPt q) : M KVars)) (w >>= fun q => (Pure.pure (V.addPt q) : Res KVals)) := by
  cases w with
  | error e => exact bind_err hs
  | ok Q =>
    obtain ⟨q, s', e, g, r⟩ := hs
    exact Sim.step e g (Sim.pure g.inv (.inl ⟨_, _, .inr (.inl ⟨.aff q, .aff Q, r, ho Q rfl, rfl, rfl⟩), rfl, rfl⟩))

theorem Sim.strAt {α β : Type} {R : BigSt → α → β → Prop} {f : List Byte → M α} {g : List Byte → Res β} (I : Inv K s.mem) (h : v.bytes = V.bytes)
    (i : Nat) (k : ∀ b, V.bytes[i]? = some b → Sim K R s (f b) (g b)) : Sim K R s (v.str i >>= f) (V.str i >>= g) := by
  unfold KVars.str KVals.str
  rw [h]
  cases e : V.bytes[i]? with
  | none => exact bind_err rfl
  | some b => exact Sim.step (a := b) (s' := s) rfl (Grow.refl I) (k b e)

theorem Sim.intOf {α β : Type} {R : BigSt → α → β → Prop} {f : Nat → M α} {g : Big → Res β} (I : Inv K s.mem) (h : VSim D1 E p C' s v.ec V.ec) (i : Nat)
    (k : ∀ x X, RepD D1 s x X → X.Canon → V.ec.ints[i]? = some X → Sim K R s (f x) (g X)) :
    Sim K R s (v.ec.int i >>= f) (V.ec.int i >>= g) := by
  unfold EcVars.int EcVals.int
  rcases forall₂_get h.ints i with ⟨e1, e2⟩ | ⟨a, b, e1, e2, r⟩
  · rw [e1, e2]; exact bind_err rfl
  · rw [e1, e2]
    exact Sim.step (a := a) (s' := s) rfl (Grow.refl I) (k a b r (h.canon b (List.mem_of_getElem? e2)) e2)

/-- The curve and the variables. -/
structure KInv (K : Kind) (B : Nat) (p : Big) (C : Curve) (s : BigSt) (c : CurveR) (v : KVars) (V : KVals) : Prop where
  ec : MInv K B p C s c v.ec V.ec
  bytes : v.bytes = V.bytes

theorem KInv.grow {c : CurveR} (M : KInv K B p C' s c v V) (g : Grow K s s') : KInv K B p C' s' c v V :=
  ⟨⟨g.inv, Nat.le_trans M.ec.len g.len, M.ec.cur.mono g, M.ec.vars.mono g, M.ec.nd⟩, M.bytes⟩

theorem KInv.add {c : CurveR} (M : KInv K B p C' s c v V) {v' : KVars} {V' : KVals} (g : Grow K s s')
    (a : KAdded (Since s.mem.objs.length) (From B) p C' v V s' v' V') : KInv K B p C' s' c v' V' := by
  rcases a with ⟨w, W, a, rfl, rfl⟩ | ⟨b, rfl, rfl⟩
  · exact ⟨M.ec.add g a, M.bytes⟩
  · exact ⟨(M.grow g).ec, by rw [M.bytes]⟩

/-- What the right sides need. -/
def CFine (P N : ℕ) (C : Curve) (V : KVals) : CStmt → Prop
  | .decl t => KFine P N C V t
  | .set _ t => KFine P N C V t
  | _ => True

variable [Fact P.Prime]

theorem kstep_add (H : PC K p P N fuel C') (C : Ctx K D s) {c : CurveR} (hc : CSim E p s c C') (hpm : C'.pMinusN = Big.sub K.lim C'.p C'.n)
    (h : VSim D1 E p C' s v.ec V.ec) (hb : v.bytes = V.bytes) (t : KStmt) (ht : KFine P N C' V t) :
    Sim K (KAdded D E p C' v V) s (kStep K fuel c v t) (kvStep K.lim C' V t) := by
  have hp := hc.hp
  cases t with
  | ec t =>
    simp only [kStep, kvStep]
    exact Sim.wrap (step_add H C hc h t) fun _ _ _ r => .inl ⟨_, _, r, rfl, rfl⟩
  | decompress x odd ver =>
    simp only [kStep, kvStep]
    refine Sim.intOf C.inv h x fun i X r cX eX => ?_
    exact Sim.addAff (decompressInt_sim H.F C hc r cX odd ver fun hv => hp ▸ ht hv X eX) (own_decompressInt _ _ _ _)
  | decode e =>
    simp only [kStep, kvStep]
    exact Sim.addAff (decode_sim H.F C hc e ht) (own_decode _ _)
  | decodeVar i =>
    simp only [kStep, kvStep]
    refine Sim.strAt C.inv hb i fun e he => ?_
    exact Sim.addAff (decode_sim H.F C hc e (ht e he)) (own_decode _ _)
  | encode q compress =>
    simp only [kStep, kvStep]
    refine Sim.pt C.inv h q fun q Q r _ => ?_
    have r := r.weak (D1 := D0) (E1 := D0) (fun _ h => h.elim) (fun _ h => h.elim)
    obtain q | q | q := q <;> obtain Q | Q | Q := Q <;> first | exact False.elim r | exact bind_err rfl | skip
    show Sim K _ s (inScope (CurveR.encode K q compress) >>= _) _
    obtain ⟨b, s', e, g, rfl⟩ := Sim.scope (encode_sim H.F ⟨C.inv, fun _ h => h.elim⟩ r compress)
    exact Sim.step e g (Sim.pure g.inv (.inr ⟨_, rfl, rfl⟩))
  | recover msg r t k ver =>
    simp only [kStep, kvStep]
    refine Sim.intOf C.inv h r fun i X ri cX _ => Sim.intOf C.inv h t fun j Y rj cY _ => ?_
    exact Sim.addAff (recover_sim H.F C hc H.n H.hN H.hf ht hpm ri rj cX cY msg k ver) (own_recover _ _ _ _ _ _)

theorem kset_run (H : PC K p P N fuel C') (hpm : C'.pMinusN = Big.sub K.lim C'.p C'.n) {c : CurveR} (M : KInv K B p C' s c v V) (q : Nat)
    (t : KStmt) (ht : KFine P N C' V t) :
    match V.setPt K.lim C' q t with
    | .error e => v.setPt K fuel c q t s = .error e
    | .ok V' => ∃ v' s', v.setPt K fuel c q t s = .ok (v', s') ∧ KInv K B p C' s' c v' V' := by
  have hs := kstep_add (D := Since s.mem.objs.length) H ⟨M.ec.inv, fun _ h => h⟩ M.ec.cur hpm M.ec.vars M.bytes t ht
  have hw : Sim K (fun s1 w W => Added (Since s.mem.objs.length) (From B) p C' v.ec V.ec s1 w W ∨ w = v.ec ∧ W = V.ec) s
      (kStep K fuel c v t >>= fun w => (Pure.pure w.ec : Ack.Mem.M EcVars)) (kvStep K.lim C' V t >>= fun w => (Pure.pure w.ec : Res EcVals)) :=
    Sim.wrap hs fun s1 a b r => by
      rcases r with ⟨w, W, a, rfl, rfl⟩ | ⟨b, rfl, rfl⟩
      · exact .inl a
      · exact .inr ⟨rfl, rfl⟩
  have h := set_run M.ec q hw rfl
  unfold KVals.setPt KVars.setPt
  cases e : V.ec.setPt q (kvStep K.lim C' V t >>= fun w => (Pure.pure w.ec : Res EcVals)) with
  | error x => rw [e] at h; exact bind_err h
  | ok W =>
    rw [e] at h
    obtain ⟨w, s', e', M'⟩ := h
    exact ⟨_, _, bind_run e', M', M.bytes⟩

/-- **One statement on memory.** -/
theorem cstep_run (H : PC K p P N fuel C') (hpm : C'.pMinusN = Big.sub K.lim C'.p C'.n) {c : CurveR} (M : KInv K B p C' s c v V) (t : CStmt)
    (ht : CFine P N C' V t) :
    match cvStep K.lim C' V t with
    | .error e => cStep K fuel c v t s = .error e
    | .ok V' => ∃ v' s', cStep K fuel c v t s = .ok (v', s') ∧ KInv K B p C' s' c v' V' := by
  cases t with
  | decl t =>
    have hs := kstep_add (D := Since s.mem.objs.length) H ⟨M.ec.inv, fun _ h => h⟩ M.ec.cur hpm M.ec.vars M.bytes t ht
    unfold cvStep cStep
    dsimp only
    cases e : kvStep K.lim C' V t with
    | error x => rw [e] at hs; exact hs
    | ok V' =>
      rw [e] at hs
      obtain ⟨v', s', e', g, a⟩ := hs
      exact ⟨v', s', e', M.add g a⟩
  | set q t => exact kset_run H hpm M q t ht
  | addTo q r => exact kset_run H hpm M q (.ec (.add q r)) trivial
  | subFrom q r => exact kset_run H hpm M q (.ec (.sub q r)) trivial
  | mulBy q x => exact kset_run H hpm M q (.ec (.mul q x)) trivial
  | copy q r =>
    have h := pt_step H M.ec (.copy q r)
    unfold cvStep cStep
    dsimp only
    cases e : pvStep K.lim C' V.ec (.copy q r) with
    | error x => rw [e] at h; exact bind_err h
    | ok W =>
      rw [e] at h
      obtain ⟨w, s', e', M'⟩ := h
      exact ⟨_, _, bind_run e', M', M.bytes⟩

end

/-! ### In the group -/

section
variable {P : ℕ} [Fact P.Prime] {N : ℕ} {cap : Cap} {C : Curve} {G : C.Pt P} {V : KVals} {e : KEnv (C.W P)}

theorem kden_set (D : AnyDomain N cap C G) (h : KDen C V e) {q : ℕ} {k : Kd} {Q R : C.Pt P} {t : KStmt} (hq : e.ec.pts[q]? = some (k, Q))
    (ht : KDoes cap N G e t { e with ec := { e.ec with pts := e.ec.pts ++ [(k, R)] } }) :
    KFine P N C V t ∧ ∃ V', V.setPt cap C q t = .ok V' ∧ KDen C V' (become e q (k, R)) := by
  obtain ⟨A, eA, dA⟩ := den_get h.ec.pts hq
  obtain ⟨f, V', e', d'⟩ := kden_step D h ht
  refine ⟨f, ?_⟩
  unfold KVals.setPt
  rw [EcVals.setPt_ok (V' := V'.ec) eA (by rw [e']; rfl)]
  obtain ⟨R', eR, dR⟩ := den_get d'.ec.pts (i := V.ec.pts.length) (k := k) (Q := R) (by rw [h.ec.pts.length_eq]; exact List.getElem?_concat_length)
  rw [eR]
  dsimp only
  rw [dA.become dR]
  exact ⟨_, rfl, h.ec.put dR, h.bytes⟩

/-- **One statement within its domain.** -/
theorem cden_step (D : AnyDomain N cap C G) (h : KDen C V e) {t : CStmt} {e' : KEnv (C.W P)} (ht : CDoes cap N G e t e') :
    CFine P N C V t ∧ ∃ V', cvStep cap C V t = .ok V' ∧ KDen C V' e' := by
  cases ht with
  | decl ht => exact kden_step D h ht
  | set hq ht => exact kden_set D h hq ht
  | addTo hq hr => exact ⟨trivial, (kden_set D h hq (.ec (.add hq hr))).2⟩
  | subFrom hq hr => exact ⟨trivial, (kden_set D h hq (.ec (.sub hq hr))).2⟩
  | mulBy hq hx hr => exact ⟨trivial, (kden_set D h hq (.ec (.mul hq hx hr))).2⟩
  | @copy q r k Q R hq hr =>
    obtain ⟨W, e1, d1⟩ := pden_step D h.ec (.copy hq hr)
    refine ⟨trivial, { V with ec := W }, ?_, d1, h.bytes⟩
    unfold cvStep
    dsimp only
    rw [e1]; rfl

/-- **A statement that stops.** -/
theorem cden_stop (D : AnyDomain N cap C G) (h : KDen C V e) {t : CStmt} (ht : CStops cap N e t) :
    CFine P N C V t ∧ cvStep cap C V t = .error .abort := by
  cases ht with
  | decl ht => exact kden_stop D h ht
  | @set q k Q t hq ht =>
    obtain ⟨A, eA, dA⟩ := den_get h.ec.pts hq
    obtain ⟨f, e'⟩ := kden_stop D h ht
    refine ⟨f, ?_⟩
    unfold cvStep KVals.setPt EcVals.setPt EcVals.pt
    dsimp only
    rw [eA, e']
    rfl

end

/-! ### Arbitrary points -/

section
variable {P : ℕ} [Fact P.Prime] {N : ℕ} {cap : Cap} {C : Curve} {G : C.Pt P} {V : KVals} {xs : List ℤ} {ks : List Kd} {n : ℕ}

theorem cform_set (D : AnyDomain N cap C G) (h : KShape P cap C V xs ks n) {q : ℕ} {k : Kd} {t : KStmt} (hq : ks[q]? = some k)
    (ht : KForm P N xs ks n t xs (ks ++ [k]) n) :
    KFine P N C V t ∧ ((∃ V', V.setPt cap C q t = .ok V' ∧ KShape P cap C V' xs ks n) ∨ V.setPt cap C q t = .error .abort) := by
  obtain ⟨A, eA, dA⟩ := any_get h.ec.pts hq
  obtain ⟨f, h'⟩ := kform_step D h ht
  refine ⟨f, ?_⟩
  rcases h' with ⟨V', e', d'⟩ | ⟨e', -⟩
  · left
    unfold KVals.setPt
    rw [EcVals.setPt_ok (V' := V'.ec) eA (by rw [e']; rfl)]
    obtain ⟨R', eR, dR⟩ := any_get d'.ec.pts (i := V.ec.pts.length) (k := k) (by rw [h.ec.pts.length_eq]; exact List.getElem?_concat_length)
    rw [eR]
    dsimp only
    rw [dA.become dR]
    exact ⟨_, rfl, h.ec.put hq dR, h.len, h.fine⟩
  · right
    unfold KVals.setPt EcVals.setPt EcVals.pt
    rw [eA, e']
    rfl

theorem cform_step (D : AnyDomain N cap C G) (h : KShape P cap C V xs ks n) {t : CStmt} {ys : List ℤ} {ls : List Kd} {m : ℕ}
    (ht : CForm P N xs ks n t ys ls m) :
    CFine P N C V t ∧ ((∃ V', cvStep cap C V t = .ok V' ∧ KShape P cap C V' ys ls m) ∨ cvStep cap C V t = .error .abort) := by
  cases ht with
  | decl ht =>
    obtain ⟨f, h'⟩ := kform_step D h ht
    exact ⟨f, h'.imp id And.left⟩
  | set hq ht => exact cform_set D h hq ht
  | addTo hq hr => exact ⟨trivial, (cform_set D h hq (.ec (.add hq hr))).2⟩
  | subFrom hq hr => exact ⟨trivial, (cform_set D h hq (.ec (.sub hq hr))).2⟩
  | mulBy hq hx => exact ⟨trivial, (cform_set D h hq (.ec (.mul hq hx))).2⟩
  | @copy q r k hq hr =>
    refine ⟨trivial, ?_⟩
    unfold cvStep
    dsimp only
    rcases pform_step D h.ec (.copy hq hr) with ⟨W, e1, d1⟩ | ⟨e1, -⟩
    · rw [e1]; exact .inl ⟨_, rfl, d1, h.len, h.fine⟩
    · rw [e1]; exact .inr rfl

end

/-! ### Clients -/

section
variable {K : Kind} {B : Nat} {p : Big} {P N fuel : ℕ} [Fact P.Prime] {C' : Curve} {G : C'.Pt P} {F : Client} {c : CurveR}

theorem look_den (H : PC K p P N fuel C') (D : AnyDomain N K.lim C' G) {s : BigSt} {v : KVars} {V : KVals} {e : KEnv (C'.W P)}
    (M : KInv K B p C' s c v V) (d : KDen C' V e) : ∃ s', look K fuel v s = .ok (sight e, s') ∧ KInv K B p C' s' c v V := by
  have X : Ctx K D0 s := ⟨M.ec.inv, fun _ h => h.elim⟩
  have hv := M.ec.plain
  obtain ⟨s', e1, g1⟩ := readPts_run H D.K X hv.pts d.ec.pts
  have e2 := readInts_is (hv.mono g1).ints d.ec.ints
  refine ⟨s', ?_, M.grow g1⟩
  unfold look
  rw [bind_run e1, bind_run e2]
  show Except.ok _ = _
  rw [hv.bools, d.ec.bools, M.bytes, d.bytes]
  rfl

theorem look_any (H : PC K p P N fuel C') (D : AnyDomain N K.lim C' G) {s : BigSt} {v : KVars} {V : KVals} {xs : List ℤ} {ks : List Kd} {n : ℕ}
    (M : KInv K B p C' s c v V) (d : KShape P K.lim C' V xs ks n) :
    ∃ o s', look K fuel v s = .ok (o, s') ∧ KInv K B p C' s' c v V ∧ Shows P xs ks n o := by
  have X : Ctx K D0 s := ⟨M.ec.inv, fun _ h => h.elim⟩
  have hv := M.ec.plain
  obtain ⟨cs, s', e1, g1, l1, r1⟩ := readPts_any H D.K X hv.pts d.ec.pts
  have e2 := readInts_is (hv.mono g1).ints (d.ec.ints.imp fun _ _ h => ⟨h.1, h.2.2⟩)
  refine ⟨⟨xs, cs, v.ec.bools, v.bytes⟩, s', ?_, M.grow g1, rfl, l1, by rw [M.bytes]; exact d.len, r1⟩
  unfold look
  rw [bind_run e1, bind_run e2]
  rfl

variable (H : PC K p P N fuel C') (D : AnyDomain N K.lim C' G) (hpm : C'.pMinusN = Big.sub K.lim C'.p C'.n)
include H D hpm

theorem play_runs {n : ℕ} {h h' : List KSight} {e : KEnv (C'.W P)} (hp : Plays K.lim N G F n h e h') :
    ∀ {s : BigSt} {v : KVars} {V : KVals}, KInv K B p C' s c v V → KDen C' V e → ∃ s', play K fuel c F n h v s = .ok (h', s') := by
  induction hp with
  | out h e =>
    intro s v V M d
    obtain ⟨s1, e1, -⟩ := look_den H D M d
    exact ⟨s1, by unfold play; rw [bind_run e1]; rfl⟩
  | done n hF =>
    intro s v V M d
    obtain ⟨s1, e1, -⟩ := look_den H D M d
    exact ⟨s1, by unfold play; rw [bind_run e1, hF]; rfl⟩
  | step hF ht _ ih =>
    intro s v V M d
    obtain ⟨s1, e1, M1⟩ := look_den H D M d
    obtain ⟨f, V', e2, d2⟩ := cden_step D d ht
    have hs := cstep_run H hpm M1 _ f
    rw [e2] at hs
    obtain ⟨v', s2, e3, M2⟩ := hs
    obtain ⟨s3, e4⟩ := ih M2 d2
    exact ⟨s3, by unfold play; rw [bind_run e1, hF]; exact (bind_run e3).trans e4⟩

theorem play_halts {n : ℕ} {h : List KSight} {e : KEnv (C'.W P)} (hp : Halts K.lim N G F n h e) :
    ∀ {s : BigSt} {v : KVars} {V : KVals}, KInv K B p C' s c v V → KDen C' V e → play K fuel c F n h v s = .error .abort := by
  induction hp with
  | stop n hF ht =>
    intro s v V M d
    obtain ⟨s1, e1, M1⟩ := look_den H D M d
    obtain ⟨f, e2⟩ := cden_stop D d ht
    have hs := cstep_run H hpm M1 _ f
    rw [e2] at hs
    unfold play
    rw [bind_run e1, hF]
    exact bind_err hs
  | step hF ht _ ih =>
    intro s v V M d
    obtain ⟨s1, e1, M1⟩ := look_den H D M d
    obtain ⟨f, V', e2, d2⟩ := cden_step D d ht
    have hs := cstep_run H hpm M1 _ f
    rw [e2] at hs
    obtain ⟨v', s2, e3, M2⟩ := hs
    unfold play
    rw [bind_run e1, hF]
    exact (bind_run e3).trans (ih M2 d2)

theorem play_any {I : List KSight → List ℤ → List Kd → ℕ → Prop}
    (hI : ∀ h xs ks n o, I h xs ks n → Shows P xs ks n o → ∀ t, F (o :: h) = some t → ∃ ys ls m, CForm P N xs ks n t ys ls m ∧ I (o :: h) ys ls m) :
    ∀ (j : ℕ) {h : List KSight} {xs : List ℤ} {ks : List Kd} {n : ℕ} {s : BigSt} {v : KVars} {V : KVals}, I h xs ks n →
    KInv K B p C' s c v V → KShape P K.lim C' V xs ks n →
    play K fuel c F j h v s = .error .abort ∨ ∃ h' s', play K fuel c F j h v s = .ok (h', s') ∧ h'.length ≤ h.length + j + 1 ∧
      (h'.length < h.length + j + 1 → F h' = none)
  | 0, h, xs, ks, n, s, v, V, _, M, d => by
    obtain ⟨o, s1, e1, -, -⟩ := look_any H D M d
    exact .inr ⟨_, s1, by unfold play; rw [bind_run e1]; rfl, by simp, fun h => by simp at h⟩
  | j + 1, h, xs, ks, n, s, v, V, hh, M, d => by
    obtain ⟨o, s1, e1, M1, sh⟩ := look_any H D M d
    unfold play
    rw [bind_run e1]
    cases hF : F (o :: h) with
    | none => exact .inr ⟨_, s1, rfl, by simp, fun _ => hF⟩
    | some t =>
      obtain ⟨ys, ls, m, hf, h1⟩ := hI h xs ks n o hh sh t hF
      obtain ⟨f, h2⟩ := cform_step D d hf
      have hs := cstep_run H hpm M1 _ f
      rcases h2 with ⟨V', e2, d2⟩ | e2
      · rw [e2] at hs
        obtain ⟨v', s2, e3, M2⟩ := hs
        rcases play_any hI j h1 M2 d2 with e4 | ⟨h', s3, e4, l4, k4⟩
        · exact .inl ((bind_run e3).trans e4)
        · refine .inr ⟨h', s3, (bind_run e3).trans e4, ?_, fun hl => k4 ?_⟩ <;> simp only [List.length_cons] at * <;> omega
      · rw [e2] at hs
        exact .inl (bind_err hs)

end

/-- The beginning. -/
theorem client_start {K : Kind} {d : DomBytes} {P N fuel : ℕ} (r : Params K d P N) (S : EcSetting K d P N) (hP : Spec.Passes P fuel) {Cv : Curve}
    (em : r.make = .ok Cv) : ∃ B c s, startCurve K d BigSt.init = .ok (c, s) ∧ KInv K B r.p Cv s c ⟨⟨[], [], []⟩, []⟩ ⟨⟨[], [], []⟩, []⟩ := by
  have hm := start_sim r S hP
  rw [em] at hm
  obtain ⟨c, s1, e1, g, hc⟩ := hm
  exact ⟨s1.mem.objs.length, c, s1, e1, ⟨g.inv, Nat.le_refl _, hc.weak fun i hi h => absurd h (Nat.not_le.2 hi),
    ⟨.nil, fun _ h => absurd h List.not_mem_nil, .nil, fun _ h => absurd h List.not_mem_nil, rfl⟩, List.nodup_nil⟩, rfl⟩

end Ack.Mem
