import Verif.Proof.KeySqrt
import Verif.Proof.EcCode
/-! # Compressed points, encodings and key recovery on memory follow the value model -/
namespace Ack.Mem
open Big (Byte)

attribute [local irreducible] FeR.add FeR.sub FeR.mul FeR.mulS FeR.sqr FeR.div FeR.neg FeR.inv FeR.bigMul FeR.addB FeR.subB FeR.sqrt
  Fe.add Fe.sub Fe.mul Fe.mulS Fe.sqr Fe.div Fe.neg Fe.inv Fe.bigMul Fe.addB Fe.subB Fe.sqrt

section
variable {K : Kind} {s : BigSt}

theorem Sim.cond {α β : Type} {R : BigSt → α → β → Prop} {c : Prop} [Decidable c] {m m' : M α} {v v' : Res β}
    (h1 : c → Sim K R s m v) (h2 : ¬ c → Sim K R s m' v') : Sim K R s (if c then m else m') (if c then v else v') := by
  by_cases h : c
  · rw [if_pos h, if_pos h]; exact h1 h
  · rw [if_neg h, if_neg h]; exact h2 h

theorem load_eq {x k : Nat} {X : Big} (h : Rep s x X) (hk : k < X.ws.length) : s.load x k = .ok (X.ws[k]?.getD 0) := by
  obtain ⟨o, H, hl⟩ := h
  rw [load_ok H.obj (by omega) H.has hk, List.getElem?_eq_getElem hk]; rfl

theorem testBit_eq {x i : Nat} {X : Big} (h : Rep s x X) : s.testBit x i = .ok (X.testBit i) := by
  have hs : s.size x = X.ws.length := h.size_eq
  unfold BigSt.testBit Big.testBit
  dsimp only
  rw [hs]
  by_cases hi : i / 32 ≥ X.ws.length
  · rw [if_pos hi, if_pos hi]
  · rw [if_neg hi, if_neg hi, load_eq h (by omega), ok_bind]

theorem bytesGo_eq {x : Nat} {X : Big} (h : Rep s x X) : ∀ n, n ≤ 4 * X.ws.length → s.bytesGo x n = .ok (Big.bytesGo X n)
  | 0, _ => rfl
  | n + 1, hn => by
    unfold BigSt.bytesGo Big.bytesGo Big.byteAt
    rw [load_eq h (by omega), ok_bind, bytesGo_eq h n (by omega), ok_bind]

theorem toBytes_eq {x : Nat} {X : Big} (h : Rep s x X) (c : X.Canon) : s.toBytes x = .ok X.toBytes := by
  unfold BigSt.toBytes
  rw [byteLength_eq h, ok_bind, bytesGo_eq h]
  · unfold Big.toBytes Big.getBytes
    simp
  · have := bitLength_le_words c
    unfold Big.byteLength
    omega

end

section
variable {K : Kind} {D D1 D2 E : Nat → Prop} {p : Big} {P fuel : ℕ} {s : BigSt}
variable (F : FC K p P fuel) (C : Ctx K D s)
include F C

/-! ### Encodings -/

omit F C in
theorem fe_isValid {a : FeR} {A : Fe} (h : FeSim D D p s a A) : Is s a.isValid A.isValid := by
  unfold FeR.isValid Fe.isValid Fp.isValid
  rcases h.pm with ⟨e1, e2⟩ | ⟨i, e1, e2, r⟩
  · rw [e1, e2]; exact Is.pure _
  · rw [e1, e2]
    exact Is.bind (Is.ask (ltS_mem h.v.rep 0)) (Is.and (Is.ask (opLt_mem h.v.rep r.rep)))

theorem fe_maxByteLength {a : FeR} {A : Fe} (h : FeSim D D p s a A) :
    Sim K (fun _ a b => a = b) s (a.maxByteLength K) (.ok (A.maxByteLength K.lim)) := by
  have M := F.M
  unfold FeR.maxByteLength
  refine Sim.scope ?_
  have hv := fe_isValid h
  rcases h.pm with ⟨e1, e2⟩ | ⟨i, e1, e2, r⟩
  · have : A.isValid = false := by unfold Fe.isValid; rw [e2]
    rw [this] at hv
    refine Sim.test C.inv hv ?_
    rw [if_pos (show (!false) = true from rfl)]
    refine Sim.pure C.inv ?_
    unfold Fe.maxByteLength; rw [e2]
  refine Sim.test C.inv hv ?_
  have hA : A.isValid = Fp.isValid A.v p := by unfold Fe.isValid; rw [e2]
  unfold Fe.maxByteLength
  rw [hA, e2]
  dsimp only
  cases hb : Fp.isValid A.v p with
  | false => exact Sim.pure C.inv rfl
  | true =>
    rw [if_neg (by decide), if_pos rfl]
    have e3 : a.deref s = .ok (i, s) := by unfold FeR.deref; rw [e1]; rfl
    refine Sim.step e3 (Grow.refl C.inv) ?_
    obtain ⟨s2, R, e4, N2, S2⟩ := subsNew_new C.inv (Mod.fit1 M) r.rep 1
    have hv := Big.addu1Go_spec K.lim p 1 true M.canon
      (fun N e => by have := r.rep.fits C.inv (Nat.le_refl _); rw [e] at this; simpa [Cap.fits] using this)
    have hpos : 0 < p.toInt - 1 := by rw [M.eq]; have := F.big; omega
    have hR : R = Big.subs1 K.lim p 1 := by
      refine big_ext (S2.canon hv.1) hv.1 ?_ S2.toInt
      rw [S2.toInt]
      rcases hv.2.2 with h | ⟨-, h, -⟩
      · exact lt_of_lt_of_eq hpos (by rw [show Big.subs1 K.lim p 1 = Big.addu1Go K.lim p 1 true from rfl, h]; simp; omega)
      · rw [neg_of_pos (by omega : 0 < p.toInt)] at h; exact absurd h (by decide)
    subst hR
    exact Sim.step (newObj_run e4) N2.grow (Sim.ask N2.inv (Is.ask (byteLength_eq N2.res)))

theorem fe_toBytes {a : FeR} {A : Fe} (h : FeSim D D p s a A) : Sim K (fun _ a b => a = b) s (a.toBytes K) (.ok (A.toBytes K.lim)) := by
  unfold FeR.toBytes Fe.toBytes FeR.toBytesLen Fe.toBytesLen
  obtain ⟨l, s', e, g, rfl⟩ := fe_maxByteLength F C h
  refine Sim.step e g ?_
  lift g
  refine Sim.test C.inv (fe_isValid h) ?_
  cases A.isValid with
  | false => exact Sim.pure C.inv rfl
  | true => exact Sim.test C.inv (Is.ask (toBytes_eq h.v.rep h.elt.c)) (Sim.pure C.inv rfl)

theorem encode_sim {q : APtR} {Q : APt} (h : ASim D D p s q Q) (compress : Bool) :
    Sim K (fun _ a b => a = b) s (CurveR.encode K q compress) (.ok (Curve.encode K.lim Q compress)) := by
  unfold CurveR.encode Curve.encode
  refine Sim.test C.inv (apt_isIdentity h) ?_
  cases Q.isIdentity with
  | true => exact Sim.pure C.inv rfl
  | false =>
    cases compress with
    | true =>
      refine Sim.test C.inv (Is.ask (testBit_eq h.y.v.rep)) ?_
      obtain ⟨l, s', e, g, rfl⟩ := fe_toBytes F C h.x
      exact Sim.step e g (Sim.pure g.inv rfl)
    | false =>
      obtain ⟨l, s', e, g, rfl⟩ := fe_toBytes F C h.x
      refine Sim.step e g ?_
      lift g
      obtain ⟨l, s', e, g, rfl⟩ := fe_toBytes F C h.y
      exact Sim.step e g (Sim.pure g.inv rfl)

/-! ### Compressed points -/

theorem computeY_sim [Fact P.Prime] {c : CurveR} {C' : Curve} {x : FeR} {X : Fe} (h : CSim E p s c C') (hx : FeSim D1 E p s x X) (odd : Bool) :
    Sim K (FeSim D E p) s (c.computeY K fuel x odd) (C'.computeY K.lim X odd) := by
  unfold CurveR.computeY Curve.computeY
  refine Sim.bind (fe_sqr F C hx) ?_
  intro s' _ _ g h1
  lift g
  refine Sim.bind (fe_addB F C h1 h.a h.ea) ?_
  intro s' _ _ g h2
  lift g
  refine Sim.bind (fe_mul F C h2 hx) ?_
  intro s' _ _ g h3
  lift g
  refine Sim.bind (fe_addB F C h3 h.b h.eb) ?_
  intro s' _ _ g h4
  lift g
  refine Sim.bind (fe_sqrt F C h4) ?_
  intro s' _ _ g h5
  lift g
  refine Sim.test C.inv (Is.ask (testBit_eq h5.v.rep)) ?_
  exact Sim.ite (fun _ => fe_neg F C h5) fun _ => Sim.pure C.inv h5

theorem decompress_sim [Fact P.Prime] {c : CurveR} {C' : Curve} {x : FeR} {X : Fe} (h : CSim E p s c C') (hx : FeSim D E p s x X) (odd : Bool) :
    Sim K (ASim D E p) s (c.decompress K fuel x odd) (C'.decompress K.lim X odd) := by
  unfold CurveR.decompress Curve.decompress
  obtain ⟨n, hn, Cn, w⟩ := C.mark
  have k := hx.below hn
  refine Sim.bind (computeY_sim F Cn h hx odd) ?_
  intro s' _ _ g h1
  lift g
  refine Sim.test C.inv (fe_isZero h1) ?_
  exact Sim.ite (fun _ => apt_identity F C) fun _ => Sim.pure C.inv ⟨OSim.some h, hx, h1.old w, h1.after k⟩

theorem decompressInt_sim [Fact P.Prime] {c : CurveR} {C' : Curve} {x : Nat} {X : Big} (h : CSim E p s c C') (hx : RepD D1 s x X)
    (cx : X.Canon) (odd ver : Bool) (ex : ver = false → Elt p X) :
    Sim K (ASim D E p) s (c.decompressInt K fuel x odd ver) (C'.decompressInt K.lim X odd ver) := by
  have hp := h.hp
  unfold CurveR.decompressInt Curve.decompressInt Curve.makeFe
  have key : ∀ s', Ctx K D s' → CSim E p s' c C' → RepD D1 s' x X → Elt p X →
      Sim K (ASim D E p) s' (newObj (fun s => s.copyNew K x) >>= fun v => c.decompress K fuel ⟨v, some c.p⟩ odd)
        (C'.decompress K.lim ⟨X, some C'.p⟩ odd) := by
    intro s' C h hx e
    refine Sim.newCopy C hx fun s' _ g h1 => ?_
    lift g
    exact decompress_sim F C h ⟨h1, e, Or.inr ⟨_, rfl, by rw [hp], h.rp⟩⟩ odd
  cases ver with
  | false => exact key s C h hx (ex rfl)
  | true =>
    simp only [if_true]
    unfold Curve.isValidInteger
    rw [bind_assoc, hp]
    refine Sim.check (checkInteger_sim C h.rp hx) fun v1 s' g => ?_
    lift g
    have hk := key s' C h hx (valid_elt F cx v1)
    rw [hp] at hk
    exact hk

theorem decode_sim [Fact P.Prime] {c : CurveR} {C' : Curve} (h : CSim E p s c C') (e : List Byte)
    (he : e.headD 0 = 2 ∨ e.headD 0 = 3 → e.length = C'.p.byteLength + 1 → (beVal (e.drop 1) : ℤ) < P) :
    Sim K (ASim D E p) s (c.decode K fuel e) (C'.decode K.lim e) := by
  have hp := h.hp
  have h1 := Mod.fit1 F.M
  unfold CurveR.decode Curve.decode
  refine Sim.check (checkM_sim C.inv _) fun _ s' g => ?_
  lift g
  refine Sim.check (checkM_sim C.inv _) fun _ s' g => ?_
  lift g
  rw [hp] at he ⊢
  refine Sim.test C.inv (Is.ask (byteLength_eq h.rp.rep)) ?_
  dsimp only
  refine Sim.cond (fun ht => ?_) fun _ => Sim.cond (fun _ => ?_) fun _ => apt_identity F C
  · refine Sim.check (checkM_sim C.inv _) fun hl s' g => ?_
    lift g
    have hl' : e.length = p.byteLength + 1 := by simpa using hl
    have hd := ofBytes_exact C.inv h1 ((e.drop 1).take p.byteLength)
    have ht' : (e.drop 1).take p.byteLength = e.drop 1 := List.take_of_length_le (by rw [List.length_drop]; omega)
    rcases Ack.ofBytes_fits K.lim ((e.drop 1).take p.byteLength) h1 with ⟨-, x, ex, cx, vx⟩ | ⟨-, ex⟩
    · rw [ex] at hd ⊢
      obtain ⟨s', e', N1⟩ := hd
      have g := N1.grow
      have hx := C.fresh N1
      refine Sim.step (newObj_run e') g ?_
      rw [ok_bind]
      lift g
      refine decompressInt_sim F C h hx cx _ false fun _ => ⟨cx, by rw [vx]; omega, ?_⟩
      rw [vx, ht', F.M.eq]
      exact he ht hl'
    · rw [ex] at hd ⊢
      exact bind_err (newObj_err hd)
  · refine Sim.check (checkM_sim C.inv _) fun hl s' g => ?_
    lift g
    have hd := ofBytes_exact C.inv h1 ((e.drop 1).take p.byteLength)
    rcases Ack.ofBytes_fits K.lim ((e.drop 1).take p.byteLength) h1 with ⟨-, x, ex, cx, -⟩ | ⟨-, ex⟩
    swap
    · rw [ex] at hd ⊢
      exact bind_err (newObj_err hd)
    rw [ex] at hd ⊢
    obtain ⟨s', e', N1⟩ := hd
    have g := N1.grow
    have hx := C.fresh N1
    refine Sim.step (newObj_run e') g ?_
    rw [ok_bind]
    lift g
    have hd := ofBytes_exact C.inv h1 ((e.drop (1 + p.byteLength)).take p.byteLength)
    rcases Ack.ofBytes_fits K.lim ((e.drop (1 + p.byteLength)).take p.byteLength) h1 with ⟨-, y, ey, cy, -⟩ | ⟨-, ey⟩
    swap
    · rw [ey] at hd ⊢
      exact bind_err (newObj_err hd)
    rw [ey] at hd ⊢
    obtain ⟨s', e2, N2⟩ := hd
    have g := N2.grow
    have hy := C.fresh N2
    have k := hx.rep.lt
    refine Sim.step (newObj_run e2) g ?_
    rw [ok_bind]
    lift g
    unfold Curve.makePoint Curve.isValidInteger
    rw [hp]
    refine Sim.check (checkInteger_sim C h.rp hx) fun v1 s' g => ?_
    lift g
    refine Sim.check (checkInteger_sim C h.rp hy) fun v2 s' g => ?_
    lift g
    exact Sim.pure C.inv ⟨OSim.some h, ⟨hx, valid_elt F cx v1, Or.inr ⟨_, rfl, rfl, h.rp⟩⟩, ⟨hy, valid_elt F cy v2, Or.inr ⟨_, rfl, rfl, h.rp⟩⟩,
      Nat.ne_of_lt k⟩

/-! ### Recovery of the key -/

omit F C in
theorem addNew_exact {x y : Nat} {X Y : Big} (hf : Cap.fits K.lim 1 = true) (I : Inv K s.mem) (hx : Rep s x X) (hy : Rep s y Y) :
    ∃ s', s.addNew K x y = .ok s' ∧ New K s s' (Big.add K.lim X Y) := by
  obtain ⟨s1, e1, N1⟩ := create_new I hf 0
  obtain ⟨s2, e2, P2⟩ := add_spec N1.inv (N1.frame _ _ hx) (N1.frame _ _ hy) N1.res
    (fun _ h => by rcases h with h | h <;> [have := hx.lt; have := hy.lt] <;> omega)
  refine ⟨s2, ?_, N1.post P2⟩
  unfold BigSt.addNew
  dsimp only
  rw [e1, ok_bind]; exact e2

theorem recover_sim [Fact P.Prime] {N : ℕ} {c : CurveR} {C' : Curve} {r t : Nat} {R T : Big} (h : CSim E p s c C')
    (Mn : Mod K.lim C'.n N) (hnN : K.dyn = true → C'.n.ws.length ≤ K.N) (hnf : N.size ≤ fuel) (hNP : N ≤ P)
    (hpm : C'.pMinusN = Big.sub K.lim C'.p C'.n)
    (hr : RepD D1 s r R) (ht : RepD D2 s t T) (cR : R.Canon) (cT : T.Canon) (msg : List Byte) (k : BitVec 64) (ver : Bool) :
    Sim K (ASim D E p) s (ecdsaRecoverR K fuel c msg r t k ver) (ecdsaRecover K.lim C' msg R T k ver) := by
  have hp := h.hp
  have M := F.M
  have hpos := Canon.len_pos M.canon
  have hn := Mn.eq
  have hP := M.eq
  have ln : C'.n.ws.length ≤ p.ws.length :=
    len_le_of_abs Mn.canon M.canon (by rw [abs_of_nonneg (by omega), abs_of_nonneg (by omega)]; omega)
  unfold ecdsaRecoverR ecdsaRecover
  refine Sim.test C.inv (sigOut_is h.n.rep hr.rep ht.rep) ?_
  refine Sim.ite (fun _ => apt_identity F C) fun hout => ?_
  rw [Bool.or_eq_false_iff] at hout
  have hout := hout.1
  rw [Bool.or_eq_false_iff, Bool.or_eq_false_iff, Bool.or_eq_false_iff] at hout
  simp only [← Bool.not_eq_true, ltS_iff cR, ltS_iff cT, opGe_iff cR Mn.canon, opGe_iff cT Mn.canon,
    show (1 : BitVec 32).toInt = 1 from rfl] at hout
  obtain ⟨⟨⟨r1, r2⟩, t1⟩, t2⟩ := hout
  have eR : Elt C'.n R := ⟨cR, by omega, by omega⟩
  have eT : Elt C'.n T := ⟨cT, by omega, by omega⟩
  have lR := eR.len Mn.canon
  obtain ⟨cpm, vpm⟩ := sub_room M.room M.canon Mn.canon le_rfl ln hpos
  rw [hp] at hpm
  rw [← hpm] at cpm vpm
  dsimp only
  refine Sim.test C.inv (Is.and (c := (k >>> 1 != 0)) (Is.ask (opGe_mem hr.rep h.pn.rep))) ?_
  refine Sim.ite (fun _ => apt_identity F C) fun hsk => ?_
  obtain ⟨E0, ee, cE, lE, vE⟩ := msgInt_spec Mn msg
  have hm := msgInt_exact C Mn h.n msg
  rw [ee] at hm ⊢
  obtain ⟨ie, s2, e2', g2, hE⟩ := hm
  refine Sim.step e2' g2 ?_
  rw [ok_bind]
  lift g2
  refine Sim.bind (R := ASim D E p) ?_ ?_
  · refine Sim.ite (fun h2 => ?_) fun _ => decompressInt_sim F C h hr cR _ false fun _ => ⟨cR, by omega, by omega⟩
    obtain ⟨s3, e3, N3⟩ := addNew_exact (Mod.fit1 M) C.inv hr.rep h.n.rep
    have g3 := N3.grow
    have hA := C.fresh N3
    obtain ⟨ca, va⟩ := add_room M.room cR Mn.canon (by omega) ln hpos
    rw [h2, Bool.true_and, ← Bool.not_eq_true, opGe_iff cR cpm, vpm] at hsk
    refine Sim.step (newObj_run e3) g3 ?_
    lift g3
    exact decompressInt_sim F C h hA ca _ false fun _ => ⟨ca, by omega, by omega⟩
  intro s' q Q g hq
  lift g
  refine Sim.test C.inv (apt_isIdentity hq) (Sim.ite (fun _ => Sim.pure C.inv hq) fun _ => ?_)
  refine Sim.bind (R := fun _ a b => a = b) ?_ ?_
  · refine Sim.ite (fun _ => ?_) fun _ => Sim.pure C.inv rfl
    refine Sim.bind (apt_mul F C hq h.n) ?_
    intro s' _ _ g h1
    lift g
    exact Sim.test C.inv (apt_isIdentity h1) (Sim.pure C.inv rfl)
  intro s' b _ g hb
  subst hb
  lift g
  refine Sim.ite (fun _ => apt_identity F C) fun _ => ?_
  rcases modinvNew_exact Mn C.inv hnN hnf hr.rep h.n.rep eR with ⟨e3, e3'⟩ | ⟨s3, W, e3, e3', eW, N3⟩
  · rw [e3']; exact bind_err (newObj_err e3)
  rw [e3', ok_bind]
  have g3 := N3.grow
  have hW := C.fresh N3
  refine Sim.step (newObj_run e3) g3 ?_
  lift g3
  obtain ⟨s4, e4, N4⟩ := subNew_exact (Mod.fit1 M) C.inv h.n.rep hE.rep
  have g4 := N4.grow
  have hS := C.fresh N4
  refine Sim.step (newObj_run e4) g4 ?_
  lift g4
  have lW := eW.len Mn.canon
  obtain ⟨csub, vsub⟩ := sub_room Mn.room Mn.canon cE le_rfl lE (Canon.len_pos Mn.canon)
  have e0 : 0 ≤ E0.toInt := by rw [vE]; split <;> omega
  have lsub : (Big.sub K.lim C'.n E0).ws.length ≤ C'.n.ws.length := by
    rcases le_total E0.toInt C'.n.toInt with hh | hh
    · exact len_le_of_abs csub Mn.canon (by rw [vsub, abs_of_nonneg (by omega), abs_of_nonneg (by omega)]; omega)
    · exact le_trans (len_le_of_abs csub cE (by rw [vsub, abs_of_nonpos (by omega), abs_of_nonneg (by omega)]; omega)) lE
  obtain ⟨s5, U1, e5, e5', N5⟩ := fpMul_exact Mn C.inv hS.rep hW.rep h.n.rep csub eW.c (Mn.room.fits (by omega))
  rw [show Big.mod K.lim (Big.mul K.lim (Big.sub K.lim C'.n E0) W) C'.n = .ok U1 from e5', ok_bind]
  have g5 := N5.grow
  have hU1 := C.fresh N5
  refine Sim.step (newObj_run e5) g5 ?_
  lift g5
  obtain ⟨s6, U2, e6, e6', N6⟩ := fpMul_exact Mn C.inv ht.rep hW.rep h.n.rep cT eW.c
    (Mn.room.fits (by have := eT.len Mn.canon; omega))
  rw [show Big.mod K.lim (Big.mul K.lim T W) C'.n = .ok U2 from e6', ok_bind]
  have g6 := N6.grow
  have hU2 := C.fresh N6
  refine Sim.step (newObj_run e6) g6 ?_
  lift g6
  refine Sim.bind (jpt_ofAffine F C h.g) ?_
  intro s' _ _ g h2
  lift g
  refine Sim.bind (jpt_ofAffine F C hq) ?_
  intro s' _ _ g h3
  lift g
  refine Sim.bind (mulAddFast_sim F C hU1 hU2 h2 h3) ?_
  intro s' _ _ g h4
  lift g
  exact jpt_toAffine F C h4

end
end Ack.Mem
