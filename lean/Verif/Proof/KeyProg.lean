import Verif.Spec.KeyProg
import Verif.Proof.KeyCode
import Verif.Proof.EcWhole
/-! # Programs on encodings and key recovery: on memory they follow the value model, which computes in the group -/
namespace Ack.Mem
open Big (Byte)
open Ack.Spec.Ec Ack.Spec.Key

section
variable {K : Kind} {D : Nat → Prop} {p : Big} {P N fuel : ℕ} {s : BigSt} {C' : Curve}

/-- The variables have the values. -/
structure KSim (D : Nat → Prop) (p : Big) (C : Curve) (s : BigSt) (v : KVars) (V : KVals) : Prop where
  ec : VSim D D p C s v.ec V.ec
  bytes : v.bytes = V.bytes

theorem KSim.mono {v : KVars} {V : KVals} {s' : BigSt} (h : KSim D p C' s v V) (g : Grow K s s') : KSim D p C' s' v V :=
  ⟨h.ec.mono g, h.bytes⟩

/-- A byte string whose compressed x, if it is read, is reduced. -/
def CodeFine (P : ℕ) (p : Big) (e : List Byte) : Prop :=
  e.headD 0 = 2 ∨ e.headD 0 = 3 → e.length = p.byteLength + 1 → (beVal (e.drop 1) : ℤ) < P

/-- The arguments are such that the functions on memory are followed: unchecked numbers that become coordinates are reduced. -/
def KFine (P N : ℕ) (C : Curve) (V : KVals) : KStmt → Prop
  | .ec _ => True
  | .decompress x _ ver => ver = false → ∀ X, V.ec.ints[x]? = some X → Elt C.p X
  | .decode e => CodeFine P C.p e
  | .decodeVar i => ∀ e, V.bytes[i]? = some e → CodeFine P C.p e
  | .encode _ _ => True
  | .recover _ _ _ _ _ => N ≤ P

theorem own_decompress (cap : Cap) (x : Fe) (odd : Bool) : Only (OwnA C') (C'.decompress cap x odd) := by
  unfold Curve.decompress
  exact Only.bind fun _ _ => Only.ite (Only.ok (Or.inl rfl)) (Only.ok (Or.inr rfl))

theorem own_decompressInt (cap : Cap) (x : Big) (odd ver : Bool) : Only (OwnA C') (C'.decompressInt cap x odd ver) := by
  unfold Curve.decompressInt
  exact Only.bind fun _ _ => own_decompress cap _ odd

theorem own_decode (cap : Cap) (e : List Byte) : Only (OwnA C') (C'.decode cap e) := by
  unfold Curve.decode
  refine Only.bind fun _ _ => Only.bind fun _ _ => ?_
  dsimp only
  refine Only.ite ?_ (Only.ite ?_ (Only.ok (Or.inl rfl)))
  · exact Only.bind fun _ _ => Only.bind fun _ _ => own_decompressInt cap _ _ _
  · exact Only.bind fun _ _ => Only.bind fun _ _ => Only.bind fun _ _ => own_makePoint cap _ _ _

theorem own_recover (cap : Cap) (msg : List Byte) (r t : Big) (k : BitVec 64) (ver : Bool) :
    Only (OwnA C') (ecdsaRecover cap C' msg r t k ver) := by
  unfold ecdsaRecover
  refine Only.ite (Only.ok (Or.inl rfl)) ?_
  dsimp only
  refine Only.ite (Only.ok (Or.inl rfl)) ?_
  refine Only.bind fun _ _ => ?_
  refine Only.next (T := OwnA C') (Only.ite (own_decompressInt cap _ _ _) (own_decompressInt cap _ _ _)) fun R hR => ?_
  refine Only.ite (Only.ok hR) (Only.bind fun _ _ => Only.ite (Only.ok (Or.inl rfl)) ?_)
  refine Only.bind fun _ _ => Only.bind fun _ _ => Only.bind fun _ _ => ?_
  refine Only.next (T := OwnJ C') (ownJ_ofAffine (Or.inr rfl)) fun jg hg => ?_
  refine Only.next (T := OwnJ C') (ownJ_ofAffine hR) fun jr hr => ?_
  exact Only.next (T := OwnJ C') (ownJ_mulAdd hg hr _ _) fun j hj => ownJ_toAffine hj

variable {v : KVars} {V : KVals}

theorem Sim.lastAff {m : M APtR} {w : Res APt} (h : KSim D p C' s v V) (hs : Sim K (ASim D D p) s m w) (ho : Only (OwnA C') w) :
    Sim K (KSim D p C') s (m >>= fun q => (Pure.pure (v.addPt q) : M KVars)) (w >>= fun q => (Pure.pure (V.addPt q) : Res KVals)) := by
  cases w with
  | error e => exact bind_err hs
  | ok Q =>
    obtain ⟨q, s', e, g, r⟩ := hs
    exact Sim.step e g (Sim.pure g.inv ⟨(h.ec.mono g).addPt (q := .aff q) (Q := .aff Q) r (ho Q rfl), h.bytes⟩)

theorem Sim.str {α β : Type} {R : BigSt → α → β → Prop} {f : List Byte → M α} {g : List Byte → Res β} (I : Inv K s.mem) (h : KSim D p C' s v V)
    (i : Nat) (k : ∀ b, V.bytes[i]? = some b → Sim K R s (f b) (g b)) : Sim K R s (v.str i >>= f) (V.str i >>= g) := by
  unfold KVars.str KVals.str
  rw [h.bytes]
  cases e : V.bytes[i]? with
  | none => exact bind_err rfl
  | some b => exact Sim.step (a := b) (s' := s) rfl (Grow.refl I) (k b e)

/-- An integer variable, with its position. -/
theorem Sim.intAt {α β : Type} {R : BigSt → α → β → Prop} {f : Nat → M α} {g : Big → Res β} (I : Inv K s.mem) (h : KSim D p C' s v V) (i : Nat)
    (k : ∀ x X, RepD D s x X → X.Canon → V.ec.ints[i]? = some X → Sim K R s (f x) (g X)) :
    Sim K R s (v.ec.int i >>= f) (V.ec.int i >>= g) := by
  unfold EcVars.int EcVals.int
  rcases forall₂_get h.ec.ints i with ⟨e1, e2⟩ | ⟨a, b, e1, e2, r⟩
  · rw [e1, e2]; exact bind_err rfl
  · rw [e1, e2]
    exact Sim.step (a := a) (s' := s) rfl (Grow.refl I) (k a b r (h.ec.canon b (List.mem_of_getElem? e2)) e2)

variable [Fact P.Prime] (H : PC K p P N fuel C') (C : Ctx K D s)
include H C

/-- **One statement on memory.** -/
theorem kstep_sim {c : CurveR} (hc : CSim D p s c C') (hpm : C'.pMinusN = Big.sub K.lim C'.p C'.n) (h : KSim D p C' s v V) (t : KStmt)
    (ht : KFine P N C' V t) : Sim K (KSim D p C') s (kStep K fuel c v t) (kvStep K.lim C' V t) := by
  have hp := hc.hp
  cases t with
  | ec t =>
    simp only [kStep, kvStep]
    exact Sim.wrap (step_sim H C hc h.ec t) fun _ _ _ r => ⟨r, h.bytes⟩
  | decompress x odd ver =>
    simp only [kStep, kvStep]
    refine Sim.intAt C.inv h x fun i X r cX eX => ?_
    exact Sim.lastAff h (decompressInt_sim H.F C hc r cX odd ver fun hv => hp ▸ ht hv X eX) (own_decompressInt _ _ _ _)
  | decode e =>
    simp only [kStep, kvStep]
    exact Sim.lastAff h (decode_sim H.F C hc e ht) (own_decode _ _)
  | decodeVar i =>
    simp only [kStep, kvStep]
    refine Sim.str C.inv h i fun e he => ?_
    exact Sim.lastAff h (decode_sim H.F C hc e (ht e he)) (own_decode _ _)
  | encode q compress =>
    simp only [kStep, kvStep]
    refine Sim.pt C.inv h.ec q fun q Q r _ => ?_
    obtain q | q | q := q <;> obtain Q | Q | Q := Q <;> first | exact False.elim r | exact bind_err rfl | skip
    show Sim K _ s (inScope (CurveR.encode K q compress) >>= _) _
    obtain ⟨b, s', e, g, rfl⟩ := Sim.scope (encode_sim H.F C r compress)
    exact Sim.step e g (Sim.pure g.inv ⟨h.ec.mono g, by rw [← h.bytes]⟩)
  | recover msg r t k ver =>
    simp only [kStep, kvStep]
    refine Sim.intAt C.inv h r fun i X ri cX _ => Sim.intAt C.inv h t fun j Y rj cY _ => ?_
    exact Sim.lastAff h (recover_sim H.F C hc H.n H.hN H.hf ht hpm ri rj cX cY msg k ver) (own_recover _ _ _ _ _ _)

end

/-! ### In the group -/

section
variable {P : ℕ} [Fact P.Prime] {N : ℕ} {cap : Cap} {C : Curve} {G : C.Pt P} {V : KVals} {e : KEnv (C.W P)}

/-- The variables denote the environment. -/
structure KDen (C : Curve) (V : KVals) (e : KEnv (C.W P)) : Prop where
  ec : Den C V.ec e.ec
  bytes : V.bytes = e.bytes

theorem KDen.addPt (h : KDen C V e) {q : APt} {Q : C.Pt P} (r : RepZ C q Q) : KDen C (V.addPt q) (e.addPt Q) :=
  ⟨h.ec.addPt (q := .aff q) (k := .aff) r, h.bytes⟩

theorem octets_eq (K : CurveOk P cap C) : C.p.byteLength = octets P :=
  byteLength_eq_size K.M.canon K.M.eq (by have := K.M.gt; omega)

theorem Den.intAt {V : EcVals} {e : EcEnv (C.W P)} (h : Den C V e) {i : ℕ} {x : ℤ} (hi : e.ints[i]? = some x) :
    ∃ X, V.ints[i]? = some X ∧ V.int i = .ok X ∧ X.Canon ∧ X.toInt = x := by
  rcases forall₂_get h.ints i with ⟨-, h2⟩ | ⟨X, x', h1, h2, h3⟩
  · rw [h2] at hi; cases hi
  · rw [h2] at hi; cases hi
    exact ⟨X, h1, by unfold EcVals.int; rw [h1], h3⟩

theorem repZ_some {q : APt} {x y : ZMod P} {hn : (C.W P).Nonsingular x y} (h : q.Rep C (.some x y hn)) : RepZ C q (.some x y hn) :=
  ⟨h, fun h0 => absurd h0 (WeierstrassCurve.Affine.Point.some_ne_zero hn)⟩

/-- The coordinate y of given parity is unique. -/
theorem y_unique (K : CurveOk P cap C) {x y y' : ZMod P} (h : (C.W P).Nonsingular x y) (h' : (C.W P).Nonsingular x y') (y0 : y ≠ 0)
    (hp : y.val % 2 = y'.val % 2) : y = y' := by
  have e1 := K.ns.1 h
  have e2 := K.ns.1 h'
  have h3 : (y - y') * (y + y') = 0 := by linear_combination e1 - e2
  rcases mul_eq_zero.1 h3 with h4 | h4
  · exact sub_eq_zero.1 h4
  · exfalso
    have h5 : y' = -y := by linear_combination h4
    have hodd : P % 2 = 1 := by
      rcases (Fact.out : P.Prime).eq_two_or_odd with h | h
      · have := K.gt3; omega
      · exact h
    have hv : y'.val = P - y.val := by
      haveI : NeZero y := ⟨y0⟩
      rw [h5, ZMod.val_neg_of_ne_zero]
    have := y.val_lt
    have h0 : y.val ≠ 0 := fun h => y0 ((ZMod.val_eq_zero y).1 h)
    omega

theorem decompress_some (K : CurveOk P cap C) {x : Fe} {X Y : ZMod P} (hn : (C.W P).Nonsingular X Y) (hx : Ack.Rep P C.p x X) {odd : Bool}
    (y0 : Y ≠ 0) (hY : Y.val % 2 = 1 ↔ odd = true) : ∃ r, Curve.decompress cap C x odd = .ok r ∧ RepZ C r (.some X Y hn) := by
  obtain ⟨r, e, h1, -⟩ := decompress_spec K hx odd
  obtain ⟨Y', hn', hr, y0', hY'⟩ := h1 ⟨Y, y0, K.ns.1 hn⟩
  have : Y' = Y := y_unique K hn' hn y0' (by rcases Nat.mod_two_eq_zero_or_one Y.val with h | h <;> rcases Nat.mod_two_eq_zero_or_one Y'.val with h' | h' <;> simp_all)
  subst this
  exact ⟨r, e, repZ_some hr⟩

theorem decompressInt_ok (K : CurveOk P cap C) {X : Big} {x : ZMod P} (hr : Ack.Rep P C.p ⟨X, some C.p⟩ x) (odd ver : Bool) :
    C.decompressInt cap X odd ver = Curve.decompress cap C ⟨X, some C.p⟩ odd := by
  have hv : C.isValidInteger X = true := by
    unfold Curve.isValidInteger
    rw [Bool.and_eq_true, Bool.not_eq_true', opLt_iff hr.elt.c K.M.canon]
    exact ⟨by rw [← Bool.not_eq_true, Big.isNegative_iff hr.elt.c]; have := hr.elt.nn; omega, hr.elt.lt⟩
  unfold Curve.decompressInt Curve.makeFe
  cases ver with
  | false => rfl
  | true => rw [if_pos rfl, hv]; rfl

theorem decompress_none (K : CurveOk P cap C) {x : Fe} {X : ZMod P} (hx : Ack.Rep P C.p x X) (odd : Bool)
    (h : ∀ y, (C.W P).Nonsingular X y → y = 0) : Curve.decompress cap C x odd = .ok APt.identity := by
  obtain ⟨r, e, -, h2⟩ := decompress_spec K hx odd
  rw [e, h2]
  rintro ⟨y, y0, hy⟩
  exact y0 (h y (K.ns.2 hy))

theorem repZ_zero : RepZ C APt.identity (0 : C.Pt P) := ⟨rfl, fun _ => rfl⟩

theorem notag {P : ℕ} {p : Big} {t : Byte} {l : List Byte} (h : ¬ (t = 2 ∨ t = 3)) : CodeFine P p (t :: l) := fun h' => absurd h' h

theorem decode_den (K : CurveOk P cap C) {b : List Byte} {Q : C.Pt P} (h : Decodes b Q) :
    CodeFine P C.p b ∧ ∃ r, Curve.decode cap C b = .ok r ∧ RepZ C r Q := by
  have ho := octets_eq K
  have hval : ∀ {x : ZMod P} {l : List Byte}, beVal l = x.val → ((beVal l : ℕ) : ZMod P) = x := fun h => by
    rw [h]; exact ZMod.natCast_zmod_val _
  have comp : ∀ {x y : ZMod P} (hn : (C.W P).Nonsingular x y) {l : List Byte} (odd : Bool), l.length = octets P → beVal l = x.val →
      (y.val % 2 = 1 ↔ odd = true) → y ≠ 0 → CodeFine P C.p ((if odd then 3 else 2) :: l) ∧
      ∃ r, Curve.decode cap C ((if odd then 3 else 2) :: l) = .ok r ∧ RepZ C r (.some x y hn) := by
    intro x y hn l odd hl hv hy y0
    have hlt : beVal l < P := by rw [hv]; exact x.val_lt
    refine ⟨fun _ _ => by simpa using hlt, ?_⟩
    obtain ⟨bx, e1, r1⟩ := decode_compressed K (x := l) (by rw [hl, ho]) odd hlt
    rw [hval hv] at r1
    rw [e1]
    exact decompress_some K hn r1 y0 hy
  cases h with
  | point hc hy =>
    cases hc with
    | zero => exact ⟨notag (by decide), _, rfl, repZ_zero⟩
    | @full x y hn l m hl vl hm vm =>
      refine ⟨notag (by decide), ?_⟩
      obtain ⟨bx, b_y, e1, r1, r2⟩ := (decode_uncompressed K (x := l) (y := m) (by rw [hl, ho]) (by rw [hm, ho])).1
        ⟨by rw [vl]; exact x.val_lt, by rw [vm]; exact y.val_lt⟩
      rw [hval vl] at r1
      rw [hval vm] at r2
      exact ⟨_, e1, repZ_some ⟨rfl, r1, r2⟩⟩
    | even hn hl vl h2 => exact comp hn false hl vl (by simp [h2]) fun h0 => hy rfl _ (h0 ▸ hn) (by subst h0; rfl)
    | odd hn hl vl h2 => exact comp hn true hl vl (by simp [h2]) fun h0 => hy rfl _ (h0 ▸ hn) (by subst h0; rfl)
  | zero l =>
    refine ⟨notag (by decide), APt.identity, ?_, repZ_zero⟩
    rw [decode_cons, check_true (b := _ && _) (by decide), ok_bind, if_neg (by decide), if_neg (by decide)]
  | @none t l ht hl hlt hno =>
    refine ⟨fun _ _ => by simpa using hlt, APt.identity, ?_, repZ_zero⟩
    have key : ∀ odd : Bool, Curve.decode cap C ((if odd then 3 else 2) :: l) = .ok APt.identity := by
      intro odd
      obtain ⟨bx, e1, r1⟩ := decode_compressed K (x := l) (by rw [hl, ho]) odd hlt
      rw [e1]
      exact decompress_none K r1 odd hno
    rcases ht with rfl | rfl
    · exact key false
    · exact key true

theorem encode_den (K : CurveOk P cap C) {q : APt} {Q : C.Pt P} (h : RepZ C q Q) {c : Bool} {b : List Byte} (hb : SecCode c Q b) :
    Curve.encode cap q c = b := by
  have ho := octets_eq K
  cases hb with
  | zero c => rw [h.2 rfl]; rfl
  | full hn hl vl hm vm =>
    obtain ⟨hc, hx, hy⟩ := id h.1
    obtain ⟨lx, vx⟩ := feBytes_spec K hx
    obtain ⟨ly, vy⟩ := feBytes_spec K hy
    unfold Curve.encode
    rw [h.1.not_id K, ← beVal_inj (by rw [lx, hl, ho]) (vx.trans vl.symm), ← beVal_inj (by rw [ly, hm, ho]) (vy.trans vm.symm)]
    rfl
  | even hn hl vl h2 =>
    obtain ⟨hc, hx, hy⟩ := id h.1
    obtain ⟨lx, vx⟩ := feBytes_spec K hx
    unfold Curve.encode
    rw [h.1.not_id K, ← beVal_inj (by rw [lx, hl, ho]) (vx.trans vl.symm), hy.bit0 K.M]
    simp [h2]
  | odd hn hl vl h2 =>
    obtain ⟨hc, hx, hy⟩ := id h.1
    obtain ⟨lx, vx⟩ := feBytes_spec K hx
    unfold Curve.encode
    rw [h.1.not_id K, ← beVal_inj (by rw [lx, hl, ho]) (vx.trans vl.symm), hy.bit0 K.M]
    simp [h2]

/-- **One statement within its domain.** -/
theorem kden_step (D : AnyDomain N cap C G) (h : KDen C V e) {t : KStmt} {e' : KEnv (C.W P)} (ht : KDoes cap N G e t e') :
    KFine P N C V t ∧ ∃ V', kvStep cap C V t = .ok V' ∧ KDen C V' e' := by
  have K := D.K
  cases ht with
  | ec ht =>
    obtain ⟨V', e1, d1⟩ := den_step D h.ec ht
    refine ⟨trivial, { V with ec := V' }, ?_, d1, h.bytes⟩
    simp only [kvStep, e1, ok_bind]
    rfl
  | @decompress i x y hn odd ver hi y0 hp =>
    obtain ⟨X, e1, e2, cX, vX⟩ := h.ec.intAt hi
    have hr := rep_val K cX vX
    obtain ⟨r, er, dr⟩ := decompress_some K hn hr y0 hp
    refine ⟨fun _ Y hY => by rw [e1] at hY; cases hY; exact hr.elt, V.addPt r, ?_, h.addPt dr⟩
    have hm : C.decompressInt cap X odd ver = Curve.decompress cap C ⟨X, some C.p⟩ odd := decompressInt_ok K hr odd ver
    simp only [kvStep, e2, ok_bind, hm, er]
    rfl
  | @noPoint i x odd ver hi hno =>
    obtain ⟨X, e1, e2, cX, vX⟩ := h.ec.intAt hi
    have hr := rep_val K cX vX
    refine ⟨fun _ Y hY => by rw [e1] at hY; cases hY; exact hr.elt, V.addPt APt.identity, ?_, h.addPt repZ_zero⟩
    have hm : C.decompressInt cap X odd ver = Curve.decompress cap C ⟨X, some C.p⟩ odd := decompressInt_ok K hr odd ver
    simp only [kvStep, e2, ok_bind, hm, decompress_none K hr odd hno]
    rfl
  | decode hd =>
    obtain ⟨f, r, er, dr⟩ := decode_den K hd
    refine ⟨f, V.addPt r, ?_, h.addPt dr⟩
    simp only [kvStep, er, ok_bind]
    rfl
  | @decodeVar i b Q hi hd =>
    obtain ⟨f, r, er, dr⟩ := decode_den K hd
    rw [← h.bytes] at hi
    refine ⟨fun e he => by rw [hi] at he; cases he; exact f, V.addPt r, ?_, h.addPt dr⟩
    have hs : V.str i = .ok b := by unfold KVals.str; rw [hi]
    simp only [kvStep, hs, er, ok_bind]
    rfl
  | @encode i Q c b hq hb =>
    obtain ⟨q, eq, dq⟩ := h.ec.pt hq
    cases q <;> first | exact False.elim dq | skip
    refine ⟨trivial, { V with bytes := V.bytes ++ [b] }, ?_, h.ec, ?_⟩
    · simp only [kvStep, eq, ok_bind, PtV.encode, encode_den K dq hb]
      rfl
    · rw [← h.bytes]
  | unsigned msg ver hi hj hNP hr =>
    obtain ⟨X, e1, e2, cX, rfl⟩ := h.ec.intAt hi
    obtain ⟨Y, e3, e4, cY, rfl⟩ := h.ec.intAt hj
    refine ⟨hNP, V.addPt APt.identity, ?_, h.addPt repZ_zero⟩
    simp only [kvStep, e2, e4, ok_bind, ecdsaRecover_range D msg cX cY _ ver hr]
    rfl
  | @noNonce i j r s msg k ver hi hj hNP hno =>
    obtain ⟨X, e1, e2, cX, rfl⟩ := h.ec.intAt hi
    obtain ⟨Y, e3, e4, cY, rfl⟩ := h.ec.intAt hj
    refine ⟨hNP, V.addPt APt.identity, ?_, h.addPt repZ_zero⟩
    have : ecdsaRecover cap C msg X Y k ver = .ok APt.identity := by
      by_cases hr : (1 ≤ X.toInt ∧ X.toInt < N) ∧ (1 ≤ Y.toInt ∧ Y.toInt < N) ∧ k.toNat < 4
      · obtain ⟨q, eq, hq⟩ := ecdsaRecover_full D hNP msg cX cY hr.1 hr.2.1 hr.2.2 ver
        rcases hq with ⟨rfl, -⟩ | ⟨R, w, hR, hv, -⟩
        · exact eq
        · obtain ⟨h1, h2⟩ := hno R hR
          exact absurd (hv h1) h2
      · exact ecdsaRecover_range D msg cX cY k ver hr
    simp only [kvStep, e2, e4, ok_bind, this]
    rfl
  | @recover i j r s w msg k ver R hi hj hNP hr hs hk hR hv hw =>
    obtain ⟨X, e1, e2, cX, rfl⟩ := h.ec.intAt hi
    obtain ⟨Y, e3, e4, cY, rfl⟩ := h.ec.intAt hj
    obtain ⟨q, eq, hq⟩ := ecdsaRecover_full D hNP msg cX cY hr hs hk ver
    rcases hq with ⟨-, hno⟩ | ⟨R', w', hR', -, hw', hq, hz⟩
    · obtain ⟨h1, h2⟩ := hno R hR
      exact absurd (hv h1) h2
    have hRR := hR'.unique K hR
    subst hRR
    have hww : w' ≡ w [ZMOD N] := by
      have h1 : w' * (X.toInt * w) ≡ w' * 1 [ZMOD N] := hw.mul_left _
      have h2 : w * (X.toInt * w') ≡ w * 1 [ZMOD N] := hw'.mul_left _
      have h3 : w' * (X.toInt * w) = w * (X.toInt * w') := by ring
      rw [mul_one] at h1 h2
      rw [h3] at h1
      exact h1.symm.trans h2
    have em : (if beVal (leadBytes N.size msg) ≤ 2 * N then -(beVal (leadBytes N.size msg)) * w' % N else 0 : ℤ) = msgFactor N msg w := by
      unfold msgFactor
      split
      · exact hww.mul_left _
      · rfl
    rw [em, show Y.toInt * w' % N = Y.toInt * w % N from hww.mul_left _] at hq hz
    refine ⟨hNP, V.addPt q, ?_, h.addPt ⟨hq, hz⟩⟩
    simp only [kvStep, e2, e4, ok_bind, eq]
    rfl

theorem malformed_abort (K : CurveOk P cap C) {b : List Byte} (h : Malformed P b) : CodeFine P C.p b ∧ Curve.decode cap C b = .error .abort := by
  have ho := octets_eq K
  cases h with
  | empty => exact ⟨fun h => absurd h (by decide), rfl⟩
  | @tag t l h0 h2 h3 h4 =>
    refine ⟨notag fun h => h.elim h2 h3, ?_⟩
    rw [decode_cons, check_false]
    · rfl
    · rw [Bool.and_eq_false_iff]
      by_cases h1 : t = 1
      · right; simp [h1]
      · left
        have : 4 < t.toNat := by
          by_contra hh
          have : t.toNat = 0 ∨ t.toNat = 1 ∨ t.toNat = 2 ∨ t.toNat = 3 ∨ t.toNat = 4 := by omega
          rcases this with h | h | h | h | h <;> simp_all [← BitVec.toNat_inj]
        simpa using this
  | @short t l ht hl =>
    rw [← ho] at hl
    refine ⟨fun _ h => absurd h (by simpa using hl), ?_⟩
    rw [decode_cons, if_pos ht]
    rw [check_true (b := _ && _) (by rcases ht with rfl | rfl <;> decide), ok_bind, check_false]
    · rfl
    · simpa using hl
  | @long l hl =>
    rw [← ho] at hl
    refine ⟨notag (by decide), ?_⟩
    rw [decode_cons, if_neg (by decide), if_pos rfl, check_true (b := _ && _) (by decide), ok_bind, check_false]
    · rfl
    · simpa using hl
  | range hl hm hv =>
    exact ⟨notag (by decide), (decode_uncompressed K (by rw [hl, ho]) (by rw [hm, ho])).2 hv⟩

/-- **A statement that stops.** -/
theorem kden_stop (D : AnyDomain N cap C G) (h : KDen C V e) {t : KStmt} (ht : KStops cap N e t) :
    KFine P N C V t ∧ kvStep cap C V t = .error .abort := by
  have K := D.K
  cases ht with
  | ec ht => exact ⟨trivial, by simp only [kvStep, den_stop D h.ec ht]; rfl⟩
  | @decompress i x odd hi hx =>
    obtain ⟨X, e1, e2, cX, rfl⟩ := h.ec.intAt hi
    refine ⟨fun h => (by cases h), ?_⟩
    have hv : C.isValidInteger X = false := by
      unfold Curve.isValidInteger
      rw [← Bool.not_eq_true, Bool.and_eq_true, Bool.not_eq_true', opLt_iff cX K.M.canon, ← Bool.not_eq_true, Big.isNegative_iff cX, K.M.eq]
      rintro ⟨h1, h2⟩
      exact hx ⟨by omega, h2⟩
    have : C.decompressInt cap X odd true = .error .abort := by
      unfold Curve.decompressInt Curve.makeFe
      rw [if_pos rfl, hv]; rfl
    simp only [kvStep, e2, ok_bind, this]
    rfl
  | decode hb =>
    obtain ⟨f, er⟩ := malformed_abort K hb
    exact ⟨f, by simp only [kvStep, er]; rfl⟩
  | @decodeVar i b hi hb =>
    obtain ⟨f, er⟩ := malformed_abort K hb
    rw [← h.bytes] at hi
    refine ⟨fun e he => by rw [hi] at he; cases he; exact f, ?_⟩
    have hs : V.str i = .ok b := by unfold KVals.str; rw [hi]
    simp only [kvStep, hs, ok_bind, er]
    rfl

end

/-! ### Whole programs -/

section
variable {K : Kind} {d : DomBytes} {P N fuel : ℕ} {p : Big} {C' : Curve} [Fact P.Prime] {G : C'.Pt P}

/-- **The statements of a program within its domain, on memory.** -/
theorem kexec_runs (H : PC K p P N fuel C') (D : AnyDomain N K.lim C' G) (hpm : C'.pMinusN = Big.sub K.lim C'.p C'.n) {c : CurveR}
    {e e' : KEnv (C'.W P)} {ts : List KStmt} (h : KRuns K.lim N G e ts e') : ∀ {s : BigSt} {v : KVars} {V : KVals}, Ctx K D0 s → CSim D0 p s c C' →
    KSim D0 p C' s v V → KDen C' V e → ∃ s' v' V', kExec K fuel c ts v s = .ok (v', s') ∧ Grow K s s' ∧ KSim D0 p C' s' v' V' ∧ KDen C' V' e' := by
  induction h with
  | nil e => intro s v V X _ hv d; exact ⟨s, v, V, rfl, Grow.refl X.inv, hv, d⟩
  | cons ht _ ih =>
    intro s v V X hc hv d
    obtain ⟨f, V1, e1, d1⟩ := kden_step D d ht
    have hs := kstep_sim H X hc hpm hv _ f
    rw [e1] at hs
    obtain ⟨v1, s1, e2, g1, hv1⟩ := hs
    obtain ⟨s', v', V', e3, g2, hv', d'⟩ := ih (X.mono g1) (hc.mono g1) hv1 d1
    refine ⟨s', v', V', ?_, g1.trans g2, hv', d'⟩
    unfold kExec
    rw [bind_run e2]
    exact e3

omit [Fact P.Prime] in
/-- **The curve is made.** -/
theorem kprogram_made (r : Params K d P N) (S : EcSetting K d P N) (hP : Spec.Passes P fuel) {Cv : Curve} (em : r.make = .ok Cv) :
    ∃ c s1, Grow K BigSt.init s1 ∧ CSim D0 r.p s1 c Cv ∧ ∀ ts, kProgram K fuel d ts BigSt.init = kExec K fuel c ts ⟨⟨[], [], []⟩, []⟩ s1 := by
  have f1 := cap_fit1 r.mp
  have C := ctx_init (K := K)
  have new : ∀ {s : BigSt}, Ctx K D0 s → ∀ {b : List Byte} {X : Big}, Big.ofBytes K.lim b = .ok X →
      ∃ i s', newObj (fun s => s.ofBytes K b) s = .ok (i, s') ∧ Grow K s s' ∧ RepD D0 s' i X := by
    intro s C b X e
    have hd := ofBytes_exact C.inv f1 b
    rw [e] at hd
    obtain ⟨s', e', N1⟩ := hd
    exact ⟨_, s', newObj_run e', N1.grow, C.fresh N1⟩
  obtain ⟨i1, s1, e1, g1, h1⟩ := new C r.ep
  obtain ⟨i2, s2, e2, g2, h2⟩ := new (C.mono g1) r.ea
  obtain ⟨i3, s3, e3, g3, h3⟩ := new ((C.mono g1).mono g2) r.eb
  obtain ⟨i4, s4, e4, g4, h4⟩ := new (((C.mono g1).mono g2).mono g3) r.ex
  obtain ⟨i5, s5, e5, g5, h5⟩ := new ((((C.mono g1).mono g2).mono g3).mono g4) r.ey
  obtain ⟨i6, s6, e6, g6, h6⟩ := new (((((C.mono g1).mono g2).mono g3).mono g4).mono g5) r.en
  have hm := make_sim (r.fc S hP) ((((((C.mono g1).mono g2).mono g3).mono g4).mono g5).mono g6) 1 d.h
    (((((h1.mono g2).mono g3).mono g4).mono g5).mono g6) ((((h2.mono g3).mono g4).mono g5).mono g6) (((h3.mono g4).mono g5).mono g6)
    ((h4.mono g5).mono g6) (h5.mono g6) h6 r.la r.lb r.cx r.cy
  change Sim K _ _ _ r.make at hm
  rw [em] at hm
  obtain ⟨c, s7, e7, g7, hc⟩ := hm
  refine ⟨c, s7, (((((g1.trans g2).trans g3).trans g4).trans g5).trans g6).trans g7, hc, fun ts => ?_⟩
  unfold kProgram
  rw [bind_run e1, bind_run e2, bind_run e3, bind_run e4, bind_run e5, bind_run e6, bind_run e7]

theorem kExec_append (c : CurveR) (t : KStmt) (us : List KStmt) {v' : KVars} {s' : BigSt} {x : Err} (ht : kStep K fuel c v' t s' = .error x) :
    ∀ (ts : List KStmt) {v : KVars} {s : BigSt}, kExec K fuel c ts v s = .ok (v', s') → kExec K fuel c (ts ++ t :: us) v s = .error x
  | [], v, s, h => by
    cases h
    rw [List.nil_append]
    unfold kExec
    exact bind_err ht
  | t' :: ts, v, s, h => by
    rw [List.cons_append]
    unfold kExec at h ⊢
    cases h1 : kStep K fuel c v t' s with
    | error y => rw [bind_err h1] at h; cases h
    | ok w =>
      obtain ⟨v1, s1⟩ := w
      rw [bind_run h1] at h ⊢
      exact kExec_append c t us ht ts h

end
end Ack.Mem
