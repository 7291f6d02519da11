import Verif.Model.EcGeneric
import Verif.Proof.EcCode
import Verif.Proof.EcCurve
import Verif.Proof.Utils
/-!
# Curve functions that are templates over the point type
-/
namespace Ack
open Big WeierstrassCurve

/-- The identity object converts to the identity object. -/
structure KindOk {α : Type} (k : PointKind α) : Prop where
  id : k.ofAffine APt.identity = .ok k.identity

theorem kindA_ok : KindOk kindA := ⟨rfl⟩
theorem kindP_ok : KindOk kindP := ⟨rfl⟩
theorem kindJ_ok : KindOk kindJ := ⟨rfl⟩

section
variable {α : Type} {k : PointKind α}

theorem res_bind_assoc {α β γ : Type} (r : Res α) (f : α → Res β) (g : β → Res γ) : (r >>= f) >>= g = r >>= fun x => f x >>= g := by
  cases r <;> rfl

theorem res_bind_ok {α : Type} (r : Res α) : (r >>= fun x => .ok x) = r := by
  cases r <;> rfl

theorem makePointFe_false (cap : Cap) (c : Curve) (x y : Fe) : c.makePointFe k cap x y false = k.ofAffine ⟨some c, x, y⟩ := by
  unfold Curve.makePointFe
  exact res_bind_ok _

theorem decompressU_eq (hk : KindOk k) (cap : Cap) (c : Curve) (x : Fe) (odd : Bool) :
    Curve.decompressU k cap c x odd = Curve.decompress cap c x odd >>= k.ofAffine := by
  unfold Curve.decompressU Curve.decompress
  cases h : Curve.computeY cap c x odd with
  | error e => rfl
  | ok y =>
    rw [ok_bind, ok_bind]
    by_cases hy : y.isZero = true
    · rw [if_pos hy, if_pos hy, ok_bind, hk.id]
    · rw [if_neg hy, if_neg hy, ok_bind, makePointFe_false]

theorem decompressIntU_eq (hk : KindOk k) (cap : Cap) (c : Curve) (x : Big) (odd verify : Bool) :
    Curve.decompressIntU k cap c x odd verify = Curve.decompressInt cap c x odd verify >>= k.ofAffine := by
  unfold Curve.decompressIntU Curve.decompressInt
  cases h : Curve.makeFe c x verify with
  | error e => rfl
  | ok y => rw [ok_bind, ok_bind, decompressU_eq hk]

theorem makePointU_false (cap : Cap) (c : Curve) (x y : Big) :
    Curve.makePointU k cap c x y false = Curve.makePoint cap c x y false >>= k.ofAffine := by
  unfold Curve.makePointU Curve.makePoint
  cases c.isValidInteger x
  · rfl
  cases c.isValidInteger y
  · rfl
  exact makePointFe_false _ _ _ _

theorem decodeU_eq (hk : KindOk k) (cap : Cap) (c : Curve) (e : List Byte) :
    Curve.decodeU k cap c e = Curve.decode cap c e >>= k.ofAffine := by
  have hd := fun x odd => decompressIntU_eq hk cap c x odd false
  have hm := fun x y => makePointU_false (k := k) cap c x y
  unfold Curve.decodeU Curve.decode
  cases !e.isEmpty
  · rfl
  simp only [check_true, ok_bind]
  cases (decide ((e.headD 0).toNat ≤ 4) && e.headD 0 != 1)
  · rfl
  simp only [check_true, ok_bind]
  by_cases h2 : e.headD 0 = 2 ∨ e.headD 0 = 3
  · rw [if_pos h2, if_pos h2]
    cases (e.length == c.p.byteLength + 1)
    · rfl
    simp only [check_true, ok_bind]
    cases ofBytes cap ((e.drop 1).take c.p.byteLength) with
    | error e => rfl
    | ok x => rw [ok_bind, ok_bind, hd]
  rw [if_neg h2, if_neg h2]
  by_cases h4 : e.headD 0 = 4
  · rw [if_pos h4, if_pos h4]
    cases (e.length == 2 * c.p.byteLength + 1)
    · rfl
    simp only [check_true, ok_bind]
    cases ofBytes cap ((e.drop 1).take c.p.byteLength) with
    | error e => rfl
    | ok x =>
      rw [ok_bind, ok_bind]
      cases ofBytes cap ((e.drop (1 + c.p.byteLength)).take c.p.byteLength) with
      | error e => rfl
      | ok y => rw [ok_bind, ok_bind, hm]
  · rw [if_neg h4, if_neg h4, ok_bind, hk.id]

end

section
variable {P : ℕ} [Fact P.Prime] {cap : Cap} {C : Curve}

theorem PPt.ofAffine_rep (K : CurveOk P cap C) {x y : Fe} {X Y : ZMod P} (hx : Ack.Rep P C.p x X) (hy : Ack.Rep P C.p y Y)
    (hi : APt.isIdentity ⟨some C, x, y⟩ = false) :
    PPt.ofAffine ⟨some C, x, y⟩ = .ok ⟨some C, x, y, ⟨ofInt32 1, some C.p⟩⟩ ∧ Ack.Rep P C.p ⟨ofInt32 1, some C.p⟩ (1 : ZMod P) ∧
    ∀ Q : C.Pt P, (⟨some C, x, y, ⟨ofInt32 1, some C.p⟩⟩ : PPt).Rep C Q ↔ (⟨some C, x, y⟩ : APt).Rep C Q := by
  have hone : Ack.Rep P C.p ⟨ofInt32 1, some C.p⟩ (1 : ZMod P) := ⟨rfl, one_elt K.M.one_lt, res_one⟩
  have ho : PPt.ofAffine ⟨some C, x, y⟩ = .ok ⟨some C, x, y, ⟨ofInt32 1, some C.p⟩⟩ := by
    unfold PPt.ofAffine; rw [hi]; rfl
  refine ⟨ho, hone, fun Q => ⟨fun h => ?_, fun h => ?_⟩⟩
  · obtain ⟨r, e, hr⟩ := PPt.toAffine_spec K h
    have hz : (⟨some C, x, y, ⟨ofInt32 1, some C.p⟩⟩ : PPt).isIdentity = false := by
      unfold PPt.isIdentity
      rw [show (⟨some C, x, y, ⟨ofInt32 1, some C.p⟩⟩ : PPt).z.isZero = false from isZero_false K hone one_ne_zero]
      rfl
    unfold PPt.toAffine at e
    rw [hz, if_neg (by simp), if_pos ((hone.isOne_iff K.M).2 rfl)] at e
    cases e
    exact hr
  · obtain ⟨r, e, hr⟩ := PPt.ofAffine_spec K h
    rw [ho] at e
    cases e
    exact hr

theorem JPt.ofAffine_rep (K : CurveOk P cap C) {x y : Fe} {X Y : ZMod P} (hx : Ack.Rep P C.p x X) (hy : Ack.Rep P C.p y Y)
    (hi : APt.isIdentity ⟨some C, x, y⟩ = false) :
    JPt.ofAffine ⟨some C, x, y⟩ = .ok ⟨some C, x, y, ⟨ofInt32 1, some C.p⟩⟩ ∧ Ack.Rep P C.p ⟨ofInt32 1, some C.p⟩ (1 : ZMod P) ∧
    ∀ Q : C.Pt P, (⟨some C, x, y, ⟨ofInt32 1, some C.p⟩⟩ : JPt).Rep C Q ↔ (⟨some C, x, y⟩ : APt).Rep C Q := by
  have hone : Ack.Rep P C.p ⟨ofInt32 1, some C.p⟩ (1 : ZMod P) := ⟨rfl, one_elt K.M.one_lt, res_one⟩
  have ho : JPt.ofAffine ⟨some C, x, y⟩ = .ok ⟨some C, x, y, ⟨ofInt32 1, some C.p⟩⟩ := by
    unfold JPt.ofAffine; rw [hi]; rfl
  refine ⟨ho, hone, fun Q => ⟨fun h => ?_, fun h => ?_⟩⟩
  · obtain ⟨r, e, hr⟩ := JPt.toAffine_spec K h
    have hz : (⟨some C, x, y, ⟨ofInt32 1, some C.p⟩⟩ : JPt).isIdentity = false := by
      unfold JPt.isIdentity
      rw [show (⟨some C, x, y, ⟨ofInt32 1, some C.p⟩⟩ : JPt).z.isZero = false from isZero_false K hone one_ne_zero]
      rfl
    unfold JPt.toAffine at e
    rw [hz, if_neg (by simp), if_pos ((hone.isOne_iff K.M).2 rfl)] at e
    cases e
    exact hr
  · obtain ⟨r, e, hr⟩ := JPt.ofAffine_spec K h
    rw [ho] at e
    cases e
    exact hr

theorem makePointU_abort {α : Type} {k : PointKind α} (K : CurveOk P cap C) {x y : Big} (cx : x.Canon) (cy : y.Canon)
    (hr : ¬ (0 ≤ x.toInt ∧ x.toInt < P ∧ 0 ≤ y.toInt ∧ y.toInt < P)) (v : Bool) : Curve.makePointU k cap C x y v = .error .abort := by
  unfold Curve.makePointU
  by_cases h1 : C.isValidInteger x = true
  · by_cases h2 : C.isValidInteger y = true
    · exfalso
      rw [isValidInteger_iff K cx] at h1
      rw [isValidInteger_iff K cy] at h2
      omega
    · rw [check_true h1, ok_bind, check_false (by simpa using h2)]; rfl
  · rw [check_false (by simpa using h1)]; rfl

/-- Checked construction in the other point types agrees with the affine one. -/
theorem makePointU_true (K : CurveOk P cap C) (hn : C.n.Canon) {x y : Big} (cx : x.Canon) (cy : y.Canon) :
    Curve.makePointU kindP cap C x y true = (Curve.makePoint cap C x y true >>= PPt.ofAffine) ∧
    (8 < P → cap.fits (C.n.ws.length + 1) = true →
      Curve.makePointU kindJ cap C x y true = (Curve.makePoint cap C x y true >>= JPt.ofAffine)) := by
  by_cases hr : 0 ≤ x.toInt ∧ x.toInt < P ∧ 0 ≤ y.toInt ∧ y.toInt < P
  swap
  · have h' := (makePoint_spec K hn cx cy).1 hr true
    have c := fun (β : Type) (k : PointKind β) => makePointU_abort (k := k) K cx cy hr true
    rw [h', c, c]
    exact ⟨rfl, fun _ _ => rfl⟩
  have i1 := (isValidInteger_iff K cx).2 ⟨hr.1, hr.2.1⟩
  have i2 := (isValidInteger_iff K cy).2 ⟨hr.2.2.1, hr.2.2.2⟩
  have u : ∀ (β : Type) (k : PointKind β), Curve.makePointU k cap C x y true = Curve.makePointFe k cap C ⟨x, some C.p⟩ ⟨y, some C.p⟩ true := by
    intro β k
    unfold Curve.makePointU
    rw [check_true i1, ok_bind, check_true i2, ok_bind]; rfl
  rw [u, u, (makePoint_spec K hn cx cy).2 hr |>.2]
  have rx : Ack.Rep P C.p ⟨x, some C.p⟩ ((x.toInt : ℤ) : ZMod P) := ⟨rfl, ⟨cx, hr.1, by rw [K.M.eq]; exact hr.2.1⟩, rfl⟩
  have ry : Ack.Rep P C.p ⟨y, some C.p⟩ ((y.toInt : ℤ) : ZMod P) := ⟨rfl, ⟨cy, hr.2.2.1, by rw [K.M.eq]; exact hr.2.2.2⟩, rfl⟩
  generalize (⟨x, some C.p⟩ : Fe) = fx at *
  generalize (⟨y, some C.p⟩ : Fe) = fy at *
  by_cases hi : APt.isIdentity ⟨some C, fx, fy⟩ = true
  · rw [if_neg]
    · have e1 : Curve.makePointFe kindP cap C fx fy true = .error .abort := by
        unfold Curve.makePointFe
        rw [show kindP.ofAffine ⟨some C, fx, fy⟩ = .ok PPt.identity by show PPt.ofAffine _ = _; unfold PPt.ofAffine; rw [hi]; rfl]
        rfl
      have e2 : Curve.makePointFe kindJ cap C fx fy true = .error .abort := by
        unfold Curve.makePointFe
        rw [show kindJ.ofAffine ⟨some C, fx, fy⟩ = .ok JPt.identity by show JPt.ofAffine _ = _; unfold JPt.ofAffine; rw [hi]; rfl]
        rfl
      rw [e1, e2]
      exact ⟨rfl, fun _ _ => rfl⟩
    · rintro ⟨Q, h1, h2, -⟩
      exact h2 ((h1.zero_iff K).1 hi)
  · rw [Bool.not_eq_true] at hi
    obtain ⟨ep, hone, hp⟩ := PPt.ofAffine_rep K rx ry hi
    obtain ⟨ej, -, hj⟩ := JPt.ofAffine_rep K rx ry hi
    constructor
    · obtain ⟨b, eb, hb⟩ := PPt.isValid_spec K hn (q := ⟨some C, fx, fy, ⟨ofInt32 1, some C.p⟩⟩) rfl rx ry hone
      simp only [hp] at hb
      unfold Curve.makePointFe
      rw [show kindP.ofAffine ⟨some C, fx, fy⟩ = _ from ep, ok_bind]
      rw [if_pos rfl, show kindP.isValid cap ⟨some C, fx, fy, ⟨ofInt32 1, some C.p⟩⟩ = .ok b from eb, ok_bind]
      cases b
      · rw [if_neg (by rw [← hb]; simp)]; rfl
      · rw [if_pos (hb.1 rfl), ok_bind, ep]; rfl
    · intro h8 hf
      obtain ⟨b, eb, hb⟩ := JPt.isValid_spec K h8 hn hf (q := ⟨some C, fx, fy, ⟨ofInt32 1, some C.p⟩⟩) rfl rx ry hone
      simp only [hj] at hb
      unfold Curve.makePointFe
      rw [show kindJ.ofAffine ⟨some C, fx, fy⟩ = _ from ej, ok_bind]
      rw [if_pos rfl, show kindJ.isValid cap ⟨some C, fx, fy, ⟨ofInt32 1, some C.p⟩⟩ = .ok b from eb, ok_bind]
      cases b
      · rw [if_neg (by rw [← hb]; simp)]; rfl
      · rw [if_pos (hb.1 rfl), ok_bind, ej]; rfl

/-- Text to integer, for a text that may end in one terminator. -/
theorem ofHex_spec (cap : Cap) (h1 : cap.fits 1 = true) (s : List Byte) :
    (match hexNum (stripNul s) with
     | some v => if cap.fits (wordSize (((stripNul s).length + 1) / 2)) then ∃ x, ofHex cap s = .ok x ∧ x.Canon ∧ x.toInt = v
        else ofHex cap s = .error .abort
     | none => ofHex cap s = .error .abort) := by
  have h := fromHex_spec s
  cases hv : hexNum (stripNul s) with
  | none =>
    rw [hv] at h
    dsimp only at h ⊢
    unfold ofHex; rw [h]; rfl
  | some v =>
    rw [hv] at h
    obtain ⟨d, l, e, he⟩ := h
    dsimp only
    unfold ofHex ofBytes
    rw [he, ok_bind, ← l]
    by_cases hf : cap.fits (wordSize d.length) = true
    · rw [if_pos hf]
      obtain ⟨x, ex, cx, -, -, vx⟩ := setBytes_spec cap d hf h1
      rw [ex]
      exact ⟨x, rfl, cx, by rw [vx, e]⟩
    · rw [if_neg hf]
      have h0 : d ≠ [] := by
        rintro rfl
        apply hf
        rw [fits_iff]; intro M _; unfold wordSize; simp
      rw [setBytes_none cap d h0 (by simpa using hf)]

end
end Ack
