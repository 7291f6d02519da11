import Verif.Model.Contract
import Verif.Proof.EcAny
import Verif.Proof.EcdsaNamed
import Verif.Proof.RsaHost
/-!
# The example contract
-/
namespace Ack
open Big WeierstrassCurve

/-- The byte string fits the storage of an integer. -/
def FitsBytes (cap : Cap) (d : List Byte) : Prop := ∀ M, cap = some M → d.length ≤ 4 * M

theorem ofBytes_fits (cap : Cap) (d : List Byte) (h1 : cap.fits 1 = true) :
    (FitsBytes cap d ∧ ∃ x, ofBytes cap d = .ok x ∧ x.Canon ∧ x.toInt = beVal d) ∨ (¬ FitsBytes cap d ∧ ofBytes cap d = .error .abort) := by
  have key : FitsBytes cap d ↔ cap.fits (wordSize d.length) = true := by
    rw [fits_iff]
    unfold FitsBytes wordSize
    constructor <;> intro h M hM <;> have := h M hM <;> omega
  by_cases hf : cap.fits (wordSize d.length) = true
  · obtain ⟨x, e, c, -, -, v⟩ := setBytes_spec cap d hf h1
    exact .inl ⟨key.2 hf, x, by unfold ofBytes; rw [e], c, v⟩
  · refine .inr ⟨fun h => hf (key.1 h), ?_⟩
    have h0 : d ≠ [] := by
      rintro rfl
      apply hf
      rw [fits_iff]
      intro M _
      unfold wordSize; simp
    unfold ofBytes
    rw [setBytes_none cap d h0 (by simpa using hf)]

section
variable {P N : ℕ} [Fact P.Prime] {cap : Cap} {C : Curve} {G : C.Pt P}

/-- What an ECDSA action does, for all arguments. -/
theorem checkEcdsa_cases (D : AnyDomain N cap C G) (H : Hash) (qx qy msg r s : List Byte) :
    (checkEcdsa cap C H qx qy msg r s = .error .abort ∧
      ¬ (FitsBytes cap qx ∧ FitsBytes cap qy ∧ FitsBytes cap r ∧ FitsBytes cap s ∧ beVal qx < P ∧ beVal qy < P)) ∨
    ((FitsBytes cap qx ∧ FitsBytes cap qy ∧ FitsBytes cap r ∧ FitsBytes cap s ∧ beVal qx < P ∧ beVal qy < P) ∧
      ∃ (q : APt) (r' s' : Big), q.curve = some C ∧ Rep P C.p q.x ((beVal qx : ℕ) : ZMod P) ∧ Rep P C.p q.y ((beVal qy : ℕ) : ZMod P) ∧
        r'.Canon ∧ r'.toInt = beVal r ∧ s'.Canon ∧ s'.toInt = beVal s ∧
        checkEcdsa cap C H qx qy msg r s = assertEcdsa cap q (H msg) r' s') := by
  have h1 : cap.fits 1 = true := D.Mn.room.fits (by have := Canon.len_pos D.Mn.canon; omega)
  unfold checkEcdsa
  rcases ofBytes_fits cap qx h1 with ⟨fx, x, ex, cx, vx⟩ | ⟨fx, ex⟩
  swap
  · rw [ex]; exact .inl ⟨rfl, by tauto⟩
  rcases ofBytes_fits cap qy h1 with ⟨fy, y, ey, cy, vy⟩ | ⟨fy, ey⟩
  swap
  · rw [ex, ok_bind, ey]; exact .inl ⟨rfl, by tauto⟩
  obtain ⟨m1, m2⟩ := makePoint_spec (P := P) D.K D.Mn.canon cx cy
  rw [ex, ok_bind, ey, ok_bind]
  rw [vx, vy] at m1 m2
  by_cases hr : beVal qx < P ∧ beVal qy < P
  swap
  · rw [m1 (by omega) false]; exact .inl ⟨rfl, by tauto⟩
  rw [(m2 (by omega)).1, ok_bind]
  dsimp only
  rcases ofBytes_fits cap r h1 with ⟨fr, r', er, cr, vr⟩ | ⟨fr, er⟩
  swap
  · rw [er]; exact .inl ⟨rfl, by tauto⟩
  rcases ofBytes_fits cap s h1 with ⟨fs, s', es, cs, vs⟩ | ⟨fs, es⟩
  swap
  · rw [er, ok_bind, es]; exact .inl ⟨rfl, by tauto⟩
  rw [er, ok_bind, es, ok_bind]
  have rep : ∀ {z : Big} {v : ℕ}, z.Canon → z.toInt = v → v < P → Rep P C.p ⟨z, some C.p⟩ (v : ZMod P) := by
    intro z v c e l
    exact ⟨rfl, ⟨c, by show 0 ≤ z.toInt; omega, by show z.toInt < _; rw [D.K.M.eq]; omega⟩, by show res P z = _; unfold res; rw [e]; simp⟩
  exact .inr ⟨⟨fx, fy, fr, fs, hr⟩, _, r', s', rfl, rep cx vx hr.1, rep cy vy hr.2, cr, vr, cs, vs, rfl⟩

theorem assertEcdsa_ok {q : APt} {msg : List Byte} {r s : Big} {b : Bool} (h : ecdsaVerify cap q msg r s = .ok b) :
    assertEcdsa cap q msg r s = if b then .ok () else .error .abort := by
  unfold assertEcdsa
  rw [h, ok_bind]
  cases b <;> rfl

theorem checkEcdsa_total (D : AnyDomain N cap C G) (H : Hash) (qx qy msg r s : List Byte) :
    checkEcdsa cap C H qx qy msg r s = .error .abort ∨
    (checkEcdsa cap C H qx qy msg r s = .ok () ∧ beVal qx < P ∧ beVal qy < P ∧ 1 ≤ beVal r ∧ beVal r < N ∧ 1 ≤ beVal s ∧ beVal s < N) := by
  rcases checkEcdsa_cases D H qx qy msg r s with ⟨h, -⟩ | ⟨⟨-, -, -, -, hx, hy⟩, q, r', s', hc, hqx, hqy, cr, vr, cs, vs, e⟩
  · exact .inl h
  · obtain ⟨b, eb, hb⟩ := ecdsaVerify_total D (q := q) (fun _ => ⟨hc, _, _, hqx, hqy⟩) (H msg) cr cs
    rw [e, assertEcdsa_ok eb]
    cases b
    · exact .inl rfl
    · obtain ⟨-, h1, h2, h3, h4⟩ := hb rfl
      rw [vr] at h1 h2
      rw [vs] at h3 h4
      exact .inr ⟨rfl, hx, hy, by omega, by omega, by omega, by omega⟩

theorem checkEcdsa_spec (D : Domain N cap C G) (H : Hash) (qx qy msg r s : List Byte) (hm : N.size % 8 = 0 ∨ 8 * (H msg).length ≤ N.size)
    {X Y : ZMod P} {hn} (hX : X.val = beVal qx) (hY : Y.val = beVal qy) :
    checkEcdsa cap C H qx qy msg r s = .ok () ↔ (FitsBytes cap qx ∧ FitsBytes cap qy ∧ FitsBytes cap r ∧ FitsBytes cap s) ∧
      EcdsaValid N G (.some X Y hn) (fipsE N.size (H msg)) (beVal r) (beVal s) := by
  have hx : beVal qx < P := hX ▸ ZMod.val_lt X
  have hy : beVal qy < P := hY ▸ ZMod.val_lt Y
  rcases checkEcdsa_cases D.toAnyDomain H qx qy msg r s with ⟨h, h'⟩ | ⟨⟨f1, f2, f3, f4, -, -⟩, q, r', s', hc, hqx, hqy, cr, vr, cs, vs, e⟩
  · rw [h]
    constructor
    · intro hh; cases hh
    · rintro ⟨hf, -⟩; exact absurd ⟨hf.1, hf.2.1, hf.2.2.1, hf.2.2.2, hx, hy⟩ h'
  · have eX : ((beVal qx : ℕ) : ZMod P) = X := by rw [← hX, ZMod.natCast_zmod_val]
    have eY : ((beVal qy : ℕ) : ZMod P) = Y := by rw [← hY, ZMod.natCast_zmod_val]
    rw [eX] at hqx
    rw [eY] at hqy
    obtain ⟨b, eb, hb⟩ := ecdsaVerify_spec D (q := q) (Q := .some X Y hn) ⟨hc, hqx, hqy⟩ (H msg) cr cs
    rw [lead_eq_fips _ _ hm, vr, vs] at hb
    rw [e, assertEcdsa_ok eb, ← hb]
    cases b
    · simp
    · simp [f1, f2, f3, f4]

end
end Ack
