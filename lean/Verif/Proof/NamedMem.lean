import Verif.Model.NamedMem
import Verif.Proof.EcdsaNamed
import Verif.Proof.EcWhole
/-! # Named curves on memory -/
namespace Ack
open Mem Ack.Spec.Ec Ack.Spec.Prog Ack.Props WeierstrassCurve
open Big (Byte)

theorem kind_lim (q : CurveParams) (w : Bool) : (q.kind w).lim = q.cap w := by
  unfold CurveParams.kind CurveParams.cap Kind.lim
  split <;> rfl

theorem lit_bytes {q : CurveParams} {s : String} {v : Nat} (h : LitOk q s v) (w : Bool) :
    ∃ d, fromHexLit (chars s) = .ok d ∧ beVal d = v ∧ FitsBytes (q.kind w).lim d := by
  obtain ⟨h1, h2, h3⟩ := h
  have hs : stripNul (chars s) = chars s := if_neg h2
  have hf := fromHexFixed_spec (((chars s).length + 1) / 2) (chars s) (by rw [hs])
  rw [hs, h1] at hf
  obtain ⟨d, l, hv, e⟩ := hf
  rw [l, Nat.sub_self, List.replicate_zero, List.append_nil] at e
  refine ⟨d, e, hv, fun M hM => ?_⟩
  rw [kind_lim] at hM
  rcases cap_none_or q w with h | h <;> rw [h] at hM
  · cases hM
  · cases hM; omega

theorem words_le {m k : ℕ} (hk : 0 < k) (h : m < 2 ^ (32 * k)) : words (m : ℤ) ≤ k := by
  unfold words
  have : m.size ≤ 32 * k := Nat.size_le.2 h
  simp only [Int.natAbs_natCast]
  omega

variable {q : CurveParams} {P A B X Y N : ℕ}

theorem named_setting (K : NumCert q P A B X Y N) (w : Bool) : ∃ d, q.bytes = .ok d ∧ EcSetting (q.kind w) d P N ∧
    beVal d.a = A ∧ beVal d.b = B ∧ beVal d.gx = X ∧ beVal d.gy = Y ∧ d.h = q.h := by
  obtain ⟨h3, hA, hB0, hB, hX, hY, hPN, hPN3, hNP, hPb, hPb', hNb, hNb', hbits, hh⟩ := K.num
  obtain ⟨p, ep, vp, fp⟩ := lit_bytes K.hp w
  obtain ⟨a, ea, va, fa⟩ := lit_bytes K.ha w
  obtain ⟨b, eb, vb, fb⟩ := lit_bytes K.hb w
  obtain ⟨gx, ex, vx, fx⟩ := lit_bytes K.hgx w
  obtain ⟨gy, ey, vy, fy⟩ := lit_bytes K.hgy w
  obtain ⟨n, en, vn, fn⟩ := lit_bytes K.hn w
  have hk : 0 < bitsizeToWordsize q.bits := by unfold bitsizeToWordsize; omega
  have h32 : 2 ^ q.bits ≤ 2 ^ (32 * bitsizeToWordsize q.bits) := Nat.pow_le_pow_right (by norm_num) (by unfold bitsizeToWordsize; omega)
  have wp : words (P : ℤ) ≤ bitsizeToWordsize q.bits := words_le hk (by omega)
  have wn : words (N : ℤ) ≤ bitsizeToWordsize q.bits := words_le hk (by omega)
  refine ⟨⟨p, a, b, gx, gy, n, q.h⟩, ?_, ⟨vp, h3, va.trans_lt hA, vb.trans_lt hB, vn, K.np.one_lt, ?_, ?_, ?_, ?_⟩, va, vb, vx, vy, rfl⟩
  · unfold CurveParams.bytes
    rw [ep, ok_bind, ea, ok_bind, eb, ok_bind, ex, ok_bind, ey, ok_bind, en, ok_bind]
    rfl
  · intro s hs
    simp only [List.mem_cons, List.not_mem_nil, or_false] at hs
    rcases hs with rfl | rfl | rfl | rfl | rfl | rfl <;> assumption
  · rw [kind_lim]; exact cap_fits q w (by omega)
  · rw [kind_lim]; exact cap_fits q w (by omega)
  · intro hd
    unfold CurveParams.kind at hd ⊢
    split at hd
    · rename_i h; rw [if_pos h]; exact ⟨wp, wn⟩
    · cases hd

/-- **The domain of a named curve, on its own storage.** -/
theorem named_ec (K : NumCert q P A B X Y N) [Fact P.Prime] (w : Bool) : ∃ d, q.bytes = .ok d ∧
    ∃ G : (shortW (A : ZMod P) (B : ZMod P)).Point, EcDomain (q.kind w) d N (A : ZMod P) (B : ZMod P) G ∧ coords G = some ((X : ℤ), (Y : ℤ)) ∧
      Nat.card (shortW (A : ZMod P) (B : ZMod P)).Point = N := by
  obtain ⟨d, ed, S, va, vb, vx, vy, hh⟩ := named_setting K w
  refine ⟨d, ed, ?_⟩
  obtain ⟨h3, hA, hB0, hB, hX, hY, -⟩ := K.num
  obtain ⟨C, G, -, -, -, c2, c3, c4, c5, -, -, -, -, -, hC, hg, g0, ho, hcard, -, -⟩ := named_spec K w 1
  have ra : res P C.a = A := res_nat c2
  have rb : res P C.b = B := res_nat c3
  have hb0 : (B : ZMod P) ≠ 0 := rb ▸ hC.b0
  have hdisc : 4 * (A : ZMod P) ^ 3 + 27 * (B : ZMod P) ^ 2 ≠ 0 := by rw [← ra, ← rb]; exact hC.disc
  have key : ∀ a b, res P C.a = a → res P C.b = b → ∃ G : (shortW a b).Point, (∃ x y h, G = .some x y h ∧ X = x.val ∧ Y = y.val) ∧
      (N : ℤ) • G = 0 ∧ Nat.card (shortW a b).Point = N := by
    rintro _ _ rfl rfl
    refine ⟨G, ?_, ho, hcard⟩
    match G, hg, g0 with
    | .some x y h, hg, _ =>
      have f : ∀ {a : Fe} {x : ZMod P} {X : ℕ}, Ack.Rep P C.p a x → a.v.toInt = X → X < P → X = x.val := by
        intro a x X h e hl
        have : x = ((X : ℕ) : ZMod P) := by rw [← h.val]; unfold res; rw [e]; simp
        rw [this, ZMod.val_natCast, Nat.mod_eq_of_lt hl]
      exact ⟨x, y, h, rfl, f hg.2.1 c4 hX, f hg.2.2 c5 hY⟩
  obtain ⟨G', ⟨x, y, h, e, hx, hy⟩, ho', hc'⟩ := key _ _ ra rb
  refine ⟨G', ⟨S, by rw [va], by rw [vb], hb0, hdisc, ⟨x, y, h, e, by rw [vx, hx], by rw [vy, hy]⟩, K.np, ho'⟩, ?_, hc'⟩
  rw [e, hx, hy]
  rfl

/-- **The curve that the memory program makes is the named one.** -/
theorem named_make (K : NumCert q P A B X Y N) (w : Bool) {d : DomBytes} (ed : q.bytes = .ok d) (r : Params (q.kind w) d P N) :
    r.make = q.build w 1 := by
  have hl := kind_lim q w
  unfold CurveParams.bytes at ed
  obtain ⟨p, ep, -⟩ := lit_bytes K.hp w
  obtain ⟨a, ea, -⟩ := lit_bytes K.ha w
  obtain ⟨b, eb, -⟩ := lit_bytes K.hb w
  obtain ⟨gx, ex, -⟩ := lit_bytes K.hgx w
  obtain ⟨gy, ey, -⟩ := lit_bytes K.hgy w
  obtain ⟨n, en, -⟩ := lit_bytes K.hn w
  rw [ep, ok_bind, ea, ok_bind, eb, ok_bind, ex, ok_bind, ey, ok_bind, en, ok_bind] at ed
  cases ed
  unfold CurveParams.build Big.ofHexLit Params.make
  have rp := r.ep
  have ra := r.ea
  have rb := r.eb
  have rx := r.ex
  have ry := r.ey
  have rn := r.en
  rw [hl] at rp ra rb rx ry rn ⊢
  rw [ep, ok_bind, rp, ok_bind, ea, ok_bind, ra, ok_bind, eb, ok_bind, rb, ok_bind, ex, ok_bind, rx, ok_bind, ey, ok_bind, ry, ok_bind,
    en, ok_bind, rn, ok_bind]

theorem ev_action (cap : Cap) (C : Curve) (qx qy h r s : List Byte) :
    evExec cap C [.int qx, .int qy, .point 0 1 false, .int r, .int s, .verify 0 h 2 3] ⟨[], [], []⟩ = (do
      let x ← Big.ofBytes cap qx
      let y ← Big.ofBytes cap qy
      let q ← C.makePoint cap x y false
      let r ← Big.ofBytes cap r
      let s ← Big.ofBytes cap s
      let b ← ecdsaVerify cap q h r s
      return ⟨[x, y, r, s], [.aff q], [b]⟩) := by
  simp only [evExec, evStep]
  cases Big.ofBytes cap qx with
  | error e => rfl
  | ok x =>
  cases Big.ofBytes cap qy with
  | error e => rfl
  | ok y =>
  cases h1 : C.makePoint cap x y false with
  | error e => simp only [ok_bind, pure_bind]; show (C.makePoint cap x y false >>= _ >>= _ ) = _; rw [h1]; rfl
  | ok q =>
  simp only [ok_bind, pure_bind]
  show (C.makePoint cap x y false >>= _ >>= _ ) = _
  rw [h1]
  cases Big.ofBytes cap r with
  | error e => rfl
  | ok r' =>
  cases Big.ofBytes cap s with
  | error e => rfl
  | ok s' =>
  show (ecdsaVerify cap q h r' s' >>= _ >>= _) = (ecdsaVerify cap q h r' s' >>= _)
  cases ecdsaVerify cap q h r' s' <;> rfl

/-- **An action on memory is the action on values.** -/
theorem action_mem (a : EcdsaAction) (w : Bool) (host : HostHash) (qx qy msg r s : List Byte) {fuel : ℕ}
    (hP : Spec.Passes (stdCurve a.curve).p fuel) (hN : (stdCurve a.curve).n.size ≤ fuel) :
    (a.runR w fuel host qx qy msg r s BigSt.init).map (fun _ => ()) = a.run w 1 host qx qy msg r s := by
  have K := std_cert a.curve
  obtain ⟨d, ed, S, -⟩ := named_setting K w
  obtain ⟨R⟩ := params S
  have hm := named_make K w ed R
  have hs := program_sim R S hP hN [.int qx, .int qy, .point 0 1 false, .int r, .int s, .verify 0 (a.hash host msg) 2 3]
  rw [R.program, hm, kind_lim] at hs
  unfold EcdsaAction.runR EcdsaAction.run
  rw [ed]
  dsimp only
  cases eb : a.curve.params.build w 1 with
  | error e =>
    rw [eb] at hs
    rw [bind_err hs]
    rfl
  | ok C =>
    rw [eb, ok_bind, ev_action] at hs
    rw [ok_bind]
    unfold checkEcdsa
    cases e1 : Big.ofBytes (a.curve.params.cap w) qx with
    | error e => rw [e1] at hs; rw [bind_err hs]; rfl
    | ok x =>
    cases e2 : Big.ofBytes (a.curve.params.cap w) qy with
    | error e => rw [e1, ok_bind, e2] at hs; rw [bind_err hs]; rfl
    | ok y =>
    cases e3 : C.makePoint (a.curve.params.cap w) x y false with
    | error e => rw [e1, ok_bind, e2, ok_bind, e3] at hs; rw [bind_err hs, ok_bind, ok_bind, e3]; rfl
    | ok q =>
    cases e4 : Big.ofBytes (a.curve.params.cap w) r with
    | error e => rw [e1, ok_bind, e2, ok_bind, e3, ok_bind, e4] at hs; rw [bind_err hs, ok_bind, ok_bind, e3, ok_bind]; rfl
    | ok r' =>
    cases e5 : Big.ofBytes (a.curve.params.cap w) s with
    | error e => rw [e1, ok_bind, e2, ok_bind, e3, ok_bind, e4, ok_bind, e5] at hs; rw [bind_err hs, ok_bind, ok_bind, e3, ok_bind]; rfl
    | ok s' =>
    rw [e1, ok_bind, e2, ok_bind, e3, ok_bind, e4, ok_bind, e5, ok_bind] at hs
    rw [ok_bind, ok_bind, e3, ok_bind, ok_bind, ok_bind]
    unfold assertEcdsa
    cases e6 : ecdsaVerify (a.curve.params.cap w) q (a.hash host msg) r' s' with
    | error e => rw [e6] at hs; rw [bind_err hs]; rfl
    | ok b =>
      rw [e6, ok_bind] at hs
      obtain ⟨v, st, ep, -, C', -, hv⟩ := hs
      rw [bind_run ep, hv.bools]
      cases b <;> rfl

end Ack
