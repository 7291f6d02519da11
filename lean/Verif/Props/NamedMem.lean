import Verif.Proof.NamedMem
import Verif.Spec.NamedProg
import Verif.Props.KeyProg
import Verif.Props.Contract
/-! # The named curves and the contract, on real storage (C87) -/
namespace Ack.Props
open Ack.Mem Ack.Spec.Ec Ack.Spec.Prog Ack.Spec.Key WeierstrassCurve
open Big (Byte)

theorem room_eq (c : Named) (wasm : Bool) : (c.params.kind wasm).lim = room wasm (stdCurve c).bits := by
  rw [kind_lim]
  cases c <;> cases wasm <;> decide

theorem named_sees {c : Named} {wasm : Bool} {fuel : ℕ} {d : DomBytes} (e : c.params.bytes = .ok d) (ts : List KStmt) :
    namedSees wasm fuel c ts = kSees (c.params.kind wasm) fuel d ts := by
  unfold namedSees namedReport Named.program
  rw [e]
  rfl

theorem std_lt (c : Named) : (stdCurve c).n < (stdCurve c).p := by cases c <;> decide +kernel

theorem std_size (c : Named) : (stdCurve c).p < 2 ^ (stdCurve c).bits ∧ (stdCurve c).p % 4 = 3 := by cases c <;> decide +kernel

/-- Two passes for every bit and three: enough for every named curve. -/
theorem std_passes (c : Named) {fuel : ℕ} (hf : 2 * (stdCurve c).bits + 3 ≤ fuel) :
    Spec.Passes (stdCurve c).p fuel ∧ (stdCurve c).n.size ≤ fuel := by
  obtain ⟨h1, h4⟩ := std_size c
  have hs := Nat.size_le.2 h1
  have hn := Nat.size_le.2 ((std_lt c).trans h1)
  exact ⟨⟨by omega, fun h => by omega⟩, by omega⟩

/-- **C87**: with no hypothesis on the parameters: the literals of every named curve, stored in the integers of that curve in either
build, make the curve of the standard, a group of prime order with the generator of the standard; and every program on it, as in C86,
within the domains of the functions, ends normally and sees what that group gives.  A check that fails stops it. -/
theorem C87_programs (c : Named) (wasm : Bool) : ∃ (_ : Fact (stdCurve c).p.Prime)
    (G : (shortW ((stdCurve c).a : ZMod (stdCurve c).p) ((stdCurve c).b : ZMod (stdCurve c).p)).Point),
    coords G = some (((stdCurve c).gx : ℤ), ((stdCurve c).gy : ℤ)) ∧
    Nat.card (shortW ((stdCurve c).a : ZMod (stdCurve c).p) ((stdCurve c).b : ZMod (stdCurve c).p)).Point = (stdCurve c).n ∧ (stdCurve c).n.Prime ∧
    ∀ fuel, 2 * (stdCurve c).bits + 3 ≤ fuel → ∀ ts e, KRuns (room wasm (stdCurve c).bits) (stdCurve c).n G ⟨⟨[], [], []⟩, []⟩ ts e →
      namedSees wasm fuel c ts = .ok ⟨e.ec.ints, e.ec.pts.map (fun Q => coords Q.2), e.ec.bools, e.bytes⟩ ∧
      ∀ t us, KStops (room wasm (stdCurve c).bits) (stdCurve c).n e t → namedSees wasm fuel c (ts ++ t :: us) = .error .abort := by
  have K := std_cert c
  haveI hP : Fact (stdCurve c).p.Prime := ⟨ecpp K.np K.run⟩
  obtain ⟨d, ed, G, E, hg, hc⟩ := named_ec K wasm
  refine ⟨hP, G, hg, hc, K.np, fun fuel hf ts e h => ?_⟩
  rw [← room_eq] at h ⊢
  refine ⟨?_, fun t us ht => ?_⟩
  · rw [named_sees ed]
    exact C86_programs E h (std_passes c hf).1 (std_passes c hf).2
  · rw [named_sees ed]
    exact C86_stops E h ht (std_passes c hf).1 (std_passes c hf).2

/-- Five times the generator of any of the curves, twice that, and the opposite. -/
example (c : Named) (wasm : Bool) : ∃ (_ : Fact (stdCurve c).p.Prime)
    (G : (shortW ((stdCurve c).a : ZMod (stdCurve c).p) ((stdCurve c).b : ZMod (stdCurve c).p)).Point),
    coords G = some (((stdCurve c).gx : ℤ), ((stdCurve c).gy : ℤ)) ∧ ∀ fuel, 2 * (stdCurve c).bits + 3 ≤ fuel →
      namedSees wasm fuel c [.ec (.int [5]), .ec (.generate .jac 0), .ec (.dbl 0), .ec (.conv .aff 1), .ec (.opp 2)] =
        .ok ⟨[5], [coords ((5 : ℤ) • G), coords ((5 : ℤ) • G + (5 : ℤ) • G), coords ((5 : ℤ) • G + (5 : ℤ) • G),
          coords (-((5 : ℤ) • G + (5 : ℤ) • G))], [], []⟩ ∧
      namedSees wasm fuel c [.ec (.int [0]), .ec (.generate .jac 0), .ec (.dbl 0)] = .error .abort := by
  obtain ⟨hP, G, hg, -, -, h⟩ := C87_programs c wasm
  have hn : (5 : ℤ) < (stdCurve c).n := by cases c <;> decide +kernel
  have fb : ∀ x : Byte, FitsBytes (room wasm (stdCurve c).bits) [x] := by
    cases c <;> cases wasm <;> intro x M hM <;> cases hM <;> exact Nat.le_of_ble_eq_true rfl
  have fn : Cap.fits (room wasm (stdCurve c).bits) (words (stdCurve c).n + 1) = true := by cases c <;> cases wasm <;> decide +kernel
  refine ⟨hP, G, hg, fun fuel hf => ⟨?_, ?_⟩⟩
  · refine (h fuel hf _ ⟨⟨[5], [(.jac, (5 : ℤ) • G), (.jac, (5 : ℤ) • G + (5 : ℤ) • G), (.aff, (5 : ℤ) • G + (5 : ℤ) • G),
      (.aff, -((5 : ℤ) • G + (5 : ℤ) • G))], []⟩, []⟩ ?_).1
    exact .cons (.ec (.int _ (fb _))) (.cons (.ec (.generate .jac rfl (by decide) hn fun _ => fn)) (.cons (.ec (.dbl rfl))
      (.cons (.ec (.conv .aff rfl (.inl rfl))) (.cons (.ec (.opp rfl)) (.nil _)))))
  · refine (h fuel hf [.ec (.int [0])] ⟨⟨[0], [], []⟩, []⟩ ?_).2 (.ec (.generate .jac 0)) [.ec (.dbl 0)] ?_
    · exact .cons (.ec (.int _ (fb _))) (.nil _)
    · exact .ec (.generate .jac (x := 0) rfl fun h => absurd h.1 (by decide))

/-- **C87**: an ECDSA action of the contract on the storage of its curve does, for all arguments, what it does on values: C75 holds of it. -/
theorem C87_action_values (a : EcdsaAction) (wasm : Bool) (host : HostHash) (qx qy msg r s : List Byte) {fuel : ℕ}
    (hf : 2 * (stdCurve a.curve).bits + 3 ≤ fuel) :
    (a.runR wasm fuel host qx qy msg r s BigSt.init).map (fun _ => ()) = a.run wasm 1 host qx qy msg r s :=
  action_mem a wasm host qx qy msg r s (std_passes _ hf).1 (std_passes _ hf).2

theorem off_curve_run1 : (EcdsaAction.ecdsak1).run true 1 (constHost offR) [1] [1] [] offR offR = .ok () := by decide +kernel

theorem runR_ok {x : Except Err (Unit × BigSt)} : (∃ t, x = .ok ((), t)) ↔ x.map (fun _ => ()) = .ok () := by
  cases x with
  | error e => exact ⟨fun ⟨_, h⟩ => (by cases h), fun h => by cases h⟩
  | ok v => exact ⟨fun _ => rfl, fun _ => ⟨v.2, rfl⟩⟩

/-- **C87**: on real storage, for every public key on the curve, every message and every signature, each action completes exactly
when the signature is valid by FIPS 186-5 for the digest of the message and the byte strings are not longer than the storage. -/
theorem C87_action_valid (a : EcdsaAction) (wasm : Bool) (host : HostHash) (l1 : ∀ x, (host.sha256 x).length = 32)
    (l2 : ∀ x, (host.sha512 x).length = 64) {fuel : ℕ} (hf : 2 * (stdCurve a.curve).bits + 3 ≤ fuel) :
    ∃ (P N : ℕ) (_ : Fact P.Prime) (C : Curve) (G : C.Pt P), a.curve.params.build wasm 1 = .ok C ∧
      Domain N (a.curve.params.cap wasm) C G ∧ IsStd C (ecdsaCurve a) ∧ C.n.toInt = N ∧
      ∀ (qx qy msg r s : List Byte) (X Y : ZMod P) (hn : (C.W P).Nonsingular X Y), msg.length < 2 ^ 64 → X.val = beVal qx → Y.val = beVal qy →
        ((∃ t, a.runR wasm fuel host qx qy msg r s BigSt.init = .ok ((), t)) ↔
          (∀ x ∈ [qx, qy, r, s], FitsBytes (room wasm (ecdsaCurve a).bits) x) ∧
          EcdsaValid N G (.some X Y hn) (fipsE N.size (ecdsaDigest host a msg)) (beVal r) (beVal s)) := by
  obtain ⟨P, N, hP, C, G, e, D, h1, h2, h⟩ := C75_ecdsa_partial a wasm 1 host l1 l2
  refine ⟨P, N, hP, C, G, e, D, h1, h2, fun qx qy msg r s X Y hn hl hX hY => ?_⟩
  rw [runR_ok, C87_action_values a wasm host qx qy msg r s hf, h qx qy msg r s X Y hn hl hX hY]
  have hr : a.curve.params.cap wasm = room wasm (ecdsaCurve a).bits := by
    rw [← kind_lim, room_eq]
    cases a <;> rfl
  rw [hr]
  refine and_congr_left' ⟨fun h x hx M hM => ?_, fun h M hM => ?_⟩
  · obtain ⟨a1, a2, a3, a4⟩ := h M hM
    simp only [List.mem_cons, List.not_mem_nil, or_false] at hx
    rcases hx with rfl | rfl | rfl | rfl <;> assumption
  · exact ⟨h qx (by simp) M hM, h qy (by simp) M hM, h r (by simp) M hM, h s (by simp) M hM⟩

/-- **C87**: on real storage an action has no undefined behaviour and ends, whatever the arguments: it completes or it aborts; and it
completes only if the coordinates are below p and the two numbers of the signature are between 1 and n - 1. -/
theorem C87_action_total (a : EcdsaAction) (wasm : Bool) (host : HostHash) (qx qy msg r s : List Byte) {fuel : ℕ}
    (hf : 2 * (stdCurve a.curve).bits + 3 ≤ fuel) :
    a.runR wasm fuel host qx qy msg r s BigSt.init = .error .abort ∨
    (∃ t, a.runR wasm fuel host qx qy msg r s BigSt.init = .ok ((), t)) ∧
      beVal qx < (ecdsaCurve a).p ∧ beVal qy < (ecdsaCurve a).p ∧ 1 ≤ beVal r ∧ beVal r < (ecdsaCurve a).n ∧ 1 ≤ beVal s ∧ beVal s < (ecdsaCurve a).n := by
  obtain ⟨P, N, hP, C, G, e, D, h1, h2, h⟩ := C75_total a wasm 1 host
  have hv := C87_action_values a wasm host qx qy msg r s hf
  have eP : (ecdsaCurve a).p = P := by have := h1.p; have := D.K.M.eq; omega
  have eN : (ecdsaCurve a).n = N := by have := h1.n; omega
  rcases h qx qy msg r s with h | ⟨h, h'⟩
  · left
    rw [h] at hv
    revert hv
    cases a.runR wasm fuel host qx qy msg r s BigSt.init with
    | error e => intro h; cases h; rfl
    | ok v => intro h; cases h
  · rw [h] at hv
    rw [eP, eN]
    exact .inr ⟨runR_ok.2 hv, h'⟩

/-- The key off the curve of C75 is accepted on real storage too. -/
theorem C87_off_curve_wrong (host : HostHash) (msg : List Byte) (h : host.sha256 msg = offR) {fuel : ℕ}
    (hf : 2 * 256 + 3 ≤ fuel) :
    ∃ t, (EcdsaAction.ecdsak1).runR true fuel host [1] [1] msg offR offR BigSt.init = .ok ((), t) := by
  rw [runR_ok, C87_action_values _ _ _ _ _ _ _ _ hf]
  have := off_curve_run1
  unfold EcdsaAction.run checkEcdsa at this ⊢
  rw [show EcdsaAction.ecdsak1.hash host msg = offR from h]
  exact this

end Ack.Props
