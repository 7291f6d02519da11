import Verif.Props.NamedMem
import Verif.Props.CurveMem
import Verif.Props.AliasNT
import Mathlib.Data.Nat.Fib.Basic
/-!
# C100: how often the loops run

The bound `fuel` of the functions on memory counts the passes of every loop whose length the code does not fix beforehand.
-/
namespace Ack.Props
open Ack.Mem Ack.Spec.Ec Ack.Spec.Prog Ack.Spec.Key WeierstrassCurve
open Big (Byte)

/-! ## Integers -/

/-- **C100, greatest common divisor**: in the state after any program `gcd` ends within two passes for every bit of the second number and
one; both storages, any signs, any result object. -/
theorem C100_gcd (K : Kind) (s : BigSt) (e : Env) (R : Reached K s e) (z x y : Nat) (a b : Int)
    (hx : e[x]? = some (some a)) (hy : e[y]? = some (some b)) (hz : z < e.length) (fuel : ℕ) (hf : 2 * b.natAbs.size + 1 ≤ fuel) :
    ∃ s' r, s.gcd K fuel z x y = .ok s' ∧ s'.value z = .ok r ∧ r.natAbs = Int.gcd a b ∧ (0 ≤ a → 0 ≤ b → 0 ≤ r) ∧
      ∀ i c, i ≠ z → e[i]? = some (some c) → s'.value i = .ok c := by
  have H := R.holds
  obtain ⟨X, x1, x2, x3⟩ := H.get x a hx
  obtain ⟨Y, y1, y2, y3⟩ := H.get y b hy
  have hs : Big.gcdSteps (val X.ws) (val Y.ws) ≤ fuel := by
    have h1 := Big.gcdSteps_le_size (val X.ws) (val Y.ws)
    have h2 := Big.natAbs_toInt Y
    rw [y3] at h2
    rw [h2] at hf
    omega
  obtain ⟨s', G, eg, e1, P1⟩ := gcd_mem (z := z) H.inv x1 y1 (by rw [H.len]; exact hz) x2 y2 fuel hs
  obtain ⟨cG, vG, nG⟩ := gcd_value fuel X Y G x2 y2 (rep_fits H.inv x1) (rep_fits H.inv y1) hs eg
  rw [x3, y3] at vG nG
  refine ⟨s', G.toInt, e1, value_of P1.res, vG, nG, fun i c hi hc => ?_⟩
  obtain ⟨B, b1, b2, b3⟩ := H.get i c hc
  rw [value_of (P1.frame i B hi b1), b3]

/-- The loop with too few passes does not end. -/
theorem gcdGo_short (cap : Cap) : ∀ (f : Nat) (x y : Big), x.Canon → y.Canon → Big.Fits cap x → Big.Fits cap y →
    f < Big.gcdSteps (val x.ws) (val y.ws) → Big.gcdGo cap f x y = .error .fuel := by
  intro f
  induction f with
  | zero => intro x y _ _ _ _ _; rfl
  | succ f ih =>
    intro x y cx cy fx fy h
    rw [Big.gcdGo]
    by_cases hz : y.isZero = true
    · rw [Big.isZero_iff cy, Big.toInt_zero_iff] at hz
      rw [hz, Big.gcdSteps_zero] at h
      omega
    · rw [if_neg hz]
      rw [Big.isZero_iff cy] at hz
      obtain ⟨q, r, e, cq, cr, fq, fr, vq, vr, nr, -⟩ := Big.divMod?_spec cap x y cx cy fx hz
      have hrv : val r.ws = val x.ws % val y.ws := by
        rw [← Big.natAbs_toInt, vr, Int.natAbs_tmod, Big.natAbs_toInt, Big.natAbs_toInt]
      rw [Big.gcdSteps_pos (by rw [Big.toInt_zero_iff] at hz; exact hz), ← hrv] at h
      simp only [e, ok_bind]
      exact ih y r cy cr fy fr (by omega)

theorem gcdSteps_fib (k : ℕ) : Big.gcdSteps (Nat.fib (k + 3)) (Nat.fib (k + 2)) = k + 2 := by
  induction k with
  | zero =>
    show Big.gcdSteps 2 1 = 2
    rw [Big.gcdSteps_pos (by decide), Nat.mod_one, Big.gcdSteps_zero]
  | succ k ih =>
    have hlt : Nat.fib (k + 2) < Nat.fib (k + 3) := Nat.fib_lt_fib_succ (by omega)
    have h4 : Nat.fib (k + 1 + 3) = Nat.fib (k + 2) + Nat.fib (k + 3) := Nat.fib_add_two
    show Big.gcdSteps (Nat.fib (k + 1 + 3)) (Nat.fib (k + 3)) = k + 1 + 2
    rw [Big.gcdSteps_pos (by omega), h4, Nat.add_mod_right, Nat.mod_eq_of_lt hlt, ih]

/-- **C100, no less**: a number of passes linear in the bits is needed: of two successive Fibonacci numbers the second has at most k + 1
bits, k + 2 passes are enough for their greatest common divisor, 1, and k + 1 are not. -/
theorem C100_gcd_tight (cap : Cap) (k : ℕ) (x y : Big) (cx : x.Canon) (cy : y.Canon) (fx : Big.Fits cap x) (fy : Big.Fits cap y)
    (hx : x.toInt = Nat.fib (k + 3)) (hy : y.toInt = Nat.fib (k + 2)) :
    (Nat.fib (k + 2)).size ≤ k + 1 ∧ (∃ z, Big.gcdGo cap (k + 2) x y = .ok z ∧ z.toInt = 1) ∧ ∀ f ≤ k + 1, Big.gcdGo cap f x y = .error .fuel := by
  have hs : Big.gcdSteps (val x.ws) (val y.ws) = k + 2 := by
    rw [← Big.natAbs_toInt, ← Big.natAbs_toInt, hx, hy, Int.natAbs_natCast, Int.natAbs_natCast, gcdSteps_fib]
  refine ⟨Nat.size_le.2 ?_, ?_, fun f hf => gcdGo_short cap f x y cx cy fx fy (by omega)⟩
  · have key : ∀ n, Nat.fib (n + 2) < 2 ^ (n + 1) ∧ Nat.fib (n + 1) < 2 ^ (n + 1) := by
      intro n
      induction n with
      | zero => decide
      | succ n ih =>
        have h1 : Nat.fib (n + 1 + 2) = Nat.fib (n + 1) + Nat.fib (n + 1 + 1) := Nat.fib_add_two
        have h2 : 2 ^ (n + 1 + 1) = 2 * 2 ^ (n + 1) := by rw [pow_succ]; omega
        rw [h1, h2]
        obtain ⟨ih1, ih2⟩ := ih
        rw [show n + 1 + 1 = n + 2 by omega]
        omega
    exact (key k).1
  · obtain ⟨z, ez, cz, fz, vz, nz⟩ := Big.gcdGo_spec cap (k + 2) x y cx cy fx fy (by omega)
    obtain ⟨-, vz, nz⟩ := gcd_value (k + 2) x y z cx cy fx fy (by omega) ez
    refine ⟨z, ez, ?_⟩
    have h0 : 0 ≤ z.toInt := nz (by omega) (by omega)
    rw [hx, hy, Int.gcd_natCast_natCast] at vz
    have := Nat.fib_coprime_fib_succ (k + 2)
    rw [Nat.coprime_comm] at this
    rw [this] at vz
    omega

/-- **C100, modular inverse**: `modinv` ends within one pass for every bit of the number to invert.  Conditions and result as in C81. -/
theorem C100_modinv (K : Kind) (s : BigSt) (e : Env) (R : Reached K s e) (y x m : Nat) (a n : Int)
    (hx : e[x]? = some (some a)) (hm : e[m]? = some (some n)) (hy : y < e.length) (ha : 0 ≤ a) (hn : 1 < n)
    (room : fits (if K.dyn then none else some K.N) (max (words a) (words n) + 1)) (inl : K.dyn = true → words n ≤ K.N)
    (fuel : ℕ) (hf : a.natAbs.size ≤ fuel) :
    ∃ s' ok, s.modinv K fuel y x m = .ok (s', ok) ∧ (ok = true ↔ Int.gcd a n = 1) ∧
      (ok = true → ∃ r, s'.value y = .ok r ∧ 0 < r ∧ r < n ∧ r * a ≡ 1 [ZMOD n]) ∧
      ∀ i b, i ≠ y → e[i]? = some (some b) → s'.value i = .ok b := by
  have H := R.holds
  obtain ⟨X, x1, x2, x3⟩ := H.get x a hx
  obtain ⟨M, m1, m2, m3⟩ := H.get m n hm
  have room' : fits K.lim (max X.ws.length M.ws.length + 1) := by rw [words_eq x2, words_eq m2, x3, m3]; exact room
  obtain ⟨s', ok, e1, I', l', f', t', r'⟩ := modinv_mem (y := y) (lim_fits' _ _ room') m2 (le_max_right _ _) (rep_fits H.inv m1) (by omega)
    (fun hd => by rw [words_eq m2, m3]; exact inl hd) H.inv x1 m1 (by rw [H.len]; exact hy) x2 (by omega) (le_max_left _ _)
    fuel (by
      have h2 := Big.natAbs_toInt X
      rw [x3] at h2
      rw [h2] at hf
      exact Nat.size_le.1 hf)
  rw [x3, m3] at t' r'
  refine ⟨s', ok, e1, t', fun h => ?_, fun i b hi hb => ?_⟩
  · obtain ⟨Z, z1, z2, z3, z4, z5⟩ := r' h
    exact ⟨_, value_of z1, z3, z4, z5⟩
  · obtain ⟨B, b1, b2, b3⟩ := H.get i b hb
    rw [value_of (f' i B hi b1), b3]

/-! ## Fields and curves: the theorems C84 to C99 with `Passes` -/

/-- **C100, fields**: for every prime above 2, two passes for every bit and three are enough for all functions on the field if the prime
is 3 mod 4; otherwise the search for a number that is no square, which a square root needs, is over after about the square root of the
prime. -/
theorem C100_passes (P fuel : ℕ) [Fact P.Prime] (h2 : 2 < P) (h : 2 * P.size + 3 ≤ fuel) (h4 : P % 4 = 3 ∨ P ≤ fuel * (fuel + 1)) :
    Spec.Passes P fuel := by
  rcases h4 with h4 | h4
  · exact ⟨h, fun h => by omega⟩
  · exact Spec.Passes.of_sqrt h2 h h4

/-- The number 2 is no square if the prime is 5 mod 8: the search is over at once. -/
theorem C100_five (P fuel : ℕ) [Fact P.Prime] (h : 2 * P.size + 3 ≤ fuel) (h8 : P % 8 = 5) : Spec.Passes P fuel := by
  refine ⟨h, fun _ => ⟨2, by omega, fun hs => ?_⟩⟩
  have h2 : P ≠ 2 := by omega
  have := (ZMod.exists_sq_eq_two_iff (p := P) h2).1 (by exact_mod_cast hs)
  omega

example : Spec.Passes 229 19 := by
  haveI : Fact (Nat.Prime 229) := ⟨by norm_num⟩
  exact C100_five 229 19 (by decide +kernel) (by decide)

/-- **C100, the named curves**: for a program on the functions of a named curve (C86, C87), 2 · bits + 3 passes of each loop are enough, so
1045 for all of them; more change nothing. -/
theorem C100_named (c : Named) (wasm : Bool) : ∃ (_ : Fact (stdCurve c).p.Prime)
    (G : (shortW ((stdCurve c).a : ZMod (stdCurve c).p) ((stdCurve c).b : ZMod (stdCurve c).p)).Point),
    coords G = some (((stdCurve c).gx : ℤ), ((stdCurve c).gy : ℤ)) ∧ 2 * (stdCurve c).bits + 3 ≤ 1045 ∧
    ∀ ts e, KRuns (room wasm (stdCurve c).bits) (stdCurve c).n G ⟨⟨[], [], []⟩, []⟩ ts e →
      ∃ o, namedSees wasm (2 * (stdCurve c).bits + 3) c ts = .ok o ∧ ∀ fuel, 2 * (stdCurve c).bits + 3 ≤ fuel → namedSees wasm fuel c ts = .ok o := by
  obtain ⟨hP, G, hg, -, -, h⟩ := C87_programs c wasm
  refine ⟨hP, G, hg, by cases c <;> decide, fun ts e he => ⟨_, (h _ le_rfl ts e he).1, fun fuel hf => (h fuel hf ts e he).1⟩⟩

/-- **C100, the contract**: whatever the arguments, an ECDSA action ends, and does the same, if every loop may run 1045 times: there is no
argument that makes it run longer. -/
theorem C100_action (a : EcdsaAction) (wasm : Bool) (host : HostHash) (qx qy msg r s : List Byte) :
    ((∃ t, a.runR wasm 1045 host qx qy msg r s BigSt.init = .ok ((), t)) ∨ a.runR wasm 1045 host qx qy msg r s BigSt.init = .error .abort) ∧
    ∀ fuel, 1045 ≤ fuel → (a.runR wasm fuel host qx qy msg r s BigSt.init).map (fun _ => ()) =
      (a.runR wasm 1045 host qx qy msg r s BigSt.init).map (fun _ => ()) := by
  have hb : 2 * (stdCurve a.curve).bits + 3 ≤ 1045 := by cases a <;> decide
  refine ⟨?_, fun fuel hf => ?_⟩
  · rcases C87_action_total a wasm host qx qy msg r s hb with h | ⟨h, -⟩
    · exact .inr h
    · exact .inl h
  · rw [C87_action_values a wasm host qx qy msg r s hb, C87_action_values a wasm host qx qy msg r s (by omega)]

/-! ### Cases -/

/-- The two numbers 144 and 89, and a third that gets the result: 11 passes are enough, 10 are not. -/
example : ((exec ⟨4, true⟩ 0 BigSt.init [.create 144, .create 89, .create 0]).bind (fun s => s.gcd ⟨4, true⟩ 11 2 0 1)).bind (·.value 2) = .ok 1 ∧
    ((exec ⟨4, true⟩ 0 BigSt.init [.create 144, .create 89, .create 0]).bind (fun s => s.gcd ⟨4, true⟩ 10 2 0 1)).bind (·.value 2) = .error .fuel ∧
    2 * Nat.size 89 + 1 = 15 := by decide +kernel

/-- The inverse of 144 modulo 233 needs no more than the eight passes of the bound. -/
example : ((exec ⟨4, true⟩ 0 BigSt.init [.create 144, .create 233]).bind (fun s => s.modinv ⟨4, true⟩ 8 0 0 1)).map (·.2) = .ok true ∧
    Nat.size 144 = 8 := by decide +kernel

end Ack.Props
