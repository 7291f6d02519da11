import Verif.Proof.IntProg
import Verif.Spec.IntStop
/-!
# Where a program written with integer operators stops: proofs
-/
namespace Ack.Mem
open Ack.Spec.Prog
open Ack.Spec (IntProg.Bin IntProg.Room IntProg.width IntProg.RuleN IntProg.Call IntProg.CallInline IntProg.Means IntProg.Rel IntProg.RuleC
  IntProg.Truth IntProg.RuleA IntProg.RuleAN IntProg.Runs IntProg.ExStops IntProg.CondStops IntProg.Stops IntProg.ExFree IntProg.CondFree
  IntProg.CmdFree IntProg.Arith IntProg.ArithN IntProg.declares)

theorem abort_bind {α β : Type} (f : α → Res β) : ((Except.error Err.abort : Res α) >>= f) = .error .abort := rfl

theorem binop_zero {K : Kind} {s : BigSt} {e : Env} {z x y : Nat} {o : BOp} {a : Int} (fuel : Nat) (H : Holds K s e)
    (ho : o = .div ∨ o = .mod) (hx : look e x = some a) (hy : look e y = some 0) (hz : live e z) : o.run K fuel s z x y = .error .abort := by
  obtain ⟨X, x1, x2, x3⟩ := H.rep hx
  obtain ⟨Y, y1, y2, y3⟩ := H.rep hy
  obtain ⟨Z, z1, z2⟩ := H.target hz
  rcases ho with rfl | rfl
  · show (s.div K fuel z x y).map _ = _
    rw [div_zero H.inv x1 y1 z1 y2 y3]; rfl
  · show (s.mod K z x y).map _ = _
    rw [mod_zero x1 y1 y2 y3]; rfl

theorem run64_zero {K : Kind} {s : BigSt} {e : Env} {z x : Nat} {o : BOp} {n : Native} {a : Int} (fuel : Nat) (H : Holds K s e)
    (ho : o = .div ∨ o = .mod) (hx : look e x = some a) (hn : n.toInt = 0) (hf : fits K.lim (IntProg.width n)) (hz : live e z) :
    BOp.run64 K fuel s z x n o = .error .abort := by
  obtain ⟨s1, e1, H1⟩ := H.newN hf
  obtain ⟨w, hw⟩ := Option.isSome_iff_exists.1 hz
  unfold BOp.run64
  dsimp only
  rw [e1, ok_bind, H.len]
  exact binop_zero fuel H1 ho (look_append hx _) (by rw [← hn]; exact look_last _ _ []) (live_of (look_append hw _))

theorem runN_zero {K : Kind} {s : BigSt} {e : Env} {z x : Nat} {o : BOp} {n : Native} {a : Int} (asg : Bool) (fuel : Nat) (H : Holds K s e)
    (ho : o = .div ∨ o = .mod) (hx : look e x = some a) (hn : n.toInt = 0) (hf : fits K.lim (IntProg.width n)) (hz : live e z) :
    o.runN K fuel asg s z x n = .error .abort := by
  obtain ⟨X, x1, x2, x3⟩ := H.rep hx
  obtain ⟨Z, z1, z2⟩ := H.target hz
  have g := @run64_zero K s e z x
  cases n with
  | s32 v =>
    have hv : v = 0 := BitVec.toInt_inj.1 hn
    subst hv
    rcases ho with rfl | rfl
    · have := divs1_spec H.inv x1 z1 0
      rw [Big.divs1_zero K.lim X (H.fitsX x1)] at this
      exact this
    · show s.mods1 K z x 0 = _
      unfold BigSt.mods1
      dsimp only
      rw [divMods1Rem_exact x1]
      rfl
  | u32 v =>
    have hv : v = 0 := BitVec.toNat_inj.1 (by have : (v.toNat : Int) = 0 := hn; simpa using this)
    subst hv
    rcases ho with rfl | rfl
    · have := divu1_spec H.inv x1 z1 0
      rw [Big.divu1_zero K.lim X (H.fitsX x1)] at this
      exact this
    · rfl
  | s64 v =>
    rcases ho with rfl | rfl
    · exact g fuel H (Or.inl rfl) hx hn hf hz
    · cases asg
      · exact g fuel H (Or.inr rfl) hx hn hf hz
      · exact g (o := .div) fuel H (Or.inl rfl) hx hn hf hz
  | u64 v =>
    rcases ho with rfl | rfl
    · exact g fuel H (Or.inl rfl) hx hn hf hz
    · cases asg
      · exact g fuel H (Or.inr rfl) hx hn hf hz
      · exact g (o := .div) fuel H (Or.inl rfl) hx hn hf hz

theorem modinv_stops {K : Kind} {e : Env} {y x m : Nat} {a n : Int} (hx : look e x = some a) (hm : look e m = some n) (hy : y < e.length)
    (ha : 0 ≤ a) (hn : 1 < n) (hg : Int.gcd a n ≠ 1) (room : fits K.lim (max (words a) (words n) + 1))
    (inl : K.dyn = true → words n ≤ K.N) : ∀ s, Holds K s e → ∀ fuel, a.natAbs + 1 ≤ fuel → (NStmt.modinv y x m).exec K fuel s = .error .abort := by
  intro s H fuel hf
  obtain ⟨X, x1, x2, x3⟩ := H.rep hx
  obtain ⟨M, m1, m2, m3⟩ := H.rep hm
  have hv := natAbs_of x3
  have room' : fits K.lim (max X.ws.length M.ws.length + 1) := by rw [words_eq x2, words_eq m2, x3, m3]; exact room
  obtain ⟨s', ok, e1, I', l', f', t', r'⟩ := modinv_mem (y := y) (lim_fits' _ _ room') m2 (le_max_right _ _) (rep_fits H.inv m1) (by omega)
    (fun hd => by rw [words_eq m2, m3]; exact inl hd) H.inv x1 m1 (by rw [H.len]; exact hy) x2 (by omega) (le_max_left _ _)
    fuel (lt_trans (show val X.ws < fuel by omega) Nat.lt_two_pow_self)
  rw [x3, m3] at t'
  have hok : ok = false := by
    cases ok
    · rfl
    · exact absurd (t'.1 rfl) hg
  subst hok
  rw [NStmt.exec, e1]
  rfl

theorem ex_stops {K : Kind} (elide : Bool) {vars : List Nat} {ρ : List Int} {x : Ex} (h : IntProg.ExStops K.lim (inlineOf K) ρ x) :
    ∀ {e : Env}, Reads vars ρ e → ∃ F, (callFree x = true → F = 0) ∧
      ∀ s, Holds K s e → ∀ fuel, F ≤ fuel → x.eval K elide fuel vars s = .error .abort := by
  induction h with
  | @bin_left o x y _ ih =>
    intro e hv
    obtain ⟨F, f0, ev⟩ := ih hv
    exact ⟨F, fun h => f0 (Bool.and_eq_true_iff.1 h).1, fun s H fuel hF => by rw [Ex.eval, ev s H fuel hF]; rfl⟩
  | @bin_right o x y a hx _ ih =>
    intro e hv
    obtain ⟨F1, x1, p, f1, l1, -, ev1⟩ := eval_spec elide hx hv
    obtain ⟨F, f0, ev⟩ := ih (hv.append x1)
    refine ⟨max F1 F, fun h => by rw [f1 (Bool.and_eq_true_iff.1 h).1, f0 (Bool.and_eq_true_iff.1 h).2]; rfl, fun s H fuel hF => ?_⟩
    obtain ⟨s1, e1, H1⟩ := ev1 s H fuel (by omega)
    rw [Ex.eval, e1, ok_bind]
    dsimp only
    rw [ev s1 H1 fuel (by omega)]; rfl
  | @bin o x y a ho hx hy =>
    intro e hv
    obtain ⟨F1, x1, p, f1, l1, -, ev1⟩ := eval_spec elide hx hv
    obtain ⟨F2, x2, q, f2, l2, -, ev2⟩ := eval_spec elide hy (hv.append x1)
    have l1 := look_append l1 x2
    refine ⟨max F1 F2, fun h => by rw [f1 (Bool.and_eq_true_iff.1 h).1, f2 (Bool.and_eq_true_iff.1 h).2]; rfl, fun s H fuel hF => ?_⟩
    obtain ⟨s1, e1, H1⟩ := ev1 s H fuel (by omega)
    obtain ⟨s2, e2, H2⟩ := ev2 s1 H1 fuel (by omega)
    obtain ⟨s3, e3, H3, hn⟩ := fresh_spec H2 l1
    rw [Ex.eval, e1, ok_bind]
    dsimp only
    rw [e2, ok_bind]
    dsimp only
    rw [e3, ok_bind, H2.len, binop_zero fuel H3 ho (look_append l1 _) (look_append l2 _) (live_of (look_last _ _ []))]; rfl
  | @binN_left o x n _ ih =>
    intro e hv
    obtain ⟨F, f0, ev⟩ := ih hv
    exact ⟨F, f0, fun s H fuel hF => by rw [Ex.eval, ev s H fuel hF]; rfl⟩
  | @binN o x n a ho hx hn hf =>
    intro e hv
    obtain ⟨F1, x1, p, f1, l1, -, ev1⟩ := eval_spec elide hx hv
    refine ⟨F1, f1, fun s H fuel hF => ?_⟩
    obtain ⟨s1, e1, H1⟩ := ev1 s H fuel hF
    obtain ⟨s3, e3, H3, -⟩ := fresh_spec H1 l1
    rw [Ex.eval, e1, ok_bind]
    dsimp only
    rw [e3, ok_bind, H1.len, runN_zero false fuel H3 ho (look_append l1 _) hn hf (live_of (look_last _ _ []))]; rfl
  | @neg x _ ih =>
    intro e hv
    obtain ⟨F, f0, ev⟩ := ih hv
    exact ⟨F, f0, fun s H fuel hF => by rw [Ex.eval, ev s H fuel hF]; rfl⟩
  | @abs x _ ih =>
    intro e hv
    obtain ⟨F, f0, ev⟩ := ih hv
    exact ⟨F, f0, fun s H fuel hF => by rw [Ex.eval, ev s H fuel hF]; rfl⟩
  | @shl x n _ ih =>
    intro e hv
    obtain ⟨F, f0, ev⟩ := ih hv
    exact ⟨F, f0, fun s H fuel hF => by rw [Ex.eval, ev s H fuel hF]; rfl⟩
  | @shr x n _ ih =>
    intro e hv
    obtain ⟨F, f0, ev⟩ := ih hv
    exact ⟨F, f0, fun s H fuel hF => by rw [Ex.eval, ev s H fuel hF]; rfl⟩
  | @call_left f x y _ ih =>
    intro e hv
    obtain ⟨F, f0, ev⟩ := ih hv
    exact ⟨F, fun h => (by cases h), fun s H fuel hF => by rw [Ex.eval, ev s H fuel hF]; rfl⟩
  | @call_right f x y a hx _ ih =>
    intro e hv
    obtain ⟨F1, x1, p, f1, l1, -, ev1⟩ := eval_spec elide hx hv
    obtain ⟨F, f0, ev⟩ := ih (hv.append x1)
    refine ⟨max F1 F, fun h => (by cases h), fun s H fuel hF => ?_⟩
    obtain ⟨s1, e1, H1⟩ := ev1 s H fuel (by omega)
    rw [Ex.eval, e1, ok_bind]
    dsimp only
    rw [ev s1 H1 fuel (by omega)]; rfl
  | @modinv x y a m hx hy ha hm hg hr hi =>
    intro e hv
    obtain ⟨F1, x1, p, f1, l1, -, ev1⟩ := eval_spec elide hx hv
    obtain ⟨F2, x2, q, f2, l2, -, ev2⟩ := eval_spec elide hy (hv.append x1)
    have l1 := look_append l1 x2
    refine ⟨max (max F1 F2) (a.natAbs + 1), fun h => (by cases h), fun s H fuel hF => ?_⟩
    obtain ⟨s1, e1, H1⟩ := ev1 s H fuel (by omega)
    obtain ⟨s2, e2, H2⟩ := ev2 s1 H1 fuel (by omega)
    obtain ⟨s3, e3, H3, hn⟩ := fresh_spec H2 l1
    rw [Ex.eval, e1, ok_bind]
    dsimp only
    rw [e2, ok_bind]
    dsimp only
    rw [e3, ok_bind, H2.len, show Fn.stmt (e ++ x1 ++ x2).length p q .modinv = .modinv (e ++ x1 ++ x2).length p q from rfl,
      modinv_stops (look_append l1 [some 0]) (look_append l2 [some 0]) (by simp) ha hm hg hr
        (fun hd => hi K.N (by unfold inlineOf; rw [hd]; rfl)) s3 H3 fuel (by omega)]
    rfl
  | @modexp_base x y z _ ih =>
    intro e hv
    obtain ⟨F, f0, ev⟩ := ih hv
    exact ⟨F, fun h => (by cases h), fun s H fuel hF => by rw [Ex.eval, ev s H fuel hF]; rfl⟩
  | @modexp_exp x y z a hx _ ih =>
    intro e hv
    obtain ⟨F1, x1, p, f1, l1, -, ev1⟩ := eval_spec elide hx hv
    obtain ⟨F, f0, ev⟩ := ih (hv.append x1)
    refine ⟨max F1 F, fun h => (by cases h), fun s H fuel hF => ?_⟩
    obtain ⟨s1, e1, H1⟩ := ev1 s H fuel (by omega)
    rw [Ex.eval, e1, ok_bind]
    dsimp only
    rw [ev s1 H1 fuel (by omega)]; rfl
  | @modexp_mod x y z a b hx hy _ ih =>
    intro e hv
    obtain ⟨F1, x1, p, f1, l1, -, ev1⟩ := eval_spec elide hx hv
    obtain ⟨F2, x2, q, f2, l2, -, ev2⟩ := eval_spec elide hy (hv.append x1)
    obtain ⟨F, f0, ev⟩ := ih ((hv.append x1).append x2)
    refine ⟨max (max F1 F2) F, fun h => (by cases h), fun s H fuel hF => ?_⟩
    obtain ⟨s1, e1, H1⟩ := ev1 s H fuel (by omega)
    obtain ⟨s2, e2, H2⟩ := ev2 s1 H1 fuel (by omega)
    rw [Ex.eval, e1, ok_bind]
    dsimp only
    rw [e2, ok_bind]
    dsimp only
    rw [ev s2 H2 fuel (by omega)]; rfl

theorem cond_stops {K : Kind} (elide : Bool) {vars : List Nat} {ρ : List Int} {c : Cond} (h : IntProg.CondStops K.lim (inlineOf K) ρ c) :
    ∀ {e : Env}, Reads vars ρ e → ∃ F, (callFreeC c = true → F = 0) ∧
      ∀ s, Holds K s e → ∀ fuel, F ≤ fuel → c.eval K elide fuel vars s = .error .abort := by
  have one : ∀ {x : Ex} {e : Env}, IntProg.ExStops K.lim (inlineOf K) ρ x → Reads vars ρ e → ∃ F, (callFree x = true → F = 0) ∧
      ∀ {α : Type} (k : BigSt × Nat → Res α) s, Holds K s e → ∀ fuel, F ≤ fuel → (x.eval K elide fuel vars s >>= k) = .error .abort := by
    intro x e hx hv
    obtain ⟨F, f0, ev⟩ := ex_stops elide hx hv
    exact ⟨F, f0, fun k s H fuel hF => by rw [ev s H fuel hF]; rfl⟩
  induction h with
  | @cmp_left o x y hx =>
    intro e hv
    obtain ⟨F, f0, ev⟩ := one hx hv
    exact ⟨F, fun h => f0 (Bool.and_eq_true_iff.1 h).1, fun s H fuel hF => ev _ s H fuel hF⟩
  | @cmp_right o x y a hx hy =>
    intro e hv
    obtain ⟨F1, x1, p, f1, l1, -, ev1⟩ := eval_spec elide hx hv
    obtain ⟨F, f0, ev⟩ := one hy (hv.append x1)
    refine ⟨max F1 F, fun h => by rw [f1 (Bool.and_eq_true_iff.1 h).1, f0 (Bool.and_eq_true_iff.1 h).2]; rfl, fun s H fuel hF => ?_⟩
    obtain ⟨s1, e1, H1⟩ := ev1 s H fuel (by omega)
    rw [Cond.eval, e1, ok_bind]
    exact ev _ s1 H1 fuel (by omega)
  | cmpR hx => intro e hv; obtain ⟨F, f0, ev⟩ := one hx hv; exact ⟨F, f0, fun s H fuel hF => ev _ s H fuel hF⟩
  | cmpL hx => intro e hv; obtain ⟨F, f0, ev⟩ := one hx hv; exact ⟨F, f0, fun s H fuel hF => ev _ s H fuel hF⟩
  | isZero hx => intro e hv; obtain ⟨F, f0, ev⟩ := one hx hv; exact ⟨F, f0, fun s H fuel hF => ev _ s H fuel hF⟩
  | isOne hx => intro e hv; obtain ⟨F, f0, ev⟩ := one hx hv; exact ⟨F, f0, fun s H fuel hF => ev _ s H fuel hF⟩
  | isNegative hx => intro e hv; obtain ⟨F, f0, ev⟩ := one hx hv; exact ⟨F, f0, fun s H fuel hF => ev _ s H fuel hF⟩
  | isOdd hx => intro e hv; obtain ⟨F, f0, ev⟩ := one hx hv; exact ⟨F, f0, fun s H fuel hF => ev _ s H fuel hF⟩
  | testBit hx => intro e hv; obtain ⟨F, f0, ev⟩ := one hx hv; exact ⟨F, f0, fun s H fuel hF => ev _ s H fuel hF⟩
  | not _ ih =>
    intro e hv
    obtain ⟨F, f0, ev⟩ := ih hv
    exact ⟨F, f0, fun s H fuel hF => by rw [Cond.eval, ev s H fuel hF]; rfl⟩
  | and_left _ ih =>
    intro e hv
    obtain ⟨F, f0, ev⟩ := ih hv
    exact ⟨F, fun h => f0 (Bool.and_eq_true_iff.1 h).1, fun s H fuel hF => by rw [Cond.eval, ev s H fuel hF]; rfl⟩
  | or_left _ ih =>
    intro e hv
    obtain ⟨F, f0, ev⟩ := ih hv
    exact ⟨F, fun h => f0 (Bool.and_eq_true_iff.1 h).1, fun s H fuel hF => by rw [Cond.eval, ev s H fuel hF]; rfl⟩
  | and_right hc _ ih =>
    intro e hv
    obtain ⟨F1, ext, f1, ev1⟩ := cond_spec elide hc hv
    obtain ⟨F, f0, ev⟩ := ih (hv.append ext)
    refine ⟨max F1 F, fun h => by rw [f1 (Bool.and_eq_true_iff.1 h).1, f0 (Bool.and_eq_true_iff.1 h).2]; rfl, fun s H fuel hF => ?_⟩
    obtain ⟨s1, e1, H1⟩ := ev1 s H fuel (by omega)
    rw [Cond.eval, e1, ok_bind]
    exact ev s1 H1 fuel (by omega)
  | or_right hc _ ih =>
    intro e hv
    obtain ⟨F1, ext, f1, ev1⟩ := cond_spec elide hc hv
    obtain ⟨F, f0, ev⟩ := ih (hv.append ext)
    refine ⟨max F1 F, fun h => by rw [f1 (Bool.and_eq_true_iff.1 h).1, f0 (Bool.and_eq_true_iff.1 h).2]; rfl, fun s H fuel hF => ?_⟩
    obtain ⟨s1, e1, H1⟩ := ev1 s H fuel (by omega)
    rw [Cond.eval, e1, ok_bind]
    exact ev s1 H1 fuel (by omega)

theorem ex_stops_not_var {cap inl : Option Nat} {ρ : List Int} {x : Ex} (h : IntProg.ExStops cap inl ρ x) (v : Nat) : x ≠ .var v := by
  rintro rfl; cases h

/-- Where a command stops, from any state that holds these integers. -/
theorem cmd_stops {K : Kind} (elide : Bool) {p : Cmd} {ρ : List Int} (h : IntProg.Stops K.lim (inlineOf K) p ρ) :
    ∀ {vars : List Nat} {e : Env}, Sees vars ρ e → ∃ F, (once p = true → F ≤ 1) ∧
      ∀ s, Holds K s e → ∀ fuel, F ≤ fuel → p.exec K elide fuel ⟨vars, s⟩ = .error .abort := by
  have mk : ∀ {p : Cmd} {vars : List Nat} {e : Env} (F : Nat), (once p = true → F = 0) →
      (∀ s, Holds K s e → ∀ n, F ≤ n → p.exec K elide (n + 1) ⟨vars, s⟩ = .error .abort) →
      ∃ F, (once p = true → F ≤ 1) ∧ ∀ s, Holds K s e → ∀ fuel, F ≤ fuel → p.exec K elide fuel ⟨vars, s⟩ = .error .abort := by
    intro p vars e F f0 h
    refine ⟨F + 1, fun h => by rw [f0 h], fun s H fuel hF => ?_⟩
    obtain ⟨n, rfl⟩ : ∃ n, fuel = n + 1 := ⟨fuel - 1, by omega⟩
    exact h s H n (by omega)
  have no : ∀ {A : Prop}, (false = true) → A := fun h => by cases h
  induction h with
  | seq_left _ ih =>
    intro vars e S
    obtain ⟨F, -, ev⟩ := ih S
    exact mk F no (fun s H n hn => by rw [Cmd.exec, ev s H n hn]; rfl)
  | seq_right hp _ ih =>
    intro vars e S
    obtain ⟨F1, e1, m1, -, S1, ev1⟩ := cmd_spec elide hp S
    obtain ⟨F, -, ev⟩ := ih S1
    refine mk (max F1 F) no (fun s H n hn => ?_)
    obtain ⟨s1, x1, H1⟩ := ev1 s H n (by omega)
    rw [Cmd.exec, x1, ok_bind, ev s1 H1 n (by omega)]
  | block _ ih =>
    intro vars e S
    obtain ⟨F, -, ev⟩ := ih S
    exact mk F no (fun s H n hn => by rw [Cmd.exec, ev s H n hn]; rfl)
  | ite_cond hc =>
    intro vars e S
    obtain ⟨F, -, ev⟩ := cond_stops elide hc S.reads
    exact mk F no (fun s H n hn => by rw [Cmd.exec]; dsimp only; rw [ev s H n hn]; rfl)
  | @ite c p q b ρ hc _ ih =>
    intro vars e S
    obtain ⟨F1, ext, -, ev1⟩ := cond_spec elide hc S.reads
    obtain ⟨F, -, ev⟩ := ih (S.append ext)
    refine mk (max F1 (F + 1)) no (fun s H n hn => ?_)
    obtain ⟨s1, x1, H1⟩ := ev1 s H n (by omega)
    rw [Cmd.exec]
    dsimp only
    rw [x1, ok_bind]
    dsimp only
    obtain ⟨k, rfl⟩ : ∃ k, n = k + 1 := ⟨n - 1, by omega⟩
    rw [Cmd.exec, ev s1 H1 k (by omega)]; rfl
  | loop_cond hc =>
    intro vars e S
    obtain ⟨F, -, ev⟩ := cond_stops elide hc S.reads
    exact mk F no (fun s H n hn => by rw [Cmd.exec]; dsimp only; rw [ev s H n hn]; rfl)
  | @loop_body c p ρ hc _ ih =>
    intro vars e S
    obtain ⟨F1, ext, -, ev1⟩ := cond_spec elide hc S.reads
    obtain ⟨F, -, ev⟩ := ih (S.append ext)
    refine mk (max F1 (F + 1)) no (fun s H n hn => ?_)
    obtain ⟨s1, x1, H1⟩ := ev1 s H n (by omega)
    rw [Cmd.exec]
    dsimp only
    rw [x1, ok_bind]
    dsimp only
    obtain ⟨k, rfl⟩ : ∃ k, n = k + 1 := ⟨n - 1, by omega⟩
    rw [if_pos rfl, Cmd.exec, ev s1 H1 k (by omega)]; rfl
  | @loop_next c p ρ ρ₁ hc hp _ ih =>
    intro vars e S
    obtain ⟨F1, ext, -, ev1⟩ := cond_spec elide hc S.reads
    obtain ⟨F2, e2, m2, -, S2, ev2⟩ := Does.block (S.append ext) (cmd_spec elide hp (S.append ext))
    obtain ⟨F, -, ev⟩ := ih S2
    refine mk (max F1 (max F2 F)) no (fun s H n hn => ?_)
    obtain ⟨s1, x1, H1⟩ := ev1 s H n (by omega)
    obtain ⟨s2, x2, H2⟩ := ev2 s1 H1 n (by omega)
    rw [Cmd.exec]
    dsimp only
    rw [x1, ok_bind]
    dsimp only
    rw [if_pos rfl, x2, ok_bind, ev s2 H2 n (by omega)]
  | decl hx =>
    intro vars e S
    obtain ⟨F, f0, ev⟩ := ex_stops elide hx S.reads
    exact mk F f0 (fun s H n hn => by rw [exec_decl (ex_stops_not_var hx), ev s H n hn]; rfl)
  | set hx =>
    intro vars e S
    obtain ⟨F, f0, ev⟩ := ex_stops elide hx S.reads
    exact mk F f0 (fun s H n hn => by rw [exec_set (ex_stops_not_var hx), ev s H n hn]; rfl)
  | upd_ex hx =>
    intro vars e S
    obtain ⟨F, f0, ev⟩ := ex_stops elide hx S.reads
    exact mk F f0 (fun s H n hn => by rw [Cmd.exec]; dsimp only; rw [ev s H n hn]; rfl)
  | @upd o x z ρ a ho ha hx =>
    intro vars e S
    obtain ⟨i, hi, hl⟩ := S.reads z a ha
    obtain ⟨F, ext, p, f0, l, -, ev⟩ := eval_spec elide hx S.reads
    refine mk F f0 (fun s H n hn => ?_)
    obtain ⟨s1, e1, H1⟩ := ev s H n hn
    have hl' := look_append hl ext
    rw [Cmd.exec]
    dsimp only
    rw [e1, ok_bind]
    dsimp only
    rw [pos_ok hi, ok_bind, binop_zero n H1 ho hl' l (live_of hl')]; rfl
  | @updN o v z ρ a ho ha hv hf =>
    intro vars e S
    obtain ⟨i, hi, hl⟩ := S.reads z a ha
    refine mk 0 (fun _ => rfl) (fun s H n _ => ?_)
    rw [Cmd.exec, pos_ok hi, ok_bind]
    dsimp only
    rw [runN_zero true n H ho hl hv hf (live_of hl)]; rfl

end Ack.Mem
