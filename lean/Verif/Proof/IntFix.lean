import Verif.Spec.IntFix
import Verif.Proof.IntTotal
/-!
# Programs on integers with fixed storage: proofs
-/
namespace Ack.Mem
open Ack.Spec.Prog
open Ack.Spec (IntProg.Bin IntProg.Room IntProg.width IntProg.Rel IntProg.RuleN IntProg.RuleC IntProg.Arith IntProg.ArithN IntProg.declares
  IntFix.Outcome IntFix.Gives IntFix.RoomN IntFix.GivesN IntFix.Val IntFix.Tru IntFix.Ends IntFix.ExFix IntFix.CondFix IntFix.CmdFix)

variable {N : Nat}

/-- Fixed storage of `N` words. -/
abbrev fixK (N : Nat) : Kind := ⟨N, false⟩

theorem fits_fix {n : Nat} (h : n ≤ N) : fits (fixK N).lim n := fun M hM => by
  have : some N = some M := hM
  cases this; exact h

theorem not_fits_fix {n : Nat} (h : ¬ fits (some N) n) : Cap.fits (fixK N).lim n = false := by
  have : ¬ n ≤ N := fun h1 => h (fits_fix h1)
  show decide (n ≤ N) = false
  exact decide_eq_false this

theorem signs_differ {X Y : Big} {a b : Int} (hX : X.toInt = a) (hY : Y.toInt = b) (h : X.neg ≠ Y.neg) : OppSigns a b ∨ a = 0 ∨ b = 0 := by
  unfold Big.toInt at hX hY
  unfold OppSigns
  cases hx : X.neg <;> cases hy : Y.neg <;> simp_all <;> omega

theorem uadd_over {cap : Cap} {x y : List Word} (h : cap.fits (max x.length y.length + 1) = false) : Big.uadd cap x y = [0] := by
  unfold Big.uadd Big.uaddGe
  dsimp only
  split
  · rw [Nat.max_eq_right (by omega)] at h; rw [h]; rfl
  · rw [Nat.max_eq_left (by omega)] at h; rw [h]; rfl

theorem zero_int (b : Bool) : (⟨b, [0]⟩ : Big).toInt = 0 := by cases b <;> rfl

theorem put_same {e : Env} {z : Nat} {a : Int} (h : look e z = some a) : put e z a = e := by
  unfold put
  have h := look_some.1 h
  obtain ⟨hl, he⟩ := List.getElem?_eq_some_iff.1 h
  rw [← he, List.set_getElem_self]

theorem binop_fix {s : BigSt} {e : Env} {z x y : Nat} {o : BOp} {a b old : Int} (fuel : Nat) (H : Holds (fixK N) s e)
    (hx : look e x = some a) (hy : look e y = some b) (hz : look e z = some old) (ho : IntProg.Arith o) (h0 : ¬ ((o = .div ∨ o = .mod) ∧ b = 0))
    (hd : z = y → x = y) : ∃ r s', IntFix.Gives N o a b old r ∧ o.run (fixK N) fuel s z x y = .ok s' ∧ Holds (fixK N) s' (put e z r) := by
  by_cases hr : IntProg.Room (some N) o a b
  · have hb : ∃ r, IntProg.Bin o a b r := by
      cases o with
      | div => exact ⟨_, fun h => h0 ⟨Or.inl rfl, h⟩, rfl⟩
      | mod => exact ⟨_, fun h => h0 ⟨Or.inr rfl, h⟩, rfl⟩
      | and => exact absurd rfl ho.1
      | or => exact absurd rfl ho.2
      | _ => exact ⟨_, rfl⟩
    obtain ⟨r, hb⟩ := hb
    obtain ⟨s', e1, H1⟩ := binop_spec (K := fixK N) fuel H hx hy (live_of hz) hb hr
      (fun _ => by cases o <;> first | trivial | exact (fun M hM => by cases hM) | exact absurd rfl ho.2)
      (fun h => by rcases h with h | h; exacts [absurd h ho.1, absurd h ho.2]) hd
    exact ⟨r, s', Or.inl ⟨hb, Or.inl hr⟩, e1, H1⟩
  · obtain ⟨X, x1, x2, x3⟩ := H.rep hx
    obtain ⟨Y, y1, y2, y3⟩ := H.rep hy
    obtain ⟨Z, z1, z2, z3⟩ := H.rep hz
    cases o with
    | add =>
      have hf : Cap.fits (fixK N).lim (max X.ws.length Y.ws.length + 1) = false := by
        rw [words_eq x2, words_eq y2, x3, y3]; exact not_fits_fix (fun h => hr (Or.inr h))
      obtain ⟨s', e1, P⟩ := add_spec (K := fixK N) H.inv x1 y1 z1 (fun _ _ => roomy_of H.inv (fun h => by cases h) z)
      obtain ⟨c, -, v⟩ := Big.add_spec (fixK N).lim X Y x2 y2 (H.fitsX x1) (H.fitsX y1)
      by_cases hs : X.neg = Y.neg
      · have h : (Big.add (fixK N).lim X Y).toInt = 0 := by
          unfold Big.add Big.addSigned
          rw [if_pos (by rw [hs]; simp), uadd_over hf]; exact zero_int _
        exact ⟨0, s', Or.inr ⟨hr, rfl⟩, e1, H.post P c h⟩
      · refine ⟨a + b, s', Or.inl ⟨rfl, Or.inr ⟨by decide, ?_⟩⟩, e1, H.post P c ?_⟩
        · exact (signs_differ x3 y3 hs).resolve_left (fun h => hr (Or.inl h))
        · rcases v with v | ⟨-, v, -⟩
          · rw [v, x3, y3]
          · exact absurd v hs
    | sub =>
      have hf : Cap.fits (fixK N).lim (max X.ws.length Y.ws.length + 1) = false := by
        rw [words_eq x2, words_eq y2, x3, y3]; exact not_fits_fix (fun h => hr (Or.inr h))
      obtain ⟨s', e1, P⟩ := sub_spec (K := fixK N) H.inv x1 y1 z1 (fun _ _ => roomy_of H.inv (fun h => by cases h) z)
      obtain ⟨c, -, v⟩ := Big.sub_spec (fixK N).lim X Y x2 y2 (H.fitsX x1) (H.fitsX y1)
      by_cases hs : X.neg = !Y.neg
      · have h : (Big.sub (fixK N).lim X Y).toInt = 0 := by
          unfold Big.sub Big.addSigned
          rw [if_pos (by rw [hs]; simp), uadd_over hf]; exact zero_int _
        exact ⟨0, s', Or.inr ⟨hr, rfl⟩, e1, H.post P c h⟩
      · refine ⟨a - b, s', Or.inl ⟨rfl, Or.inr ⟨by decide, ?_⟩⟩, e1, H.post P c ?_⟩
        · have hY : (⟨!Y.neg, Y.ws⟩ : Big).toInt = -b := by
            rw [← y3]; unfold Big.toInt; cases Y.neg <;> simp
          rcases signs_differ x3 hY hs with h | h | h
          · exact absurd (Or.inl h) hr
          · exact Or.inl h
          · exact Or.inr (by omega)
        · rcases v with v | ⟨-, v, -⟩
          · rw [v, x3, y3]
          · exact absurd v hs
    | mul =>
      have hf : Cap.fits (fixK N).lim (X.ws.length + Y.ws.length) = false := by
        rw [words_eq x2, words_eq y2, x3, y3]; exact not_fits_fix (fun h => hr h)
      have hm := mul_spec (K := fixK N) H.inv x1 y1 z1
      rcases Big.mul?_spec (fixK N).lim X Y x2 y2 with ⟨_, _, _, _, _, _, h⟩ | ⟨h, -⟩
      · rw [hf] at h; cases h
      · rw [h] at hm
        refine ⟨old, s, Or.inr ⟨hr, rfl⟩, ?_, by rw [put_same hz]; exact H⟩
        show (s.mul (fixK N) z x y).map _ = _
        rw [hm]; rfl
    | div => exact absurd trivial hr
    | mod => exact absurd trivial hr
    | and => exact absurd rfl ho.1
    | or => exact absurd rfl ho.2

theorem addWord_fix {s : BigSt} {e : Env} {z x : Nat} {a : Int} (H : Holds (fixK N) s e) (hx : look e x = some a) (hz : live e z) (w : Word) (b : Bool)
    {y : Int} (hy : y = if b then -(w.toNat : Int) else w.toNat) :
    ∃ r s', (r = a + y ∧ ((OppSigns a y ∨ words a + 1 ≤ N) ∨ a = 0 ∨ y = 0) ∨ ¬ (OppSigns a y ∨ words a + 1 ≤ N) ∧ r = 0) ∧
      s.addu1Go (fixK N) z x w b = .ok s' ∧ Holds (fixK N) s' (put e z r) := by
  obtain ⟨X, x1, x2, x3⟩ := H.rep hx
  obtain ⟨Z, z1, z2⟩ := H.target hz
  obtain ⟨s', R, e1, P, S⟩ := addu1Go_spec (K := fixK N) H.inv x1 z1 w b
  obtain ⟨c, -, v⟩ := Big.addu1Go_spec (fixK N).lim X w b x2 (H.fitsX x1)
  have cR : R.Canon := by unfold Big.Canon at c ⊢; rw [S.1]; exact c
  have vR : R.toInt = (Big.addu1Go (fixK N).lim X w b).toInt := S.toInt
  rw [← hy, x3] at v
  have hw : (⟨b, [w]⟩ : Big).toInt = y := by
    rw [hy]; unfold Big.toInt; simp [val]
  by_cases hf : words a + 1 ≤ N
  · refine ⟨a + y, s', Or.inl ⟨rfl, Or.inl (Or.inr hf)⟩, e1, H.post P cR ?_⟩
    rw [vR]
    rcases v with v | ⟨-, -, v⟩
    · exact v
    · rw [words_eq x2, x3, lim_fits' _ _ (fits_fix hf)] at v; cases v
  · by_cases hs : X.neg = b
    · by_cases ho : OppSigns a y
      · refine ⟨a + y, s', Or.inl ⟨rfl, Or.inl (Or.inl ho)⟩, e1, ?_⟩
        exfalso
        unfold Big.toInt at x3 hw
        unfold OppSigns at ho
        rw [hs] at x3
        cases b <;> simp at x3 hw <;> omega
      · refine ⟨0, s', Or.inr ⟨fun h => h.elim ho hf, rfl⟩, e1, H.post P cR ?_⟩
        rw [vR]
        unfold Big.addu1Go Big.uadd1
        rw [if_pos (by rw [hs]; simp), if_neg ?_]
        · exact zero_int _
        · rw [words_eq x2, x3, not_fits_fix (N := N) (fun h => hf (h N rfl))]; decide
    · refine ⟨a + y, s', Or.inl ⟨rfl, ?_⟩, e1, H.post P cR ?_⟩
      · rcases signs_differ x3 hw hs with h | h
        · exact Or.inl (Or.inl h)
        · exact Or.inr h
      · rw [vR]
        rcases v with v | ⟨-, v, -⟩
        · exact v
        · exact absurd v hs

theorem mulWord_over {X : Big} {w : Word} (h : Cap.fits (fixK N).lim (X.ws.length + 1) = false) : Big.mulu1 (fixK N).lim X w = Big.zero := by
  unfold Big.mulu1; rw [h]; rfl

theorem run64_fix {s : BigSt} {e : Env} {z x : Nat} {o : BOp} {n : Native} {a old : Int} (fuel : Nat) (hN : 2 ≤ N) (H : Holds (fixK N) s e)
    (hx : look e x = some a) (hz : look e z = some old) (ho : IntProg.Arith o) (h0 : ¬ ((o = .div ∨ o = .mod) ∧ n.toInt = 0)) :
    ∃ r s', IntFix.Gives N o a n.toInt old r ∧ BOp.run64 (fixK N) fuel s z x n o = .ok s' ∧ Holds (fixK N) s' (put e z r ++ [some n.toInt]) := by
  have hw : IntProg.width n ≤ 2 := by cases n <;> (show _ ≤ 2) <;> simp [IntProg.width]
  obtain ⟨s1, e1, H1⟩ := H.newN (n := n) (fits_fix (le_trans hw hN))
  have hlt := look_lt hz
  obtain ⟨r, s', g, e2, H2⟩ := binop_fix fuel H1 (look_append hx _) (look_last e n.toInt []) (look_append hz _) ho h0
    (fun h => absurd h (Nat.ne_of_lt hlt))
  refine ⟨r, s', g, ?_, by rw [← put_append hlt]; exact H2⟩
  unfold BOp.run64
  dsimp only
  rw [e1, ok_bind, H.len]
  exact e2

theorem runN_fix {s : BigSt} {e : Env} {z x : Nat} {o : BOp} {n : Native} {a old : Int} {asg : Bool} (fuel : Nat) (hN : 2 ≤ N) (H : Holds (fixK N) s e)
    (hx : look e x = some a) (hz : look e z = some old) (ho : IntProg.ArithN o n) (h0 : ¬ ((o = .div ∨ o = .mod) ∧ n.toInt = 0))
    (ha : asg = true → o = .mod → IntProg.width n = 1) (hal : z = x → asg = true) :
    ∃ r s', IntFix.GivesN N o a n old r ∧ o.runN (fixK N) fuel asg s z x n = .ok s' ∧ Holds (fixK N) s' (put e z r ++ tmpOf n) := by
  obtain ⟨X, x1, x2, x3⟩ := H.rep hx
  obtain ⟨Z, z1, z2, z3⟩ := H.rep hz
  have lz := live_of hz
  have nf : ¬ words a + 1 ≤ N → Cap.fits (fixK N).lim (X.ws.length + 1) = false := fun h => by
    rw [words_eq x2, x3]; exact not_fits_fix (fun g => h (g N rfl))
  cases n with
  | s32 v =>
    show ∃ r s', _ ∧ _ ∧ Holds (fixK N) s' (put e z r ++ [])
    simp only [List.append_nil]
    have hv : v.toInt = if decide (v.toInt < 0) = true then -((cabs32 v).toNat : Int) else ((cabs32 v).toNat : Int) := by
      rw [Big.cabs32_toNat, Int.abs_eq_natAbs]; simp only [decide_eq_true_eq]; split <;> omega
    have hv' : -v.toInt = if (!decide (v.toInt < 0)) = true then -((cabs32 v).toNat : Int) else ((cabs32 v).toNat : Int) := by
      rw [Big.cabs32_toNat, Int.abs_eq_natAbs]; simp only [Bool.not_eq_true', decide_eq_false_iff_not]; split <;> omega
    cases o with
    | add =>
      obtain ⟨r, s', g, e1, H1⟩ := addWord_fix H hx lz (cabs32 v) _ hv
      exact ⟨r, s', g.imp (fun ⟨h1, h2⟩ => ⟨h1, h2.imp id (fun h => ⟨by decide, h⟩)⟩) id, e1, H1⟩
    | sub =>
      obtain ⟨r, s', g, e1, H1⟩ := addWord_fix H hx lz (cabs32 v) _ hv'
      refine ⟨r, s', g.imp (fun ⟨h1, h2⟩ => ⟨by rw [h1]; exact (sub_eq_add_neg _ _).symm, h2.imp id (fun h => ⟨by decide, ?_⟩)⟩) id, e1, H1⟩
      exact h.imp id (fun h => by show v.toInt = 0; omega)
    | mul =>
      by_cases hf : words a + 1 ≤ N
      · obtain ⟨s', e1, H1⟩ := runN_spec (K := fixK N) (asg := asg) (o := .mul) (n := .s32 v) fuel H hx lz rfl (fits_fix hf) hal
          (fun _ => trivial) (fun h => by rcases h with h | h <;> cases h)
        exact ⟨_, s', Or.inl ⟨rfl, Or.inl hf⟩, e1, by simpa [tmpOf] using H1⟩
      · obtain ⟨s', e1, P⟩ := muls1_spec (K := fixK N) H.inv x1 z1 v
        obtain ⟨c, -, -⟩ := Big.muls1_spec (fixK N).lim X v x2 (H.fitsX x1)
        refine ⟨0, s', Or.inr ⟨hf, rfl⟩, e1, H.post P c ?_⟩
        unfold Big.muls1
        rw [mulWord_over (nf hf)]
        exact zero_int _
    | div =>
      obtain ⟨s', e1, H1⟩ := runN_spec (K := fixK N) (asg := asg) (o := .div) (n := .s32 v) fuel H hx lz ⟨fun h => h0 ⟨Or.inl rfl, h⟩, rfl⟩ trivial hal
          (fun _ => trivial) (fun h => by rcases h with h | h <;> cases h)
      exact ⟨_, s', Or.inl ⟨⟨fun h => h0 ⟨Or.inl rfl, h⟩, rfl⟩, Or.inl trivial⟩, e1, by simpa [tmpOf] using H1⟩
    | mod =>
      obtain ⟨s', e1, H1⟩ := runN_spec (K := fixK N) (asg := asg) (o := .mod) (n := .s32 v) fuel H hx lz ⟨fun h => h0 ⟨Or.inr rfl, h⟩, rfl⟩ trivial hal
          (fun _ => trivial) (fun h => by rcases h with h | h <;> cases h)
      exact ⟨_, s', Or.inl ⟨⟨fun h => h0 ⟨Or.inr rfl, h⟩, rfl⟩, Or.inl trivial⟩, e1, by simpa [tmpOf] using H1⟩
    | and => exact absurd rfl ho.1.1
    | or => exact absurd rfl ho.1.2
  | u32 v =>
    show ∃ r s', _ ∧ _ ∧ Holds (fixK N) s' (put e z r ++ [])
    simp only [List.append_nil]
    cases o with
    | add =>
      obtain ⟨r, s', g, e1, H1⟩ := addWord_fix H hx lz v false rfl
      exact ⟨r, s', g.imp (fun ⟨h1, h2⟩ => ⟨h1, h2.imp id (fun h => ⟨by decide, h⟩)⟩) id, e1, H1⟩
    | sub =>
      obtain ⟨r, s', g, e1, H1⟩ := addWord_fix H hx lz v true rfl
      refine ⟨r, s', g.imp (fun ⟨h1, h2⟩ => ⟨by rw [h1]; exact (sub_eq_add_neg _ _).symm, h2.imp id (fun h => ⟨by decide, ?_⟩)⟩) id, e1, H1⟩
      refine h.imp id (fun h => ?_)
      show (v.toNat : Int) = 0
      simp only [if_true] at h
      omega
    | mul =>
      by_cases hf : words a + 1 ≤ N
      · obtain ⟨s', e1, H1⟩ := runN_spec (K := fixK N) (asg := asg) (o := .mul) (n := .u32 v) fuel H hx lz rfl (fits_fix hf) hal
          (fun _ => trivial) (fun h => by rcases h with h | h <;> cases h)
        exact ⟨_, s', Or.inl ⟨rfl, Or.inl hf⟩, e1, by simpa [tmpOf] using H1⟩
      · obtain ⟨s', e1, P⟩ := mulu1_spec (K := fixK N) H.inv x1 z1 v
        obtain ⟨c, -, -⟩ := Big.mulu1_spec (fixK N).lim X v x2 (H.fitsX x1)
        refine ⟨0, s', Or.inr ⟨hf, rfl⟩, e1, H.post P c ?_⟩
        rw [mulWord_over (nf hf)]
        exact zero_int _
    | div => exact absurd rfl (ho.2 v rfl).1
    | mod => exact absurd rfl (ho.2 v rfl).2
    | and => exact absurd rfl ho.1.1
    | or => exact absurd rfl ho.1.2
  | s64 v =>
    obtain ⟨r, s', g, e1, H1⟩ := run64_fix (n := .s64 v) fuel hN H hx hz ho.1 h0
    refine ⟨r, s', ?_, ?_, H1⟩
    · cases o <;> first | exact g | exact absurd rfl ho.1.1 | exact absurd rfl ho.1.2
    · cases o with
      | mod =>
        cases asg with
        | true => exact absurd (show 2 = 1 from ha rfl rfl) (by decide)
        | false => exact e1
      | and => exact absurd rfl ho.1.1
      | or => exact absurd rfl ho.1.2
      | _ => exact e1
  | u64 v =>
    obtain ⟨r, s', g, e1, H1⟩ := run64_fix (n := .u64 v) fuel hN H hx hz ho.1 h0
    refine ⟨r, s', ?_, ?_, H1⟩
    · cases o <;> first | exact g | exact absurd rfl ho.1.1 | exact absurd rfl ho.1.2
    · cases o with
      | mod =>
        cases asg with
        | true => exact absurd (show 2 = 1 from ha rfl rfl) (by decide)
        | false => exact e1
      | and => exact absurd rfl ho.1.1
      | or => exact absurd rfl ho.1.2
      | _ => exact e1

theorem bump_fix {s : BigSt} {e : Env} {z : Nat} {a : Int} (hN : 2 ≤ N) (H : Holds (fixK N) s e) (hz : look e z = some a) (up : Bool) :
    ∃ r s', IntFix.GivesN N (if up then .add else .sub) a (.s32 1) a r ∧ s.bump (fixK N) up z = .ok s' ∧ Holds (fixK N) s' (put e z r) := by
  have ar : ∀ o : BOp, o = .add ∨ o = .sub → IntProg.ArithN o (.s32 1) ∧ ¬ ((o = .div ∨ o = .mod) ∧ (Native.s32 1).toInt = 0) := by
    rintro o (rfl | rfl) <;> exact ⟨⟨⟨by decide, by decide⟩, fun w hw => by cases hw⟩, fun h => by rcases h.1 with h | h <;> cases h⟩
  cases up with
  | true =>
    obtain ⟨r, s', g, e1, H1⟩ := runN_fix (o := .add) (n := .s32 1) (asg := true) 0 hN H hz hz (ar _ (Or.inl rfl)).1 (ar _ (Or.inl rfl)).2 (fun _ _ => rfl) (fun _ => rfl)
    exact ⟨r, s', g, e1, by simpa [tmpOf] using H1⟩
  | false =>
    obtain ⟨r, s', g, e1, H1⟩ := runN_fix (o := .sub) (n := .s32 1) (asg := true) 0 hN H hz hz (ar _ (Or.inr rfl)).1 (ar _ (Or.inr rfl)).2 (fun _ _ => rfl) (fun _ => rfl)
    exact ⟨r, s', g, e1, by simpa [tmpOf] using H1⟩

/-! ## Expressions and conditions -/

theorem ex_fix (hN : 2 ≤ N) (elide : Bool) (fuel : Nat) {vars : List Nat} {ρ : List Int} : ∀ {x : Ex}, IntFix.ExFix ρ.length x →
    ∀ {e : Env} {s : BigSt}, Reads vars ρ e → Holds (fixK N) s e →
    (∃ a s' ext p, IntFix.Val N ρ x (some a) ∧ x.eval (fixK N) elide fuel vars s = .ok (s', p) ∧ look (e ++ ext) p = some a ∧
      (e.length ≤ p ∨ ∃ v, x = .var v ∧ vars[v]? = some p) ∧ Holds (fixK N) s' (e ++ ext)) ∨
    (IntFix.Val N ρ x none ∧ x.eval (fixK N) elide fuel vars s = .error .abort) := by
  intro x
  induction x with
  | var v =>
    intro hv e s R H
    obtain ⟨p, h1, h2⟩ := R v _ (List.getElem?_eq_getElem hv)
    exact Or.inl ⟨_, s, [], p, .var (List.getElem?_eq_getElem hv), by rw [Ex.eval, h1], by rw [List.append_nil]; exact h2, Or.inr ⟨v, rfl, h1⟩,
      by rw [List.append_nil]; exact H⟩
  | lit n =>
    intro _ e s R H
    have hw : IntProg.width n ≤ 2 := by cases n <;> (show _ ≤ 2) <;> simp [IntProg.width]
    obtain ⟨s', e1, H1⟩ := H.newN (n := n) (fits_fix (le_trans hw hN))
    exact Or.inl ⟨_, s', [some n.toInt], e.length, .lit n, by rw [Ex.eval, e1, ok_bind, H.len], look_last _ _ _, Or.inl (Nat.le_refl _), H1⟩
  | bin o x y ihx ihy =>
    rintro ⟨ho, fx, fy⟩ e s R H
    rcases ihx fx R H with ⟨a, s1, x1, p, va, e1, l1, -, H1⟩ | ⟨vx, e1⟩
    · rcases ihy fy (R.append x1) H1 with ⟨b, s2, x2, q, vb, e2, l2, -, H2⟩ | ⟨vy, e2⟩
      · have l1 := look_append l1 x2
        have p1 := look_lt l1
        have q1 := look_lt l2
        obtain ⟨s3, e3, H3, hn⟩ := fresh_spec H2 l1
        by_cases h0 : (o = .div ∨ o = .mod) ∧ b = 0
        · obtain ⟨h1, rfl⟩ := h0
          refine Or.inr ⟨.bin_zero h1 va vb, ?_⟩
          rw [Ex.eval, e1, ok_bind]
          dsimp only
          rw [e2, ok_bind]
          dsimp only
          rw [e3, ok_bind, H2.len, binop_zero fuel H3 h1 (look_append l1 _) (look_append l2 _) (live_of (look_last _ _ []))]
          rfl
        · obtain ⟨r, s4, g, e4, H4⟩ := binop_fix fuel H3 (look_append l1 _) (look_append l2 _) (look_last _ _ []) ho h0 (fun h => by omega)
          rw [put_last] at H4
          obtain ⟨x3, t, l3, ht, ev3⟩ := result_spec (K := fixK N) elide (r := r) (tmp := []) (e := e) (E := (e ++ x1) ++ x2) ⟨x1 ++ x2, by simp⟩
          obtain ⟨s5, e5, H5⟩ := ev3 s4 H4
          refine Or.inl ⟨r, s5, x3, t, .bin va vb g, ?_, l3, Or.inl ht, H5⟩
          rw [Ex.eval, e1, ok_bind]
          dsimp only
          rw [e2, ok_bind]
          dsimp only
          rw [e3, ok_bind, H2.len, e4, ok_bind]
          exact e5
      · refine Or.inr ⟨.bin_right va vy, ?_⟩
        rw [Ex.eval, e1, ok_bind]
        dsimp only
        rw [e2]; rfl
    · exact Or.inr ⟨.bin_left vx, by rw [Ex.eval, e1]; rfl⟩
  | binN o x n ihx =>
    rintro ⟨ho, fx⟩ e s R H
    rcases ihx fx R H with ⟨a, s1, x1, p, va, e1, l1, -, H1⟩ | ⟨vx, e1⟩
    · have p1 := look_lt l1
      have hw : IntProg.width n ≤ 2 := by cases n <;> (show _ ≤ 2) <;> simp [IntProg.width]
      obtain ⟨s3, e3, H3, hn⟩ := fresh_spec H1 l1
      by_cases h0 : (o = .div ∨ o = .mod) ∧ n.toInt = 0
      · refine Or.inr ⟨.binN_zero h0.1 va h0.2, ?_⟩
        rw [Ex.eval, e1, ok_bind]
        dsimp only
        rw [e3, ok_bind, H1.len, runN_zero false fuel H3 h0.1 (look_append l1 _) h0.2 (fits_fix (le_trans hw hN)) (live_of (look_last _ _ []))]
        rfl
      · obtain ⟨r, s4, g, e4, H4⟩ := runN_fix (asg := false) fuel hN H3 (look_append l1 _) (look_last _ _ []) ho h0 (fun h => by cases h)
          (fun h => by omega)
        rw [put_last, List.append_assoc] at H4
        obtain ⟨x3, t, l3, ht, ev3⟩ := result_spec (K := fixK N) elide (r := r) (tmp := tmpOf n) (e := e) (E := e ++ x1) ⟨x1, rfl⟩
        obtain ⟨s5, e5, H5⟩ := ev3 s4 H4
        refine Or.inl ⟨r, s5, x3, t, .binN va g, ?_, l3, Or.inl ht, H5⟩
        rw [Ex.eval, e1, ok_bind]
        dsimp only
        rw [e3, ok_bind, H1.len, e4, ok_bind]
        exact e5
    · exact Or.inr ⟨.binN_left vx, by rw [Ex.eval, e1]; rfl⟩
  | neg x ihx =>
    intro fx e s R H
    rcases ihx fx R H with ⟨a, s1, x1, p, va, e1, l1, -, H1⟩ | ⟨vx, e1⟩
    · obtain ⟨s3, e3, H3, hn⟩ := fresh_spec H1 l1
      obtain ⟨s4, e4, H4⟩ := stmt_mem (.neg (e ++ x1).length p)
        (by simp only [eval, look_append l1]; exact if_pos (live_of (look_last _ _ []))) trivial trivial id s3 H3 fuel
      rw [put_last] at H4
      obtain ⟨x3, t, l3, ht, ev3⟩ := result_spec (K := fixK N) elide (r := -a) (tmp := []) (e := e) (E := e ++ x1) ⟨x1, rfl⟩
      obtain ⟨s5, e5, H5⟩ := ev3 s4 H4
      refine Or.inl ⟨_, s5, x3, t, .neg va, ?_, l3, Or.inl ht, H5⟩
      rw [Ex.eval, e1, ok_bind]
      dsimp only
      rw [e3, ok_bind, H1.len]
      rw [show s3.negate (fixK N) (e ++ x1).length p = _ from e4, ok_bind]
      exact e5
    · exact Or.inr ⟨.neg vx, by rw [Ex.eval, e1]; rfl⟩
  | abs x ihx =>
    intro fx e s R H
    rcases ihx fx R H with ⟨a, s1, x1, p, va, e1, l1, -, H1⟩ | ⟨vx, e1⟩
    · obtain ⟨s3, e3, H3⟩ := stmt_mem (.copyNew p) (e' := e ++ x1 ++ [some a]) (by simp only [eval, l1]; rfl) trivial trivial id s1 H1 fuel
      obtain ⟨s4, e4, H4⟩ := stmt_mem (.abs (e ++ x1).length p)
        (by simp only [eval, look_append l1]; exact if_pos (live_of (look_last _ _ []))) trivial trivial id s3 H3 fuel
      rw [put_last] at H4
      obtain ⟨x3, t, l3, ht, ev3⟩ := result_spec (K := fixK N) elide (r := (a.natAbs : Int)) (tmp := []) (e := e) (E := e ++ x1) ⟨x1, rfl⟩
      obtain ⟨s5, e5, H5⟩ := ev3 s4 H4
      refine Or.inl ⟨_, s5, x3, t, .abs va, ?_, l3, Or.inl ht, H5⟩
      rw [Ex.eval, e1, ok_bind]
      dsimp only
      rw [H1.len, show s1.copyNew (fixK N) p = _ from e3, ok_bind]
      rw [show s3.abs (fixK N) (e ++ x1).length p = _ from e4, ok_bind]
      exact e5
    · exact Or.inr ⟨.abs vx, by rw [Ex.eval, e1]; rfl⟩
  | shr x n ihx =>
    intro fx e s R H
    rcases ihx fx R H with ⟨a, s1, x1, p, va, e1, l1, -, H1⟩ | ⟨vx, e1⟩
    · obtain ⟨s3, e3, H3⟩ := stmt_mem (.copyNew p) (e' := e ++ x1 ++ [some a]) (by simp only [eval, l1]; rfl) trivial trivial id s1 H1 fuel
      obtain ⟨s4, e4, H4⟩ := stmt_mem (.shr (e ++ x1).length (e ++ x1).length n)
        (by simp only [eval, look_last]; exact if_pos (live_of (look_last _ _ []))) trivial trivial id s3 H3 fuel
      rw [put_last] at H4
      obtain ⟨x3, t, l3, ht, ev3⟩ := result_spec (K := fixK N) elide (r := a.tdiv (2 ^ n)) (tmp := []) (e := e) (E := e ++ x1) ⟨x1, rfl⟩
      obtain ⟨s5, e5, H5⟩ := ev3 s4 H4
      refine Or.inl ⟨_, s5, x3, t, .shr va, ?_, l3, Or.inl ht, H5⟩
      rw [Ex.eval, e1, ok_bind]
      dsimp only
      rw [H1.len, show s1.copyNew (fixK N) p = _ from e3, ok_bind]
      rw [show s3.shr (fixK N) (e ++ x1).length (e ++ x1).length n = _ from e4, ok_bind]
      exact e5
    · exact Or.inr ⟨.shr vx, by rw [Ex.eval, e1]; rfl⟩
  | shl x n _ => exact fun h => h.elim
  | call f x y _ _ => exact fun h => h.elim
  | modexp x y z _ _ _ => exact fun h => h.elim

/-- What a condition comes to. -/
def CondComes (N : Nat) (elide : Bool) (fuel : Nat) (vars : List Nat) (ρ : List Int) (c : Cond) (e : Env) (s : BigSt) : Prop :=
  (∃ b s' ext, IntFix.Tru N ρ c (some b) ∧ c.eval (fixK N) elide fuel vars s = .ok (s', b) ∧ Holds (fixK N) s' (e ++ ext)) ∨
  (IntFix.Tru N ρ c none ∧ c.eval (fixK N) elide fuel vars s = .error .abort)

theorem cond_fix (hN : 2 ≤ N) (elide : Bool) (fuel : Nat) {vars : List Nat} {ρ : List Int} : ∀ {c : Cond}, IntFix.CondFix ρ.length c →
    ∀ {e : Env} {s : BigSt}, Reads vars ρ e → Holds (fixK N) s e → CondComes N elide fuel vars ρ c e s := by
  have one : ∀ {x : Ex} {c : Cond} (g : BigSt → Nat → Res Bool) (f : Int → Bool),
      (∀ s, c.eval (fixK N) elide fuel vars s = (do let (s, p) ← x.eval (fixK N) elide fuel vars s; Except.ok (s, ← g s p) : Res (BigSt × Bool))) →
      (∀ r, IntFix.Val N ρ x r → IntFix.Tru N ρ c (r.map f)) → (∀ s p X, Rep s p X → X.Canon → g s p = .ok (f X.toInt)) →
      IntFix.ExFix ρ.length x → ∀ {e : Env} {s : BigSt}, Reads vars ρ e → Holds (fixK N) s e → CondComes N elide fuel vars ρ c e s := by
    intro x c g f hc ht hg fx e s R H
    rcases ex_fix hN elide fuel fx R H with ⟨a, s1, x1, p, va, e1, l1, -, H1⟩ | ⟨vx, e1⟩
    · obtain ⟨X, h1, h2, rfl⟩ := H1.rep l1
      exact Or.inl ⟨_, s1, x1, ht _ va, by rw [hc, e1, ok_bind]; dsimp only; rw [hg s1 p X h1 h2, ok_bind], H1⟩
    · exact Or.inr ⟨ht _ vx, by rw [hc, e1]; rfl⟩
  have rule : ∀ {n : Native} (a : Int), n ≠ .u32 0 → IntProg.RuleC (fixK N).lim a n := by
    intro n a h
    cases n with
    | s32 v => trivial
    | u32 v => exact Or.inr (fun e => h (by rw [e]))
    | s64 v => exact fits_fix hN
    | u64 v => exact fits_fix hN
  intro c
  induction c with
  | cmp o x y =>
    rintro ⟨fx, fy⟩ e s R H
    rcases ex_fix hN elide fuel fx R H with ⟨a, s1, x1, p, va, e1, l1, -, H1⟩ | ⟨vx, e1⟩
    · rcases ex_fix hN elide fuel fy (R.append x1) H1 with ⟨b, s2, x2, q, vb, e2, l2, -, H2⟩ | ⟨vy, e2⟩
      · obtain ⟨X, y1, y2, y3⟩ := H2.rep (look_append l1 x2)
        obtain ⟨Y, z1, z2, z3⟩ := H2.rep l2
        refine Or.inl ⟨_, s2, x1 ++ x2, .cmp va vb, ?_, by rw [← List.append_assoc]; exact H2⟩
        rw [Cond.eval, e1, ok_bind]
        dsimp only
        rw [e2, ok_bind]
        dsimp only
        rw [compare_eq y1 z1, ok_bind, right_spec o (sgn_of (y3 ▸ z3 ▸ Big.compare_spec y2 z2))]
      · refine Or.inr ⟨.cmp va vy, ?_⟩
        rw [Cond.eval, e1, ok_bind]
        dsimp only
        rw [e2]; rfl
    · exact Or.inr ⟨.cmp_left vx, by rw [Cond.eval, e1]; rfl⟩
  | cmpR o x n =>
    rintro ⟨hn, fx⟩ e s R H
    rcases ex_fix hN elide fuel fx R H with ⟨a, s1, x1, p, va, e1, l1, -, H1⟩ | ⟨vx, e1⟩
    · obtain ⟨s2, c, e2, sg, H2⟩ := cmpNative_mem H1 l1 (rule a hn)
      refine Or.inl ⟨_, s2, x1 ++ tmpOf n, .cmpR va, ?_, by rw [← List.append_assoc]; exact H2⟩
      rw [Cond.eval, e1, ok_bind]
      dsimp only
      rw [e2, ok_bind]
      dsimp only
      rw [right_spec o sg]
    · exact Or.inr ⟨.cmpR vx, by rw [Cond.eval, e1]; rfl⟩
  | cmpL o n x =>
    rintro ⟨hn, fx⟩ e s R H
    rcases ex_fix hN elide fuel fx R H with ⟨a, s1, x1, p, va, e1, l1, -, H1⟩ | ⟨vx, e1⟩
    · obtain ⟨s2, c, e2, sg, H2⟩ := cmpNative_mem H1 l1 (rule a hn)
      refine Or.inl ⟨_, s2, x1 ++ tmpOf n, .cmpL va, ?_, by rw [← List.append_assoc]; exact H2⟩
      rw [Cond.eval, e1, ok_bind]
      dsimp only
      rw [e2, ok_bind]
      dsimp only
      rw [left_spec o sg]
    · exact Or.inr ⟨.cmpL vx, by rw [Cond.eval, e1]; rfl⟩
  | isZero x => exact one BigSt.isZero _ (fun _ => rfl) (fun _ => .isZero) (fun s p X h1 h2 => by rw [isZero_eq h1, bool_eq (Big.isZero_iff h2)])
  | isOne x => exact one BigSt.isOne _ (fun _ => rfl) (fun _ => .isOne) (fun s p X h1 h2 => by rw [isOne_eq h1, bool_eq (Big.isOne_iff h2)])
  | isNegative x =>
    exact one BigSt.isNegative _ (fun _ => rfl) (fun _ => .isNegative) (fun s p X h1 h2 => by rw [isNegative_mem h1, bool_eq (Big.isNegative_iff h2)])
  | isOdd x => exact one BigSt.isOdd _ (fun _ => rfl) (fun _ => .isOdd) (fun s p X h1 h2 => by rw [isOdd_mem h1, bool_eq (Big.isOdd_iff X)])
  | testBit x i =>
    exact one (fun s p => s.testBit p i) _ (fun _ => rfl) (fun _ => .testBit) (fun s p X h1 h2 => by
      show s.testBit p i = _
      rw [testBit_eq h1, Big.testBit_spec, Big.natAbs_toInt])
  | not c ih =>
    intro fc e s R H
    rcases ih fc R H with ⟨b, s1, ext, t, e1, H1⟩ | ⟨t, e1⟩
    · exact Or.inl ⟨_, s1, ext, .not t, by rw [Cond.eval, e1, ok_bind], H1⟩
    · exact Or.inr ⟨.not t, by rw [Cond.eval, e1]; rfl⟩
  | and c d ihc ihd =>
    rintro ⟨fc, fd⟩ e s R H
    rcases ihc fc R H with ⟨_ | _, s1, ext, t, e1, H1⟩ | ⟨t, e1⟩
    · exact Or.inl ⟨_, s1, ext, .and_left t (by simp), by rw [Cond.eval, e1, ok_bind]; rfl, H1⟩
    · rcases ihd fd (R.append ext) H1 with ⟨b, s2, ext', t', e2, H2⟩ | ⟨t', e2⟩
      · exact Or.inl ⟨b, s2, ext ++ ext', .and t t', by rw [Cond.eval, e1, ok_bind]; exact e2, by rw [← List.append_assoc]; exact H2⟩
      · exact Or.inr ⟨.and t t', by rw [Cond.eval, e1, ok_bind]; exact e2⟩
    · exact Or.inr ⟨.and_left t (by simp), by rw [Cond.eval, e1]; rfl⟩
  | or c d ihc ihd =>
    rintro ⟨fc, fd⟩ e s R H
    rcases ihc fc R H with ⟨_ | _, s1, ext, t, e1, H1⟩ | ⟨t, e1⟩
    · rcases ihd fd (R.append ext) H1 with ⟨b, s2, ext', t', e2, H2⟩ | ⟨t', e2⟩
      · exact Or.inl ⟨b, s2, ext ++ ext', .or t t', by rw [Cond.eval, e1, ok_bind]; exact e2, by rw [← List.append_assoc]; exact H2⟩
      · exact Or.inr ⟨.or t t', by rw [Cond.eval, e1, ok_bind]; exact e2⟩
    · exact Or.inl ⟨_, s1, ext, .or_left t (by simp), by rw [Cond.eval, e1, ok_bind]; rfl, H1⟩
    · exact Or.inr ⟨.or_left t (by simp), by rw [Cond.eval, e1]; rfl⟩

/-! ## Commands -/

/-- What a command comes to with this much fuel. -/
def CmdComes (N : Nat) (elide : Bool) (n : Nat) (p : Cmd) (vars : List Nat) (ρ : List Int) (s : BigSt) : Prop :=
  p.exec (fixK N) elide n ⟨vars, s⟩ = .error .fuel ∨
  (∃ ρ' e' more s', IntFix.Ends N p ρ (some ρ') ∧ ρ'.length = ρ.length + IntProg.declares p ∧
    p.exec (fixK N) elide n ⟨vars, s⟩ = .ok ⟨vars ++ more, s'⟩ ∧ Sees (vars ++ more) ρ' e' ∧ Holds (fixK N) s' e') ∨
  (IntFix.Ends N p ρ none ∧ p.exec (fixK N) elide n ⟨vars, s⟩ = .error .abort)

/-- A command that leaves the frame alone. -/
theorem CmdComes.of {elide : Bool} {n : Nat} {p : Cmd} {vars : List Nat} {ρ ρ' : List Int} {s s' : BigSt} {e' : Env}
    (h : IntFix.Ends N p ρ (some ρ')) (hl : ρ'.length = ρ.length + IntProg.declares p)
    (hx : p.exec (fixK N) elide n ⟨vars, s⟩ = .ok ⟨vars, s'⟩) (S : Sees vars ρ' e') (H : Holds (fixK N) s' e') : CmdComes N elide n p vars ρ s :=
  Or.inr (Or.inl ⟨ρ', e', [], s', h, hl, by rw [List.append_nil]; exact hx, by rw [List.append_nil]; exact S, H⟩)

theorem cmd_fix (hN : 2 ≤ N) (elide : Bool) : ∀ (n : Nat) (p : Cmd) (vars : List Nat) (ρ : List Int) (e : Env) (s : BigSt),
    IntFix.CmdFix ρ.length p → Sees vars ρ e → Holds (fixK N) s e → CmdComes N elide n p vars ρ s := by
  have wid : ∀ n : Native, IntProg.width n ≤ N := by
    intro n
    have hw : IntProg.width n ≤ 2 := by cases n <;> (show _ ≤ 2) <;> simp [IntProg.width]
    exact le_trans hw hN
  intro n
  induction n with
  | zero => exact fun p vars ρ e s _ _ _ => Or.inl (by cases p <;> rfl)
  | succ n ih =>
    intro p vars ρ e s hf S H
    cases p with
    | skip => exact CmdComes.of .skip rfl rfl S H
    | seq p q =>
      obtain ⟨hp, hq⟩ := hf
      rcases ih p vars ρ e s hp S H with h | ⟨ρ₁, e1, m1, s1, h1, h2, h3, h4, h5⟩ | ⟨h1, h2⟩
      · exact Or.inl (by rw [Cmd.exec, h]; rfl)
      · rw [← h2] at hq
        rcases ih q _ ρ₁ e1 s1 hq h4 h5 with g | ⟨ρ₂, e2, m2, s2, g1, g2, g3, g4, g5⟩ | ⟨g1, g2⟩
        · exact Or.inl (by rw [Cmd.exec, h3, ok_bind, g])
        · refine Or.inr (Or.inl ⟨ρ₂, e2, m1 ++ m2, s2, .seq h1 g1, ?_, ?_, by rw [← List.append_assoc]; exact g4, g5⟩)
          · rw [g2, h2, IntProg.declares, Nat.add_assoc]
          · rw [Cmd.exec, h3, ok_bind, g3, List.append_assoc]
        · exact Or.inr (Or.inr ⟨.seq h1 g1, by rw [Cmd.exec, h3, ok_bind, g2]⟩)
      · exact Or.inr (Or.inr ⟨.seq_left h1, by rw [Cmd.exec, h2]; rfl⟩)
    | block p =>
      rcases ih p vars ρ e s hf S H with h | ⟨ρ', e', more, s', h1, h2, h3, h4, h5⟩ | ⟨h1, h2⟩
      · exact Or.inl (by rw [Cmd.exec, h]; rfl)
      · refine Or.inr (Or.inl ⟨_, e', [], s', .block h1, take_grown h2, ?_, ?_, h5⟩)
        · rw [Cmd.exec, h3, ok_bind]
          show Except.ok (Frame.mk ((vars ++ more).take vars.length) s') = _
          rw [List.take_left' rfl, List.append_nil]
        · have := h4.take ρ.length
          rw [← S.len, List.take_left' rfl] at this
          rw [List.append_nil, ← S.len]; exact this
      · exact Or.inr (Or.inr ⟨.block h1, by rw [Cmd.exec, h2]; rfl⟩)
    | ite c p q =>
      obtain ⟨hc, hp, hq⟩ := hf
      rcases cond_fix hN elide n hc S.reads H with ⟨b, s1, ext, t, x1, H1⟩ | ⟨t, x1⟩
      · have hx : Cmd.exec (fixK N) elide (n + 1) (.ite c p q) ⟨vars, s⟩ = (Cmd.block (if b then p else q)).exec (fixK N) elide n ⟨vars, s1⟩ := by
          rw [Cmd.exec]; dsimp only; rw [x1, ok_bind]
        rcases ih (.block (if b then p else q)) vars ρ _ s1 (by cases b; exacts [hq, hp]) (S.append ext) H1 with
          h | ⟨ρ', e', more, s', h1, h2, h3, h4, h5⟩ | ⟨h1, h2⟩
        · exact Or.inl (by rw [hx, h])
        · exact Or.inr (Or.inl ⟨_, e', more, s', .ite t h1, h2, by rw [hx, h3], h4, h5⟩)
        · exact Or.inr (Or.inr ⟨.ite t h1, by rw [hx, h2]⟩)
      · exact Or.inr (Or.inr ⟨.ite_cond t, by rw [Cmd.exec]; dsimp only; rw [x1]; rfl⟩)
    | loop c p =>
      obtain ⟨hc, hp⟩ := id hf
      rcases cond_fix hN elide n hc S.reads H with ⟨b, s1, ext, t, x1, H1⟩ | ⟨t, x1⟩
      · cases b with
        | false => exact CmdComes.of (.loop_end t) rfl (by rw [Cmd.exec]; dsimp only; rw [x1, ok_bind]; rfl) (S.append ext) H1
        | true =>
          have hx : Cmd.exec (fixK N) elide (n + 1) (.loop c p) ⟨vars, s⟩ = (do
              let g ← (Cmd.block p).exec (fixK N) elide n ⟨vars, s1⟩
              (Cmd.loop c p).exec (fixK N) elide n g) := by
            rw [Cmd.exec]; dsimp only; rw [x1, ok_bind]; rfl
          rcases ih (.block p) vars ρ _ s1 hp (S.append ext) H1 with h | ⟨ρ₁, e', more, s', h1, h2, h3, h4, h5⟩ | ⟨h1, h2⟩
          · exact Or.inl (by rw [hx, h]; rfl)
          · have hl : ρ₁.length = ρ.length := h2
            rcases ih (.loop c p) _ _ e' s' (by rw [hl]; exact hf) h4 h5 with g | ⟨ρ₂, e2, m2, s2, g1, g2, g3, g4, g5⟩ | ⟨g1, g2⟩
            · exact Or.inl (by rw [hx, h3, ok_bind, g])
            · refine Or.inr (Or.inl ⟨ρ₂, e2, more ++ m2, s2, .loop_step t h1 g1, by rw [g2, hl], ?_, by rw [← List.append_assoc]; exact g4, g5⟩)
              rw [hx, h3, ok_bind, g3, List.append_assoc]
            · exact Or.inr (Or.inr ⟨.loop_step t h1 g1, by rw [hx, h3, ok_bind, g2]⟩)
          · exact Or.inr (Or.inr ⟨.loop_body t h1, by rw [hx, h2]; rfl⟩)
      · exact Or.inr (Or.inr ⟨.loop_cond t, by rw [Cmd.exec]; dsimp only; rw [x1]; rfl⟩)
    | decl x =>
      by_cases hv : ∃ v, x = .var v
      · obtain ⟨v, rfl⟩ := hv
        obtain ⟨p, h1, h2⟩ := S.reads v _ (List.getElem?_eq_getElem hf)
        obtain ⟨s', e1, H1⟩ := stmt_mem (.copyNew p) (e' := e ++ [some ρ[v]]) (by simp only [eval, h2]; rfl) trivial trivial id s H 0
        refine Or.inr (Or.inl ⟨ρ ++ [ρ[v]], e ++ [some ρ[v]], [e.length], s', .decl (.var (List.getElem?_eq_getElem hf)), by simp [IntProg.declares], ?_,
          (S.append _).snoc (fun h => Nat.lt_irrefl _ (S.lt h)) (look_last _ _ _), H1⟩)
        rw [Cmd.exec, pos_ok h1, ok_bind]
        dsimp only
        rw [show s.copyNew (fixK N) p = _ from e1, ok_bind, H.len]
      · rcases ex_fix hN elide n hf S.reads H with ⟨a, s1, ext, p, va, e1, l1, hp, H1⟩ | ⟨vx, e1⟩
        · have hp : e.length ≤ p := hp.resolve_right (fun ⟨v, hv', _⟩ => hv ⟨v, hv'⟩)
          exact Or.inr (Or.inl ⟨ρ ++ [a], e ++ ext, [p], s1, .decl va, by simp [IntProg.declares],
            by rw [exec_decl (fun v h => hv ⟨v, h⟩), e1, ok_bind], (S.append _).snoc (fun h => by have := S.lt h; omega) l1, H1⟩)
        · exact Or.inr (Or.inr ⟨.decl vx, by rw [exec_decl (fun v h => hv ⟨v, h⟩), e1]; rfl⟩)
    | set z x =>
      obtain ⟨hz, fx⟩ := hf
      obtain ⟨i, hi, hm, hlt⟩ := S.get hz
      by_cases hv : ∃ v, x = .var v
      · obtain ⟨v, rfl⟩ := hv
        obtain ⟨p, h1, h2⟩ := S.reads v _ (List.getElem?_eq_getElem fx)
        obtain ⟨s', e1, H1⟩ := stmt_mem (.assign i p) (e' := put e i ρ[v]) (by simp only [eval, h2]; exact if_pos hlt) trivial trivial id s H 0
        refine CmdComes.of (.set (.var (List.getElem?_eq_getElem fx))) (by simp [IntProg.declares]) ?_ (S.put hi _) H1
        rw [Cmd.exec, pos_ok h1, ok_bind, pos_ok hi, ok_bind]
        dsimp only
        rw [show s.assign (fixK N) i p = _ from e1, ok_bind]
      · rcases ex_fix hN elide n fx S.reads H with ⟨a, s1, ext, p, va, e1, l1, hp, H1⟩ | ⟨vx, e1⟩
        · have hp : e.length ≤ p := hp.resolve_right (fun ⟨v, hv', _⟩ => hv ⟨v, hv'⟩)
          have hpv : p ∉ vars := fun h => by have := S.lt h; omega
          obtain ⟨s2, e2, H2⟩ := moveAssign_spec H1 (look_some.1 l1) (z := i) (by rw [List.length_append]; omega)
          rw [if_neg (by omega)] at H2
          refine CmdComes.of (.set va) (by simp [IntProg.declares]) ?_ (((S.append ext).put hi a).kill hpv) H2
          rw [exec_set (fun v h => hv ⟨v, h⟩), e1, ok_bind]
          dsimp only
          rw [pos_ok hi, ok_bind, e2, ok_bind]
        · exact Or.inr (Or.inr ⟨.set vx, by rw [exec_set (fun v h => hv ⟨v, h⟩), e1]; rfl⟩)
    | setN z v =>
      obtain ⟨i, hi, hm, hlt⟩ := S.get hf
      obtain ⟨o, ho⟩ : ∃ o, s.mem.objs[i]? = some o := ⟨_, List.getElem?_eq_getElem (by rw [H.len]; exact hlt)⟩
      have hf' := lim_fits' (fixK N) _ (width_words v ▸ fits_fix (wid v))
      obtain ⟨s', R, e1, e2, P⟩ := assignN_mem H.inv ho v hf'
      obtain ⟨R', e3, c, -, t, -⟩ := Native.toBig_spec (fixK N).lim v hf'
      rw [e2] at e3; cases e3
      refine CmdComes.of .setN (by simp [IntProg.declares]) ?_ (S.put hi v.toInt) (H.post P c t)
      rw [Cmd.exec, pos_ok hi, ok_bind]
      dsimp only
      rw [e1, ok_bind]
    | upd o z x =>
      obtain ⟨hz, ho, fx⟩ := hf
      obtain ⟨i, hi, hl⟩ := S.reads z _ (List.getElem?_eq_getElem hz)
      rcases ex_fix hN elide n fx S.reads H with ⟨b, s1, ext, p, vb, e1, l1, -, H1⟩ | ⟨vx, e1⟩
      · have hl' := look_append hl ext
        by_cases h0 : (o = .div ∨ o = .mod) ∧ b = 0
        · obtain ⟨h1, rfl⟩ := h0
          refine Or.inr (Or.inr ⟨.upd_zero h1 vb, ?_⟩)
          rw [Cmd.exec]
          dsimp only
          rw [e1, ok_bind]
          dsimp only
          rw [pos_ok hi, ok_bind, binop_zero n H1 h1 hl' l1 (live_of hl')]; rfl
        · obtain ⟨r, s2, g, e2, H2⟩ := binop_fix n H1 hl' l1 hl' ho h0 (fun h => h)
          refine CmdComes.of (.upd (List.getElem?_eq_getElem hz) vb g) (by simp [IntProg.declares]) ?_ ((S.append ext).put hi r) H2
          rw [Cmd.exec]
          dsimp only
          rw [e1, ok_bind]
          dsimp only
          rw [pos_ok hi, ok_bind, e2, ok_bind]
      · exact Or.inr (Or.inr ⟨.upd_ex vx, by rw [Cmd.exec]; dsimp only; rw [e1]; rfl⟩)
    | updN o z v =>
      obtain ⟨hz, ho, hm⟩ := hf
      obtain ⟨i, hi, hl⟩ := S.reads z _ (List.getElem?_eq_getElem hz)
      by_cases h0 : (o = .div ∨ o = .mod) ∧ v.toInt = 0
      · refine Or.inr (Or.inr ⟨.updN_zero h0.1 h0.2, ?_⟩)
        rw [Cmd.exec, pos_ok hi, ok_bind]
        dsimp only
        rw [runN_zero true n H h0.1 hl h0.2 (fits_fix (wid v)) (live_of hl)]; rfl
      · obtain ⟨r, s2, g, e2, H2⟩ := runN_fix (asg := true) n hN H hl hl ho h0 (fun _ => hm) (fun _ => rfl)
        refine CmdComes.of (.updN (List.getElem?_eq_getElem hz) g) (by simp [IntProg.declares]) ?_ ((S.put hi r).append (tmpOf v)) H2
        rw [Cmd.exec, pos_ok hi, ok_bind]
        dsimp only
        rw [e2, ok_bind]
    | shl z k => exact hf.elim
    | shr z k =>
      obtain ⟨i, hi, hl⟩ := S.reads z _ (List.getElem?_eq_getElem hf)
      obtain ⟨s', e1, H1⟩ := stmt_mem (.shr i i k) (by simp only [eval, hl]; exact if_pos (live_of hl)) trivial trivial id s H 0
      refine CmdComes.of (.shr (List.getElem?_eq_getElem hf)) (by simp [IntProg.declares]) ?_ (S.put hi _) H1
      rw [Cmd.exec, pos_ok hi, ok_bind]
      dsimp only
      rw [show s.shr (fixK N) i i k = _ from e1, ok_bind]
    | step up z =>
      obtain ⟨i, hi, hl⟩ := S.reads z _ (List.getElem?_eq_getElem hf)
      obtain ⟨r, s', g, e1, H1⟩ := bump_fix hN H hl up
      refine CmdComes.of (.step (List.getElem?_eq_getElem hf) g) (by simp [IntProg.declares]) ?_ (S.put hi _) H1
      rw [Cmd.exec, pos_ok hi, ok_bind]
      dsimp only
      rw [e1, ok_bind]
    | post up z =>
      obtain ⟨i, hi, hl⟩ := S.reads z _ (List.getElem?_eq_getElem hf)
      have hlt := look_lt hl
      obtain ⟨s1, e1, H1⟩ := stmt_mem (.copyNew i) (e' := e ++ [some ρ[z]]) (by simp only [eval, hl]; rfl) trivial trivial id s H 0
      obtain ⟨r, s2, g, e2, H2⟩ := bump_fix hN H1 (look_append hl [some ρ[z]]) up
      rw [put_append hlt] at H2
      obtain ⟨ext, t, l, ht, ev⟩ := result_spec (K := fixK N) elide (r := ρ[z]) (tmp := []) (e := put e i r) (E := put e i r) ⟨[], by simp⟩
      have hpl : (put e i r).length = e.length := List.length_set
      obtain ⟨s3, e3, H3⟩ := ev s2 H2
      rw [hpl] at e3
      refine Or.inr (Or.inl ⟨_, put e i r ++ ext, [t], s3, .post (List.getElem?_eq_getElem hf) g, by simp [IntProg.declares], ?_,
        ((S.put hi _).append _).snoc (fun h => by have := S.lt h; omega) l, H3⟩)
      rw [Cmd.exec, pos_ok hi, ok_bind]
      dsimp only
      rw [show s.copyNew (fixK N) i = _ from e1, ok_bind, e2, ok_bind, H.len, e3, ok_bind]
    | swap x y =>
      obtain ⟨i, hi, hl⟩ := S.reads x _ (List.getElem?_eq_getElem hf.1)
      obtain ⟨j, hj, hm⟩ := S.reads y _ (List.getElem?_eq_getElem hf.2)
      obtain ⟨s', e1, H1⟩ := stmt_mem (.swap i j) (e' := put (put e i _) j _) (by simp only [eval, hl, hm]; rfl) trivial trivial id s H 0
      refine CmdComes.of (.swap (List.getElem?_eq_getElem hf.1) (List.getElem?_eq_getElem hf.2)) (by simp [IntProg.declares]) ?_ ((S.put hi _).put hj _) H1
      rw [Cmd.exec, pos_ok hi, ok_bind, pos_ok hj, ok_bind]
      dsimp only
      rw [show s.swap (fixK N) i j = _ from e1, ok_bind]

end Ack.Mem
