import Verif.Proof.IntStop
/-!
# Programs on growable integers without rules: proofs
-/
namespace Ack.Mem
open Ack.Spec.Prog
open Ack.Spec (IntProg.Bin IntProg.Room IntProg.width IntProg.RuleN IntProg.Means IntProg.Rel IntProg.RuleC
  IntProg.Truth IntProg.RuleA IntProg.RuleAN IntProg.Runs IntProg.ExStops IntProg.CondStops IntProg.Stops IntProg.ExFree IntProg.CondFree
  IntProg.CmdFree IntProg.Arith IntProg.ArithN IntProg.declares)

variable {inl : Option Nat} {ρ : List Int}

theorem fits_none (w : Nat) : fits none w := fun N h => by cases h

/-- The value of an operator, or a division by zero. -/
theorem bin_total {o : BOp} (h : IntProg.Arith o) (a b : Int) :
    (∃ r, IntProg.Bin o a b r ∧ IntProg.Room none o a b) ∨ ((o = .div ∨ o = .mod) ∧ b = 0) := by
  by_cases hb : b = 0 ∧ (o = .div ∨ o = .mod)
  · exact Or.inr ⟨hb.2, hb.1⟩
  · left
    cases o with
    | add => exact ⟨_, rfl, Or.inr (fits_none _)⟩
    | sub => exact ⟨_, rfl, Or.inr (fits_none _)⟩
    | mul => exact ⟨_, rfl, fits_none _⟩
    | div => exact ⟨_, ⟨fun h => hb ⟨h, Or.inl rfl⟩, rfl⟩, trivial⟩
    | mod => exact ⟨_, ⟨fun h => hb ⟨h, Or.inr rfl⟩, rfl⟩, trivial⟩
    | and => exact absurd rfl h.1
    | or => exact absurd rfl h.2

theorem rule_total {o : BOp} {n : Native} (h : IntProg.ArithN o n) {a r : Int} (hb : IntProg.Bin o a n.toInt r) (hr : IntProg.Room none o a n.toInt) :
    IntProg.RuleN none o a n := by
  obtain ⟨⟨h1, h2⟩, h3⟩ := h
  cases n with
  | s32 v => cases o <;> first | exact fits_none _ | trivial | exact absurd rfl h1 | exact absurd rfl h2
  | u32 v =>
    cases o <;> first | exact fits_none _ | exact absurd rfl h1 | exact absurd rfl h2 | exact absurd rfl (h3 v rfl).1 | exact absurd rfl (h3 v rfl).2
  | s64 v => cases o <;> first | exact ⟨fits_none _, hr⟩ | exact absurd rfl h1 | exact absurd rfl h2
  | u64 v => cases o <;> first | exact ⟨fits_none _, hr⟩ | exact absurd rfl h1 | exact absurd rfl h2

theorem ex_total : ∀ {x : Ex}, IntProg.ExFree ρ.length x → callFree x = true ∧ ((∃ a, IntProg.Means none inl ρ x a) ∨ IntProg.ExStops none inl ρ x) := by
  intro x
  induction x with
  | var v => exact fun h => ⟨rfl, Or.inl ⟨_, .var (List.getElem?_eq_getElem h)⟩⟩
  | lit n => exact fun _ => ⟨rfl, Or.inl ⟨_, .lit (fits_none _)⟩⟩
  | bin o x y ihx ihy =>
    rintro ⟨h, hx, hy⟩
    obtain ⟨fx, ix⟩ := ihx hx
    obtain ⟨fy, iy⟩ := ihy hy
    refine ⟨by rw [callFree, fx, fy]; rfl, ?_⟩
    rcases ix with ⟨a, ma⟩ | ix
    · rcases iy with ⟨b, mb⟩ | iy
      · rcases bin_total h a b with ⟨r, h1, h2⟩ | ⟨h1, rfl⟩
        · exact Or.inl ⟨r, .bin ma mb h1 h2⟩
        · exact Or.inr (.bin h1 ma mb)
      · exact Or.inr (.bin_right ma iy)
    · exact Or.inr (.bin_left ix)
  | binN o x n ihx =>
    rintro ⟨h, hx⟩
    obtain ⟨fx, ix⟩ := ihx hx
    refine ⟨fx, ?_⟩
    rcases ix with ⟨a, ma⟩ | ix
    · rcases bin_total h.1 a n.toInt with ⟨r, h1, h2⟩ | ⟨h1, h2⟩
      · exact Or.inl ⟨r, .binN ma h1 (rule_total h h1 h2)⟩
      · exact Or.inr (.binN h1 ma h2 (fits_none _))
    · exact Or.inr (.binN_left ix)
  | neg x ih => exact fun h => ⟨(ih h).1, (ih h).2.imp (fun ⟨a, m⟩ => ⟨_, .neg m⟩) .neg⟩
  | abs x ih => exact fun h => ⟨(ih h).1, (ih h).2.imp (fun ⟨a, m⟩ => ⟨_, .abs m⟩) .abs⟩
  | shl x n ih => exact fun h => ⟨(ih h).1, (ih h).2.imp (fun ⟨a, m⟩ => ⟨_, .shl m (fits_none _)⟩) .shl⟩
  | shr x n ih => exact fun h => ⟨(ih h).1, (ih h).2.imp (fun ⟨a, m⟩ => ⟨_, .shr m⟩) .shr⟩
  | call f x y _ _ => exact fun h => h.elim
  | modexp x y z _ _ _ => exact fun h => h.elim

theorem ruleC_total {n : Native} (h : n ≠ .u32 0) (a : Int) : IntProg.RuleC none a n := by
  cases n with
  | s32 v => trivial
  | u32 v => exact Or.inr (fun e => h (by rw [e]))
  | s64 v => exact fits_none _
  | u64 v => exact fits_none _

theorem cond_total : ∀ {c : Cond}, IntProg.CondFree ρ.length c →
    callFreeC c = true ∧ ((∃ b, IntProg.Truth none inl ρ c b) ∨ IntProg.CondStops none inl ρ c) := by
  intro c
  induction c with
  | cmp o x y =>
    rintro ⟨hx, hy⟩
    obtain ⟨fx, ix⟩ := ex_total (inl := inl) hx
    obtain ⟨fy, iy⟩ := ex_total (inl := inl) hy
    refine ⟨by rw [callFreeC, fx, fy]; rfl, ?_⟩
    rcases ix with ⟨a, ma⟩ | ix
    · rcases iy with ⟨b, mb⟩ | iy
      · exact Or.inl ⟨_, .cmp ma mb⟩
      · exact Or.inr (.cmp_right ma iy)
    · exact Or.inr (.cmp_left ix)
  | cmpR o x n => exact fun h => ⟨(ex_total (inl := inl) h.2).1, (ex_total h.2).2.imp (fun ⟨a, m⟩ => ⟨_, .cmpR m (ruleC_total h.1 a)⟩) .cmpR⟩
  | cmpL o n x => exact fun h => ⟨(ex_total (inl := inl) h.2).1, (ex_total h.2).2.imp (fun ⟨a, m⟩ => ⟨_, .cmpL m (ruleC_total h.1 a)⟩) .cmpL⟩
  | isZero x => exact fun h => ⟨(ex_total (inl := inl) h).1, (ex_total h).2.imp (fun ⟨a, m⟩ => ⟨_, .isZero m⟩) .isZero⟩
  | isOne x => exact fun h => ⟨(ex_total (inl := inl) h).1, (ex_total h).2.imp (fun ⟨a, m⟩ => ⟨_, .isOne m⟩) .isOne⟩
  | isNegative x => exact fun h => ⟨(ex_total (inl := inl) h).1, (ex_total h).2.imp (fun ⟨a, m⟩ => ⟨_, .isNegative m⟩) .isNegative⟩
  | isOdd x => exact fun h => ⟨(ex_total (inl := inl) h).1, (ex_total h).2.imp (fun ⟨a, m⟩ => ⟨_, .isOdd m⟩) .isOdd⟩
  | testBit x i => exact fun h => ⟨(ex_total (inl := inl) h).1, (ex_total h).2.imp (fun ⟨a, m⟩ => ⟨_, .testBit m⟩) .testBit⟩
  | not c ih => exact fun h => ⟨(ih h).1, (ih h).2.imp (fun ⟨b, m⟩ => ⟨_, .not m⟩) .not⟩
  | and c d ihc ihd =>
    rintro ⟨hc, hd⟩
    obtain ⟨fc, ic⟩ := ihc hc
    obtain ⟨fd, id⟩ := ihd hd
    refine ⟨by rw [callFreeC, fc, fd]; rfl, ?_⟩
    rcases ic with ⟨_ | _, mc⟩ | ic
    · exact Or.inl ⟨_, .and_false mc⟩
    · rcases id with ⟨b, md⟩ | id
      · exact Or.inl ⟨_, .and_true mc md⟩
      · exact Or.inr (.and_right mc id)
    · exact Or.inr (.and_left ic)
  | or c d ihc ihd =>
    rintro ⟨hc, hd⟩
    obtain ⟨fc, ic⟩ := ihc hc
    obtain ⟨fd, id⟩ := ihd hd
    refine ⟨by rw [callFreeC, fc, fd]; rfl, ?_⟩
    rcases ic with ⟨_ | _, mc⟩ | ic
    · rcases id with ⟨b, md⟩ | id
      · exact Or.inl ⟨_, .or_false mc md⟩
      · exact Or.inr (.or_right mc id)
    · exact Or.inl ⟨_, .or_true mc⟩
    · exact Or.inr (.or_left ic)

/-- A command that is no compound: it runs or stops, and needs one unit of fuel. -/
theorem once_total {p : Cmd} (hp : ∀ q r, p ≠ .seq q r) (hb : ∀ q, p ≠ .block q) (hi : ∀ c q r, p ≠ .ite c q r) (hl : ∀ c q, p ≠ .loop c q)
    (h : IntProg.CmdFree ρ.length p) : once p = true ∧
      ((∃ ρ', IntProg.Runs none inl p ρ ρ' ∧ ρ'.length = ρ.length + IntProg.declares p) ∨ IntProg.Stops none inl p ρ) := by
  cases p with
  | skip => exact ⟨rfl, Or.inl ⟨_, .skip, rfl⟩⟩
  | seq q r => exact absurd rfl (hp q r)
  | block q => exact absurd rfl (hb q)
  | ite c q r => exact absurd rfl (hi c q r)
  | loop c q => exact absurd rfl (hl c q)
  | decl x =>
    obtain ⟨f, i⟩ := ex_total (inl := inl) h
    exact ⟨f, i.imp (fun ⟨a, m⟩ => ⟨_, .decl m, by simp [IntProg.declares]⟩) .decl⟩
  | set z x =>
    obtain ⟨f, i⟩ := ex_total (inl := inl) h.2
    exact ⟨f, i.imp (fun ⟨a, m⟩ => ⟨_, .set m h.1, by simp [IntProg.declares]⟩) .set⟩
  | setN z n => exact ⟨rfl, Or.inl ⟨_, .setN h (fits_none _), by simp [IntProg.declares]⟩⟩
  | upd o z x =>
    obtain ⟨hz, ho, hx⟩ := h
    obtain ⟨f, i⟩ := ex_total (inl := inl) hx
    refine ⟨f, ?_⟩
    rcases i with ⟨b, m⟩ | i
    · have har : IntProg.Arith o := by rcases ho with rfl | rfl | rfl <;> exact ⟨by decide, by decide⟩
      rcases bin_total har ρ[z] b with ⟨r, h1, h2⟩ | ⟨h1, rfl⟩
      · exact Or.inl ⟨_, .upd (List.getElem?_eq_getElem hz) m h1 h2 (by rcases ho with rfl | rfl | rfl <;> trivial), by simp [IntProg.declares]⟩
      · exact Or.inr (.upd h1 (List.getElem?_eq_getElem hz) m)
    · exact Or.inr (.upd_ex i)
  | updN o z n =>
    obtain ⟨hz, ha, ho⟩ := h
    refine ⟨rfl, ?_⟩
    rcases bin_total ha.1 ρ[z] n.toInt with ⟨r, h1, h2⟩ | ⟨h1, h2⟩
    · refine Or.inl ⟨_, .updN (List.getElem?_eq_getElem hz) h1 (rule_total ha h1 h2) ?_, by simp [IntProg.declares]⟩
      rcases ho with ⟨v, rfl | rfl⟩ | rfl | rfl
      · trivial
      · trivial
      · cases n <;> trivial
      · cases n <;> trivial
    · exact Or.inr (.updN h1 (List.getElem?_eq_getElem hz) h2 (fits_none _))
  | shl z n => exact ⟨rfl, Or.inl ⟨_, .shl (List.getElem?_eq_getElem h) (fits_none _), by simp [IntProg.declares]⟩⟩
  | shr z n => exact ⟨rfl, Or.inl ⟨_, .shr (List.getElem?_eq_getElem h), by simp [IntProg.declares]⟩⟩
  | step up z => exact ⟨rfl, Or.inl ⟨_, .step (List.getElem?_eq_getElem h) (fits_none _), by simp [IntProg.declares]⟩⟩
  | post up z => exact ⟨rfl, Or.inl ⟨_, .post (List.getElem?_eq_getElem h) (fits_none _), by simp [IntProg.declares]⟩⟩
  | swap x y =>
    exact ⟨rfl, Or.inl ⟨_, .swap (List.getElem?_eq_getElem h.1) (List.getElem?_eq_getElem h.2), by simp [IntProg.declares]⟩⟩

/-- What a command may come to with this much fuel. -/
def Comes (K : Kind) (elide : Bool) (n : Nat) (p : Cmd) (vars : List Nat) (ρ : List Int) (s : BigSt) : Prop :=
  p.exec K elide n ⟨vars, s⟩ = .error .fuel ∨
  (∃ ρ' e' more s', IntProg.Runs none (inlineOf K) p ρ ρ' ∧ ρ'.length = ρ.length + IntProg.declares p ∧
    p.exec K elide n ⟨vars, s⟩ = .ok ⟨vars ++ more, s'⟩ ∧ Sees (vars ++ more) ρ' e' ∧ Holds K s' e') ∨
  (IntProg.Stops none (inlineOf K) p ρ ∧ p.exec K elide n ⟨vars, s⟩ = .error .abort)

theorem take_grown {ρ ρ' : List Int} {k : Nat} (h : ρ'.length = ρ.length + k) : (ρ'.take ρ.length).length = ρ.length := by
  rw [List.length_take]; omega

theorem Comes.block {K : Kind} {elide : Bool} {n : Nat} {p : Cmd} {vars : List Nat} {ρ : List Int} {s : BigSt} {e : Env} (S : Sees vars ρ e)
    (h : Comes K elide n p vars ρ s) : Comes K elide (n + 1) (.block p) vars ρ s := by
  rcases h with h | ⟨ρ', e', more, s', h1, h2, h3, h4, h5⟩ | ⟨h1, h2⟩
  · exact Or.inl (by rw [Cmd.exec, h]; rfl)
  · refine Or.inr (Or.inl ⟨_, e', [], s', .block h1, take_grown h2, ?_, ?_, h5⟩)
    · rw [Cmd.exec, h3, ok_bind]
      show Except.ok (Frame.mk ((vars ++ more).take vars.length) s') = _
      rw [List.take_left' rfl, List.append_nil]
    · have := h4.take ρ.length
      rw [← S.len, List.take_left' rfl] at this
      rw [List.append_nil, ← S.len]; exact this
  · exact Or.inr (Or.inr ⟨.block h1, by rw [Cmd.exec, h2]; rfl⟩)

theorem comes {K : Kind} (hK : K.dyn = true) (elide : Bool) : ∀ (n : Nat) (p : Cmd) (vars : List Nat) (ρ : List Int) (e : Env) (s : BigSt),
    IntProg.CmdFree ρ.length p → Sees vars ρ e → Holds K s e → Comes K elide n p vars ρ s := by
  have hlim : K.lim = none := by unfold Kind.lim; rw [hK]; rfl
  intro n
  induction n with
  | zero => exact fun p vars ρ e s _ _ _ => Or.inl (by cases p <;> rfl)
  | succ n ih =>
    intro p vars ρ e s hf S H
    -- the block of a branch or a loop body
    have blk : ∀ {q : Cmd} {e : Env} {s : BigSt}, IntProg.CmdFree ρ.length q → Sees vars ρ e → Holds K s e → Comes K elide n (.block q) vars ρ s := by
      intro q e s hq S H
      exact ih (.block q) vars ρ e s hq S H
    have base : once p = true ∧ ((∃ ρ', IntProg.Runs none (inlineOf K) p ρ ρ' ∧ ρ'.length = ρ.length + IntProg.declares p) ∨
        IntProg.Stops none (inlineOf K) p ρ) → Comes K elide (n + 1) p vars ρ s := by
      rintro ⟨ho, ⟨ρ', hr, hl⟩ | hs⟩
      · obtain ⟨F, e', more, f1, S', ev⟩ := cmd_spec elide (by rw [hlim]; exact hr) S
        obtain ⟨s', e1, H'⟩ := ev s H (n + 1) (by have := f1 ho; omega)
        exact Or.inr (Or.inl ⟨ρ', e', more, s', hr, hl, e1, S', H'⟩)
      · obtain ⟨F, f1, ev⟩ := cmd_stops elide (by rw [hlim]; exact hs) S
        exact Or.inr (Or.inr ⟨hs, ev s H (n + 1) (by have := f1 ho; omega)⟩)
    cases p with
    | seq p q =>
      obtain ⟨hp, hq⟩ := hf
      rcases ih p vars ρ e s hp S H with h | ⟨ρ₁, e1, m1, s1, h1, h2, h3, h4, h5⟩ | ⟨h1, h2⟩
      · exact Or.inl (by rw [Cmd.exec, h]; rfl)
      · rw [← h2] at hq
        rcases ih q _ ρ₁ e1 s1 hq h4 h5 with g | ⟨ρ₂, e2, m2, s2, g1, g2, g3, g4, g5⟩ | ⟨g1, g2⟩
        · exact Or.inl (by rw [Cmd.exec, h3, ok_bind, g])
        · refine Or.inr (Or.inl ⟨ρ₂, e2, m1 ++ m2, s2, .seq h1 g1, ?_, ?_, by rw [← List.append_assoc]; exact g4, g5⟩)
          · rw [g2, h2, IntProg.declares, Nat.add_assoc]
          · rw [Cmd.exec, h3, ok_bind, g3, List.append_assoc]
        · exact Or.inr (Or.inr ⟨.seq_right h1 g1, by rw [Cmd.exec, h3, ok_bind, g2]⟩)
      · exact Or.inr (Or.inr ⟨.seq_left h1, by rw [Cmd.exec, h2]; rfl⟩)
    | block p => exact Comes.block S (ih p vars ρ e s hf S H)
    | ite c p q =>
      obtain ⟨hc, hp, hq⟩ := hf
      obtain ⟨fc, ⟨b, ht⟩ | hs⟩ := cond_total (inl := inlineOf K) hc
      · obtain ⟨F, ext, f0, ev⟩ := cond_spec elide (K := K) (by rw [hlim]; exact ht) S.reads
        obtain ⟨s1, x1, H1⟩ := ev s H n (by rw [f0 fc]; omega)
        have hx : Cmd.exec K elide (n + 1) (.ite c p q) ⟨vars, s⟩ = (Cmd.block (if b then p else q)).exec K elide n ⟨vars, s1⟩ := by
          rw [Cmd.exec]; dsimp only; rw [x1, ok_bind]
        rcases blk (q := if b then p else q) (by cases b; exacts [hq, hp]) (S.append ext) H1 with h | ⟨ρ', e', more, s', h1, h2, h3, h4, h5⟩ | ⟨h1, h2⟩
        · exact Or.inl (by rw [hx, h])
        · cases h1 with
          | block h1 => exact Or.inr (Or.inl ⟨_, e', more, s', .ite ht h1, h2, by rw [hx, h3], h4, h5⟩)
        · cases h1 with
          | block h1 => exact Or.inr (Or.inr ⟨.ite ht h1, by rw [hx, h2]⟩)
      · obtain ⟨F, f0, ev⟩ := cond_stops elide (K := K) (by rw [hlim]; exact hs) S.reads
        exact Or.inr (Or.inr ⟨.ite_cond hs, by rw [Cmd.exec]; dsimp only; rw [ev s H n (by rw [f0 fc]; omega)]; rfl⟩)
    | loop c p =>
      obtain ⟨hc, hp⟩ := id hf
      obtain ⟨fc, ⟨b, ht⟩ | hs⟩ := cond_total (inl := inlineOf K) hc
      · obtain ⟨F, ext, f0, ev⟩ := cond_spec elide (K := K) (by rw [hlim]; exact ht) S.reads
        obtain ⟨s1, x1, H1⟩ := ev s H n (by rw [f0 fc]; omega)
        cases b with
        | false =>
          refine Or.inr (Or.inl ⟨ρ, e ++ ext, [], s1, .loop_end ht, rfl, ?_, by rw [List.append_nil]; exact S.append ext, H1⟩)
          rw [Cmd.exec]; dsimp only; rw [x1, ok_bind, List.append_nil]; rfl
        | true =>
          have hx : Cmd.exec K elide (n + 1) (.loop c p) ⟨vars, s⟩ = (do
              let g ← (Cmd.block p).exec K elide n ⟨vars, s1⟩
              (Cmd.loop c p).exec K elide n g) := by
            rw [Cmd.exec]; dsimp only; rw [x1, ok_bind]; rfl
          rcases blk hp (S.append ext) H1 with h | ⟨ρ', e', more, s', h1, h2, h3, h4, h5⟩ | ⟨h1, h2⟩
          · exact Or.inl (by rw [hx, h]; rfl)
          · cases h1 with
            | @block _ _ ρ₁ h1 =>
              have hl : (ρ₁.take ρ.length).length = ρ.length := h2
              rcases ih (.loop c p) _ _ e' s' (by rw [hl]; exact hf) h4 h5 with g | ⟨ρ₂, e2, m2, s2, g1, g2, g3, g4, g5⟩ | ⟨g1, g2⟩
              · exact Or.inl (by rw [hx, h3, ok_bind, g])
              · refine Or.inr (Or.inl ⟨ρ₂, e2, more ++ m2, s2, .loop_step ht h1 g1, by rw [g2, hl], ?_, by rw [← List.append_assoc]; exact g4, g5⟩)
                rw [hx, h3, ok_bind, g3, List.append_assoc]
              · exact Or.inr (Or.inr ⟨.loop_next ht h1 g1, by rw [hx, h3, ok_bind, g2]⟩)
          · cases h1 with
            | block h1 => exact Or.inr (Or.inr ⟨.loop_body ht h1, by rw [hx, h2]; rfl⟩)
      · obtain ⟨F, f0, ev⟩ := cond_stops elide (K := K) (by rw [hlim]; exact hs) S.reads
        exact Or.inr (Or.inr ⟨.loop_cond hs, by rw [Cmd.exec]; dsimp only; rw [ev s H n (by rw [f0 fc]; omega)]; rfl⟩)
    | _ => exact base (once_total (by intros; simp) (by intros; simp) (by intros; simp) (by intros; simp) hf)

end Ack.Mem
