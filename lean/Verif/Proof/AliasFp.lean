import Verif.Model.AliasFp
import Verif.Spec.ProgFp
import Verif.Proof.AliasNT
import Verif.Proof.Fe
/-! # Field functions on memory: proofs -/
namespace Ack.Mem
open Spec.Prog

/-! ### Comparisons -/

theorem compare_eq {s : BigSt} {x y : Nat} {X Y : Big} (hx : Rep s x X) (hy : Rep s y Y) :
    s.compare x y = .ok (Big.compare X Y) := by
  unfold BigSt.compare Big.compare
  rw [hx.neg_eq, hy.neg_eq, isZero_eq hx, isOne_eq hx, isZero_eq hy, isOne_eq hy, ucompare_spec hx hy]
  cases X.neg <;> cases Y.neg <;> cases X.isZero <;> cases Y.isZero <;> cases X.isOne <;> cases Y.isOne <;> rfl

theorem compares1_eq {s : BigSt} {x : Nat} {X : Big} (hx : Rep s x X) (y : BitVec 32) :
    s.compares1 x y = .ok (Big.compares1 X y) := by
  have hp := hx.pos
  obtain ⟨o, H, hl⟩ := id hx
  unfold BigSt.compares1 Big.compares1
  rw [hx.neg_eq, isZero_eq hx, isOne_eq hx, hx.size_eq, load_ok H.obj (by omega) H.has hp, head_getD _ hp]
  by_cases h1 : X.ws.length > 1
  · simp only [h1, if_true]
    cases (X.neg ^^ decide (y.toInt < 0))
    · cases X.isOne
      · rfl
      · cases (y == 1) <;> rfl
    · rfl
  · simp only [h1, if_false]
    cases (X.neg ^^ decide (y.toInt < 0))
    · cases X.isOne
      · rfl
      · cases (y == 1) <;> rfl
    · rfl

theorem byteLength_eq {s : BigSt} {x : Nat} {X : Big} (hx : Rep s x X) : s.byteLength x = .ok X.byteLength := by
  obtain ⟨o, H, hl⟩ := hx
  unfold BigSt.byteLength
  rw [bitLength_mem H hl, ok_bind]; rfl

section
variable {K : Kind} {s : BigSt} {e : Env}

theorem Holds.eqS (H : Holds K s e) {x : Nat} {a : Int} (h : look e x = some a) (y : BitVec 32) :
    s.eqS x y = .ok (decide (a = y.toInt)) := by
  obtain ⟨X, x1, x2, x3⟩ := H.get x a (look_some.1 h)
  unfold BigSt.eqS
  rw [compares1_eq x1, ok_bind]
  have := Ack.eqS_iff x2 y
  unfold Big.eqS at this
  rw [x3] at this
  congr 1
  rw [Bool.eq_iff_iff, this, decide_eq_true_iff]

theorem Holds.ltS (H : Holds K s e) {x : Nat} {a : Int} (h : look e x = some a) (y : BitVec 32) :
    s.ltS x y = .ok (decide (a < y.toInt)) := by
  obtain ⟨X, x1, x2, x3⟩ := H.get x a (look_some.1 h)
  unfold BigSt.ltS
  rw [compares1_eq x1, ok_bind]
  have := Ack.ltS_iff x2 y
  unfold Big.ltS at this
  rw [x3] at this
  congr 1
  rw [Bool.eq_iff_iff, this, decide_eq_true_iff]

theorem Holds.opLt (H : Holds K s e) {x y : Nat} {a b : Int} (h : look e x = some a) (h' : look e y = some b) :
    s.opLt x y = .ok (decide (a < b)) := by
  obtain ⟨X, x1, x2, x3⟩ := H.get x a (look_some.1 h)
  obtain ⟨Y, y1, y2, y3⟩ := H.get y b (look_some.1 h')
  unfold BigSt.opLt
  rw [compare_eq x1 y1, ok_bind]
  have := Ack.opLt_iff x2 y2
  unfold Big.opLt at this
  rw [x3, y3] at this
  congr 1
  rw [Bool.eq_iff_iff, this, decide_eq_true_iff]

theorem Holds.opGe (H : Holds K s e) {x y : Nat} {a b : Int} (h : look e x = some a) (h' : look e y = some b) :
    s.opGe x y = .ok (decide (b ≤ a)) := by
  unfold BigSt.opGe
  rw [H.opLt h h', ok_bind]
  congr 1
  rw [Bool.eq_iff_iff, Bool.not_eq_true', decide_eq_false_iff_not, decide_eq_true_iff]
  omega

/-! ### Single statements, on the integers -/

theorem Holds.fits1 (H : Holds K s e) {x : Nat} {a : Int} (h : look e x = some a) : Spec.Prog.fits K.lim 1 := by
  obtain ⟨X, x1, x2, x3⟩ := H.get x a (look_some.1 h)
  have := H.fitsX x1
  have hp := x1.pos
  intro N hN
  have := this N hN
  omega

theorem Holds.run (H : Holds K s e) {e' : Env} (c : Stmt) (he : eval e c = some e') (hr : Spec.Prog.Room K.lim e c) (hd : DivSafe e c)
    (hn : ¬ AddsInto K.N e c) : ∃ s', c.exec K 0 s = .ok s' ∧ Holds K s' e' := by
  rcases exec_one 0 H c he hr hd with h | ⟨_, h, _⟩
  · exact h
  · exact absurd h hn

theorem Holds.drop {l : Env} (H : Holds K s (e ++ l)) : Holds K (s.drop e.length) e := by
  have hl := H.len
  rw [List.length_append] at hl
  refine ⟨drop_inv H.inv _, drop_len (by omega), fun i a h => ?_⟩
  have hi := lt_of_get h
  obtain ⟨X, x1, x2, x3⟩ := H.get i a (by rw [List.getElem?_append_left hi]; exact h)
  exact ⟨X, drop_rep H.inv x1 hi, x2, x3⟩

end

theorem look_left {e : Env} {l : Env} {x : Nat} {a : Int} (h : look e x = some a) : look (e ++ l) x = some a := by
  rw [look_some] at h ⊢
  rw [List.getElem?_append_left (lt_of_get h)]; exact h

theorem look_ne {e : Env} {x : Nat} {a : Int} (h : look e x = some a) : e.length ≠ x := by
  have := lt_of_get (look_some.1 h); omega

theorem look_new (e : Env) (a : Int) (l : Env) : look (e ++ some a :: l) e.length = some a := by
  rw [look_some, List.getElem?_append_right (Nat.le_refl _), Nat.sub_self]; rfl

theorem put_new (e : Env) (a b : Int) (l : Env) : put (e ++ some a :: l) e.length b = e ++ some b :: l := by
  unfold put
  rw [List.set_append_right _ _ (Nat.le_refl _), Nat.sub_self]; rfl

theorem live_new (e : Env) (a : Int) (l : Env) : live (e ++ some a :: l) e.length := by
  unfold live; rw [look_new]; rfl

theorem words_mono {a b : Int} (h : a.natAbs ≤ b.natAbs) : words a ≤ words b := by
  unfold words
  have : a.natAbs.size ≤ b.natAbs.size := Nat.size_le_size h
  omega

theorem fits_mono {cap : Option Nat} {m n : Nat} (h : fits cap n) (hmn : m ≤ n) : fits cap m :=
  fun N hN => le_trans hmn (h N hN)

section
variable {K : Kind} {s : BigSt} {e : Env}

/-- A new object, then a statement that stores to it. -/
theorem Holds.fresh (H : Holds K s e) {x : Nat} {a : Int} (h : look e x = some a) :
    ∃ s', s.create K 0 = .ok s' ∧ Holds K s' (e ++ [some 0]) := create_spec H (lim_fits' _ _ (H.fits1 h)) 0

theorem Holds.addFin {p : Nat} {R P : Int} (hp : look e p = some P) (h0 : 0 ≤ R) (h1 : R < 2 * P)
    (H : Holds K s (e ++ [some R])) : ∃ s', s.fpAddFin K e.length p = .ok s' ∧ Holds K s' (e ++ [some (R % P)]) := by
  have hp' : look (e ++ [some R]) p = some P := look_left hp
  have hn := look_new e R []
  unfold BigSt.fpAddFin
  rw [H.opGe hn hp', ok_bind]
  by_cases h : P ≤ R
  · simp only [h, decide_true, if_true]
    have hs : OppSigns R (-P) := by unfold OppSigns; omega
    obtain ⟨s', e1, H'⟩ := H.run (e' := e ++ [some (R - P)]) (.sub e.length e.length p)
      (by simp [eval, hn, hp', live_new, put_new])
      (by intro a b ha hb; rw [hn] at ha; rw [hp'] at hb; cases ha; cases hb; exact Or.inl hs) trivial
      (fun hA => (hA.2 R P hn hp').1 hs)
    refine ⟨s', e1, ?_⟩
    have : R % P = R - P := by
      rw [← Int.sub_emod_right]; exact Int.emod_eq_of_lt (by omega) (by omega)
    rw [this]; exact H'
  · simp only [h, decide_false, Bool.false_eq_true, if_false]
    exact ⟨s, rfl, by rw [Int.emod_eq_of_lt h0 (by omega)]; exact H⟩

theorem Holds.subFin {p : Nat} {R P : Int} (hp : look e p = some P) (h0 : -P ≤ R) (h1 : R < P)
    (H : Holds K s (e ++ [some R])) : ∃ s', s.fpSubFin K e.length p = .ok s' ∧ Holds K s' (e ++ [some (R % P)]) := by
  have hp' : look (e ++ [some R]) p = some P := look_left hp
  have hn := look_new e R []
  unfold BigSt.fpSubFin
  rw [H.ltS hn, ok_bind]
  have z : (0 : BitVec 32).toInt = 0 := rfl
  rw [z]
  by_cases h : R < 0
  · simp only [h, decide_true, if_true]
    have hs : OppSigns R P := by unfold OppSigns; omega
    obtain ⟨s', e1, H'⟩ := H.run (e' := e ++ [some (R + P)]) (.add e.length e.length p)
      (by simp [eval, hn, hp', live_new, put_new])
      (by intro a b ha hb; rw [hn] at ha; rw [hp'] at hb; cases ha; cases hb; exact Or.inl hs) trivial
      (fun hA => (hA.2 R P hn hp').1 hs)
    refine ⟨s', e1, ?_⟩
    have : R % P = R + P := by
      rw [← Int.add_emod_right]; exact Int.emod_eq_of_lt (by omega) (by omega)
    rw [this]; exact H'
  · simp only [h, decide_false, Bool.false_eq_true, if_false]
    exact ⟨s, rfl, by rw [Int.emod_eq_of_lt (by omega) (by omega)]; exact H⟩

theorem fpAdd_mem (H : Holds K s e) {a b p : Nat} {A B P : Int} (ha : look e a = some A) (hb : look e b = some B)
    (hp : look e p = some P) (rA : Residue P A) (rB : Residue P B) (room : fits K.lim (max (words A) (words B) + 1)) :
    ∃ s', s.fpAdd K a b p = .ok s' ∧ Holds K s' (e ++ [some ((A + B) % P)]) := by
  obtain ⟨s1, e1, H1⟩ := H.fresh ha
  have ha' := look_left (l := [some 0]) ha
  have hb' := look_left (l := [some 0]) hb
  obtain ⟨s2, e2, H2⟩ := H1.run (e' := e ++ [some (A + B)]) (.add e.length a b)
    (by simp [eval, ha', hb', live_new, put_new])
    (by intro x y hx hy; rw [ha'] at hx; rw [hb'] at hy; cases hx; cases hy; exact Or.inr room) trivial
    (fun hA => by rcases hA.1 with h | h; exacts [look_ne ha h, look_ne hb h])
  unfold Residue at rA rB
  obtain ⟨s3, e3, H3⟩ := H2.addFin hp (by omega) (by omega)
  refine ⟨s3, ?_, H3⟩
  unfold BigSt.fpAdd
  dsimp only
  rw [e1, ok_bind, H.len]
  show (s1.add K _ a b).bind _ = _
  rw [show s1.add K e.length a b = _ from e2]; exact e3

theorem fpSub_mem (H : Holds K s e) {a b p : Nat} {A B P : Int} (ha : look e a = some A) (hb : look e b = some B)
    (hp : look e p = some P) (rA : Residue P A) (rB : Residue P B) (room : 0 < A ∧ 0 < B ∨ fits K.lim (max (words A) (words B) + 1)) :
    ∃ s', s.fpSub K a b p = .ok s' ∧ Holds K s' (e ++ [some ((A - B) % P)]) := by
  obtain ⟨s1, e1, H1⟩ := H.fresh ha
  have ha' := look_left (l := [some 0]) ha
  have hb' := look_left (l := [some 0]) hb
  obtain ⟨s2, e2, H2⟩ := H1.run (e' := e ++ [some (A - B)]) (.sub e.length a b)
    (by simp [eval, ha', hb', live_new, put_new])
    (by intro x y hx hy; rw [ha'] at hx; rw [hb'] at hy; cases hx; cases hy; exact room.imp (fun h => by unfold OppSigns; omega) id) trivial
    (fun hA => by rcases hA.1 with h | h; exacts [look_ne ha h, look_ne hb h])
  unfold Residue at rA rB
  obtain ⟨s3, e3, H3⟩ := H2.subFin hp (by omega) (by omega)
  refine ⟨s3, ?_, H3⟩
  unfold BigSt.fpSub
  dsimp only
  rw [e1, ok_bind, H.len]
  rw [show s1.sub K e.length a b = _ from e2]; exact e3

theorem word_val (b : BitVec 32) (h : 0 ≤ b.toInt) : ((cabs32 b).toNat : Int) = b.toInt := by
  rw [Big.cabs32_toNat, abs_of_nonneg h]

theorem fpAddS_mem (H : Holds K s e) {a p : Nat} {b : BitVec 32} {A P : Int} (ha : look e a = some A)
    (hp : look e p = some P) (rA : Residue P A) (rB : Residue P b.toInt) (room : fits K.lim (words A + 1)) :
    ∃ s', s.fpAddS K a b p = .ok s' ∧ Holds K s' (e ++ [some ((A + b.toInt) % P)]) := by
  obtain ⟨s1, e1, H1⟩ := H.fresh ha
  have ha' := look_left (l := [some 0]) ha
  unfold Residue at rA rB
  have hb := word_val b rB.1
  have hb0 : decide (b.toInt < 0) = false := by simp; omega
  obtain ⟨s2, e2, H2⟩ := H1.run (e' := e ++ [some (A + b.toInt)]) (.addWord e.length a (cabs32 b) false)
    (by simp [eval, ha', live_new, put_new, hb])
    (by intro x hx; rw [ha'] at hx; cases hx; exact room) trivial id
  obtain ⟨s3, e3, H3⟩ := H2.addFin hp (by omega) (by omega)
  refine ⟨s3, ?_, H3⟩
  unfold BigSt.fpAddS
  dsimp only
  rw [e1, ok_bind, H.len, hb0]
  rw [show s1.addu1Go K e.length a (cabs32 b) false = _ from e2]; exact e3

theorem fpSubS_mem (H : Holds K s e) {a p : Nat} {b : BitVec 32} {A P : Int} (ha : look e a = some A)
    (hp : look e p = some P) (rA : Residue P A) (rB : Residue P b.toInt) (room : fits K.lim (words A + 1)) :
    ∃ s', s.fpSubS K a b p = .ok s' ∧ Holds K s' (e ++ [some ((A - b.toInt) % P)]) := by
  obtain ⟨s1, e1, H1⟩ := H.fresh ha
  have ha' := look_left (l := [some 0]) ha
  unfold Residue at rA rB
  have hb := word_val b rB.1
  have hb0 : (!decide (b.toInt < 0)) = true := by simp; omega
  obtain ⟨s2, e2, H2⟩ := H1.run (e' := e ++ [some (A - b.toInt)]) (.addWord e.length a (cabs32 b) true)
    (by simp [eval, ha', live_new, put_new, hb])
    (by intro x hx; rw [ha'] at hx; cases hx; exact room) trivial id
  obtain ⟨s3, e3, H3⟩ := H2.subFin hp (by omega) (by omega)
  refine ⟨s3, ?_, H3⟩
  unfold BigSt.fpSubS
  dsimp only
  rw [e1, ok_bind, H.len, hb0]
  rw [show s1.addu1Go K e.length a (cabs32 b) true = _ from e2]; exact e3

theorem fpNeg_mem (H : Holds K s e) {a p : Nat} {A P : Int} (ha : look e a = some A) (hp : look e p = some P) (rA : Residue P A) :
    ∃ s', s.fpNeg K a p = .ok s' ∧ Holds K s' (e ++ [some (-A % P)]) := by
  unfold Residue at rA
  unfold BigSt.fpNeg
  rw [H.eqS ha, ok_bind]
  have z : (0 : BitVec 32).toInt = 0 := rfl
  rw [z]
  by_cases h : A = 0
  · subst h
    simp only [decide_true, if_true]
    have := copyNew_spec H (look_some.1 ha)
    simpa using this
  · simp only [h, decide_false, Bool.false_eq_true, if_false]
    obtain ⟨s1, e1, H1⟩ := H.fresh ha
    have ha' := look_left (l := [some 0]) ha
    have hp' := look_left (l := [some 0]) hp
    obtain ⟨s2, e2, H2⟩ := H1.run (e' := e ++ [some (P - A)]) (.sub e.length p a)
      (by simp [eval, ha', hp', live_new, put_new])
      (by intro x y hx hy; rw [hp'] at hx; rw [ha'] at hy; cases hx; cases hy; exact Or.inl (by unfold OppSigns; omega)) trivial
      (fun hA => by rcases hA.1 with h | h; exacts [look_ne hp h, look_ne ha h])
    refine ⟨s2, ?_, ?_⟩
    · rw [e1, ok_bind, H.len]; exact e2
    · have : -A % P = P - A := by
        rw [← Int.add_emod_right, show -A + P = P - A by ring]; exact Int.emod_eq_of_lt (by omega) (by omega)
      rw [this]; exact H2

/-- The remainder of a product into the new object; the temporaries end. -/
theorem mod_tail {l : Env} {p t : Nat} {T P : Int} (H : Holds K s (e ++ some 0 :: l)) (ht : look (e ++ some 0 :: l) t = some T)
    (hp : look e p = some P) (hT : 0 ≤ T) (hP : 0 < P) :
    ∃ s', (do let (s, _) ← s.mod K e.length t p; .ok (s.drop (e.length + 1)) : Ack.Res BigSt) = .ok s' ∧ Holds K s' (e ++ [some (T % P)]) := by
  have hp' := look_left (l := some 0 :: l) hp
  obtain ⟨s1, e1, H1⟩ := H.run (e' := e ++ some (T % P) :: l) (.mod e.length t p)
    (by simp [eval, ht, hp', live_new, put_new, hP.ne', Int.tmod_eq_emod_of_nonneg hT]) trivial trivial id
  have e2 : (s.mod K e.length t p).map (·.1) = .ok s1 := e1
  cases h : s.mod K e.length t p with
  | error x => rw [h] at e2; cases e2
  | ok r =>
    obtain ⟨r, f⟩ := r
    rw [h] at e2
    cases e2
    refine ⟨_, rfl, ?_⟩
    have H2 : Holds K r ((e ++ [some (T % P)]) ++ l) := by rw [List.append_assoc]; exact H1
    have := H2.drop
    rwa [List.length_append, List.length_singleton] at this

theorem fpMul_mem (H : Holds K s e) {a b p : Nat} {A B P : Int} (ha : look e a = some A) (hb : look e b = some B)
    (hp : look e p = some P) (hAB : 0 ≤ A * B) (hP : 0 < P) (room : fits K.lim (words A + words B)) :
    ∃ s', s.fpMul K a b p = .ok s' ∧ Holds K s' (e ++ [some (A * B % P)]) := by
  obtain ⟨s1, e1, H1⟩ := H.fresh ha
  obtain ⟨s2, e2, H2⟩ := H1.fresh (look_left ha)
  have ha' := look_left (l := [some 0]) (look_left (l := [some 0]) ha)
  have hb' := look_left (l := [some 0]) (look_left (l := [some 0]) hb)
  have hl : (e ++ [some (0 : Int)]).length = e.length + 1 := by simp
  obtain ⟨s3, e3, H3⟩ := H2.run (e' := e ++ [some 0] ++ [some (A * B)]) (.mul (e ++ [some (0 : Int)]).length a b)
    (by simp only [eval, ha', hb', live_new, put_new]; rfl)
    (by intro x y hx hy; rw [ha'] at hx; rw [hb'] at hy; cases hx; cases hy; exact room) trivial id
  have ht := look_new (e ++ [some (0 : Int)]) (A * B) []
  rw [hl] at e3 ht
  obtain ⟨s4, e4, H4⟩ := mod_tail (l := [some (A * B)]) (by rw [List.append_assoc] at H3; exact H3) (t := e.length + 1)
    (by rw [List.append_assoc] at ht; exact ht) hp hAB hP
  refine ⟨s4, ?_, H4⟩
  have e5 : (s2.mul K (e.length + 1) a b).map (·.1) = .ok s3 := e3
  unfold BigSt.fpMul
  dsimp only
  rw [e1, ok_bind, e2, ok_bind, H.len]
  cases h : s2.mul K (e.length + 1) a b with
  | error x => rw [h] at e5; cases e5
  | ok r =>
    obtain ⟨r, f⟩ := r
    rw [h] at e5
    cases e5
    exact e4

theorem fpMulS_mem (H : Holds K s e) {a p : Nat} {b : BitVec 32} {A P : Int} (ha : look e a = some A)
    (hp : look e p = some P) (hAB : 0 ≤ A * b.toInt) (hP : 0 < P) (room : fits K.lim (words A + 1)) :
    ∃ s', s.fpMulS K a b p = .ok s' ∧ Holds K s' (e ++ [some (A * b.toInt % P)]) := by
  obtain ⟨s1, e1, H1⟩ := H.fresh ha
  obtain ⟨s2, e2, H2⟩ := H1.fresh (look_left ha)
  have ha' := look_left (l := [some 0]) (look_left (l := [some 0]) ha)
  have hl : (e ++ [some (0 : Int)]).length = e.length + 1 := by simp
  obtain ⟨s3, e3, H3⟩ := H2.run (e' := e ++ [some 0] ++ [some (A * b.toInt)]) (.muls1 (e ++ [some (0 : Int)]).length a b)
    (by simp only [eval, ha', live_new, put_new]; rfl)
    (by intro x hx; rw [ha'] at hx; cases hx; exact room) trivial id
  have ht := look_new (e ++ [some (0 : Int)]) (A * b.toInt) []
  rw [hl] at e3 ht
  obtain ⟨s4, e4, H4⟩ := mod_tail (l := [some (A * b.toInt)]) (by rw [List.append_assoc] at H3; exact H3) (t := e.length + 1)
    (by rw [List.append_assoc] at ht; exact ht) hp hAB hP
  refine ⟨s4, ?_, H4⟩
  unfold BigSt.fpMulS
  dsimp only
  rw [e1, ok_bind, e2, ok_bind, H.len]
  rw [show s2.muls1 K (e.length + 1) a b = .ok s3 from e3]
  exact e4

theorem fpDiv_mem {a b p : Nat} {A B P r : Int} (ha : look e a = some A) (hb : look e b = some B)
    (hp : look e p = some P) (rA : Residue P A) (rB : Residue P B) (hP : 1 < P) (hg : Int.gcd B P = 1) (rr : Residue P r)
    (hr : r * B % P = A) (room : fits K.lim (words A + words P)) (hi : K.dyn = true → words P ≤ K.N) :
    ∃ F, ∀ s, Holds K s e → ∀ fuel, F ≤ fuel → ∃ s', s.fpDiv K fuel a b p = .ok s' ∧ Holds K s' (e ++ [some r]) := by
  unfold Residue at rA rB rr
  have hwP : words A ≤ words P := words_mono (by omega)
  have hwB : words B ≤ words P := words_mono (by omega)
  have hw0 : 0 < words A := by unfold words; omega
  -- the inverse
  obtain ⟨i, i0, i1, i2⟩ : ∃ i, 0 < i ∧ i < P ∧ i * B % P = 1 := by
    have h1 : (Int.gcdA B P * B) % P = 1 := by
      have := Int.gcd_eq_gcd_ab B P
      rw [hg] at this
      have h2 : Int.gcdA B P * B = 1 + P * (-Int.gcdB B P) := by push_cast at this; linarith
      rw [h2, Int.add_mul_emod_self_left, Int.emod_eq_of_lt (by omega) hP]
    refine ⟨Int.gcdA B P % P, ?_, Int.emod_lt_of_pos _ (by omega), by rw [Int.mul_emod, Int.emod_emod_of_dvd _ (dvd_refl P), ← Int.mul_emod]; exact h1⟩
    have h3 := Int.emod_nonneg (Int.gcdA B P) (b := P) (by omega)
    rcases h3.lt_or_eq with h | h
    · exact h
    · exfalso
      rw [Int.mul_emod, ← h] at h1
      simp at h1
  have hwi : words i ≤ words P := words_mono (by omega)
  have hres : A * i % P = r := by
    have h1 : A * i ≡ r [ZMOD P] := by
      have h2 : A ≡ r * B [ZMOD P] := by
        show A % P = _
        rw [hr, Int.emod_eq_of_lt rA.1 rA.2]
      have h3 : i * B ≡ 1 [ZMOD P] := by
        show _ = 1 % P
        rw [i2, Int.emod_eq_of_lt (by omega) hP]
      calc A * i ≡ r * B * i [ZMOD P] := h2.mul_right _
        _ = r * (i * B) := by ring
        _ ≡ r * 1 [ZMOD P] := h3.mul_left _
        _ = r := by ring
    rw [h1]; exact Int.emod_eq_of_lt rr.1 rr.2
  have hb' := look_left (l := [some 0]) (look_left (l := [some 0]) hb)
  have hp' := look_left (l := [some 0]) (look_left (l := [some 0]) hp)
  have hl : (e ++ [some (0 : Int)]).length = e.length + 1 := by simp
  obtain ⟨F, hF⟩ := execN_one (K := K) (e := e ++ [some 0] ++ [some 0]) (e' := e ++ [some 0] ++ [some i])
    (.modinv (e ++ [some (0 : Int)]).length b p)
    ⟨B, P, i, hb', hp', by simp, rB.1, hP, i0, i1, i2, (put_new _ _ _ _).symm⟩
    (by intro x y hx hy; rw [hb'] at hx; rw [hp'] at hy; cases hx; cases hy; exact fits_mono room (by omega)) trivial
    (fun hd x hx => by rw [hp'] at hx; cases hx; exact hi hd)
  refine ⟨F, fun s H fuel hf => ?_⟩
  obtain ⟨s1, e1, H1⟩ := H.fresh ha
  obtain ⟨s2, e2, H2⟩ := H1.fresh (look_left ha)
  obtain ⟨s3, e3, H3⟩ := hF s2 H2 fuel hf
  obtain ⟨s4, e4, H4⟩ := H3.fresh (look_left (look_left ha))
  have ha' := look_left (l := [some 0]) (look_left (l := [some i]) (look_left (l := [some 0]) ha))
  have hi' := look_left (l := [some 0]) (look_new (e ++ [some (0 : Int)]) i [])
  have hl2 : (e ++ [some (0 : Int)] ++ [some i]).length = e.length + 2 := by simp
  rw [hl] at e3 hi'
  obtain ⟨s5, e5, H5⟩ := H4.run (e' := e ++ [some 0] ++ [some i] ++ [some (A * i)])
    (.mul (e ++ [some (0 : Int)] ++ [some i]).length a (e.length + 1))
    (by simp only [eval, ha', hi', live_new, put_new]; rfl)
    (by intro x y hx hy; rw [ha'] at hx; rw [hi'] at hy; cases hx; cases hy; exact fits_mono room (by omega)) trivial id
  have ht := look_new (e ++ [some (0 : Int)] ++ [some i]) (A * i) []
  rw [hl2] at e5 ht
  obtain ⟨s6, e6, H6⟩ := mod_tail (l := [some i, some (A * i)]) (by rw [List.append_assoc, List.append_assoc] at H5; exact H5)
    (t := e.length + 2) (by rw [List.append_assoc, List.append_assoc] at ht; exact ht) hp (mul_nonneg rA.1 i0.le) (by omega)
  rw [hres] at H6
  refine ⟨s6, ?_, H6⟩
  have e7 : (s4.mul K (e.length + 2) a (e.length + 1)).map (·.1) = .ok s5 := e5
  unfold BigSt.fpDiv
  dsimp only
  rw [e1, ok_bind, e2, ok_bind, H.len]
  rw [NStmt.exec] at e3
  cases h : s2.modinv K fuel (e.length + 1) b p with
  | error x => rw [h] at e3; cases e3
  | ok x =>
    obtain ⟨x, f⟩ := x
    rw [h] at e3
    cases f with
    | false => cases e3
    | true =>
      cases e3
      rw [ok_bind]
      dsimp only
      rw [check_true rfl, ok_bind, e4, ok_bind]
      cases h : s4.mul K (e.length + 2) a (e.length + 1) with
      | error x => rw [h] at e7; cases e7
      | ok y =>
        obtain ⟨y, f⟩ := y
        rw [h] at e7
        cases e7
        exact e6

theorem fpDiv_abort {a b p : Nat} {A B P : Int} (ha : look e a = some A) (hb : look e b = some B)
    (hp : look e p = some P) (h0 : 0 ≤ B) (hP : 1 < P) (room : fits K.lim (max (words B) (words P) + 1)) (hi : K.dyn = true → words P ≤ K.N)
    (hg : Int.gcd B P ≠ 1) : ∃ F, ∀ s, Holds K s e → ∀ fuel, F ≤ fuel → s.fpDiv K fuel a b p = .error .abort := by
  refine ⟨B.natAbs + 1, fun s H fuel hf => ?_⟩
  obtain ⟨s1, e1, H1⟩ := H.fresh ha
  obtain ⟨s2, e2, H2⟩ := H1.fresh (look_left ha)
  have hb' := look_left (l := [some 0]) (look_left (l := [some 0]) hb)
  have hp' := look_left (l := [some 0]) (look_left (l := [some 0]) hp)
  obtain ⟨X, x1, x2, x3⟩ := H2.get b B (look_some.1 hb')
  obtain ⟨M, m1, m2, m3⟩ := H2.get p P (look_some.1 hp')
  rw [← x3, Big.natAbs_toInt] at hf
  rw [← x3, ← m3, ← words_eq x2, ← words_eq m2] at room
  obtain ⟨s', ok, e3, -, -, -, t', -⟩ := modinv_mem (y := e.length + 1) (lim_fits' _ _ room) m2 (le_max_right _ _)
    (rep_fits H2.inv m1) (by omega) (fun hd => by rw [words_eq m2, m3]; exact hi hd) H2.inv x1 m1
    (by rw [H2.len]; simp) x2 (by omega) (le_max_left _ _) fuel
    (lt_trans (show val X.ws < fuel by omega) Nat.lt_two_pow_self)
  rw [x3, m3] at t'
  have hok : ok = false := by
    cases ok
    · rfl
    · exact absurd (t'.1 rfl) hg
  subst hok
  unfold BigSt.fpDiv
  dsimp only
  rw [e1, ok_bind, e2, ok_bind, H.len, e3, ok_bind]
  rfl

/-- `a %= p` on the integers. -/
theorem Holds.modIn (H : Holds K s e) {a p : Nat} {A P : Int} (ha : look e a = some A) (hp : look e p = some P) (hP : P ≠ 0) :
    ∃ s', s.modAssign K a p = .ok s' ∧ Holds K s' (put e a (A.tmod P)) :=
  H.run (.mod a a p) (by simp [eval, ha, hp, hP, live]) trivial trivial id

theorem Holds.longer (H : Holds K s e) {a p : Nat} {A P : Int} (ha : look e a = some A) (hp : look e p = some P) (hP : 0 < P) :
    ∃ m n, s.byteLength a = .ok m ∧ s.byteLength p = .ok n ∧ (m > n ↔ LongerI A P) := by
  obtain ⟨X, x1, x2, x3⟩ := H.get a A (look_some.1 ha)
  obtain ⟨Y, y1, y2, y3⟩ := H.get p P (look_some.1 hp)
  refine ⟨_, _, byteLength_eq x1, byteLength_eq y1, ?_⟩
  rw [longer_iff x2 y2 (by omega), x3, y3]; rfl

theorem look_put {a : Nat} {A B : Int} (h : look e a = some A) : look (put e a B) a = some B := by
  rw [look_some] at h ⊢
  unfold put
  rw [List.getElem?_set, if_pos rfl, if_pos (lt_of_get h)]

theorem look_put_ne {a p : Nat} {B P : Int} (hne : a ≠ p) (h : look e p = some P) : look (put e a B) p = some P := by
  rw [look_some] at h ⊢
  unfold put
  rw [List.getElem?_set, if_neg hne]; exact h

theorem put_put (a : Nat) (B C : Int) : put (put e a B) a C = put e a C := by
  unfold put; rw [List.set_set]

theorem put_look {a : Nat} {A : Int} (h : look e a = some A) : put e a A = e := by
  unfold put
  rw [look_some] at h
  have := lt_of_get h
  rw [List.getElem?_eq_getElem this] at h
  have := Option.some.inj h
  rw [← this, List.set_getElem_self]

theorem Holds.reduced (H : Holds K s e) {a p : Nat} {A P : Int} (ha : look e a = some A) (hp : look e p = some P) :
    s.fpIsReduced a p = .ok (decide (A = 0 ∨ A = 1 ∧ P ≠ 1)) := by
  unfold BigSt.fpIsReduced
  rw [H.eqS ha, H.eqS ha, H.eqS hp, show (0 : BitVec 32).toInt = 0 from rfl, show (1 : BitVec 32).toInt = 1 from rfl, ok_bind]
  by_cases h0 : A = 0
  · simp [h0]
  · by_cases h1 : A = 1
    · simp [h1]; rfl
    · simp [h0, h1]; rfl

theorem fpNormalize_mem (H : Holds K s e) {a p : Nat} {A P : Int} (ha : look e a = some A) (hp : look e p = some P) (hP : 0 < P)
    (hd : NormDom A P) : ∃ s', s.fpNormalize K a p = .ok s' ∧ Holds K s' (put e a (A % P)) := by
  have z : (0 : BitVec 32).toInt = 0 := rfl
  obtain ⟨m, n, hm, hn, hL⟩ := H.longer ha hp hP
  have hlg : s.fpLonger a p = .ok (decide (m > n)) := by unfold BigSt.fpLonger; rw [hm, ok_bind, hn, ok_bind]
  unfold BigSt.fpNormalize
  rw [H.reduced ha hp, ok_bind]
  unfold NormDom Residue at hd
  have hlive : live e a := by unfold live; rw [ha]; rfl
  by_cases h0 : A = 0 ∨ A = 1 ∧ P ≠ 1
  · simp only [h0, decide_true, if_true]
    refine ⟨s, rfl, ?_⟩
    rw [Int.emod_eq_of_lt (by omega) (by omega), put_look ha]; exact H
  simp only [h0, decide_false, Bool.false_eq_true, if_false]
  rw [H.ltS ha, ok_bind, z, hlg, H.opGe ha hp]
  simp only [ok_bind]
  by_cases hneg : A < 0
  · simp only [hneg, decide_true, if_true]
    have hap : a ≠ p := by
      rintro rfl; rw [ha] at hp; cases hp; omega
    have fin : ∀ (R : Int) s1, Holds K s1 (put e a R) → R < 0 → ∃ s', s1.add K a a p = .ok s' ∧ Holds K s' (put e a (R + P)) := by
      intro R s1 H1 hR
      have l1 := look_put (B := R) ha
      have l2 := look_put_ne (B := R) hap hp
      have hs : OppSigns R P := by unfold OppSigns; omega
      exact H1.run (.add a a p) (by simp [eval, l1, l2, live, put_put])
        (by intro x y hx hy; rw [l1] at hx; rw [l2] at hy; cases hx; cases hy; exact Or.inl hs) trivial
        (fun hA => (hA.2 R P l1 l2).1 hs)
    by_cases hlong : m > n
    · simp only [hlong, decide_true, if_true]
      obtain ⟨s1, e1, H1⟩ := H.modIn ha hp hP.ne'
      rw [e1, ok_bind]
      have hnd : ¬ P ∣ A := by
        rcases hd with h | h | h | h
        · omega
        · omega
        · exact h.2.2
        · exact absurd (hL.1 hlong) h.2.1
      have hm0 := Int.emod_nonneg A hP.ne'
      have hm1 := Int.emod_lt_of_pos A hP
      have ht : A.tmod P = A % P - P := by
        rw [Int.tmod_eq_emod, if_neg (by simp [hnd]; omega)]; omega
      obtain ⟨s2, e2, H2⟩ := fin _ s1 H1 (by omega)
      refine ⟨s2, e2, ?_⟩
      rw [ht, sub_add_cancel] at H2; exact H2
    · simp only [hlong, decide_false, Bool.false_eq_true, if_false]
      obtain ⟨s2, e2, H2⟩ := fin A s (by rw [put_look ha]; exact H) hneg
      refine ⟨s2, e2, ?_⟩
      have hge : -P ≤ A := by
        rcases hd with h | h | h | h
        · omega
        · omega
        · exact absurd (hL.2 h.2.1) hlong
        · exact h.2.2
      have : A % P = A + P := by
        rw [← Int.add_emod_right]; exact Int.emod_eq_of_lt (by omega) (by omega)
      rw [this]; exact H2
  · simp only [hneg, decide_false, Bool.false_eq_true, if_false]
    by_cases hge : P ≤ A
    · simp only [hge, decide_true, if_true]
      by_cases hlong : m > n
      · simp only [hlong, decide_true, if_true]
        obtain ⟨s1, e1, H1⟩ := H.modIn ha hp hP.ne'
        refine ⟨s1, e1, ?_⟩
        rw [Int.tmod_eq_emod_of_nonneg (by omega)] at H1; exact H1
      · simp only [hlong, decide_false, Bool.false_eq_true, if_false]
        have hs : OppSigns A (-P) := by unfold OppSigns; omega
        obtain ⟨s1, e1, H1⟩ := H.run (e' := put e a (A - P)) (.sub a a p) (by simp [eval, ha, hp, hlive])
          (by intro x y hx hy; rw [ha] at hx; rw [hp] at hy; cases hx; cases hy; exact Or.inl hs) trivial
          (fun hA => (hA.2 A P ha hp).1 hs)
        refine ⟨s1, e1, ?_⟩
        have h2 : A < 2 * P := by
          rcases hd with h | h | h | h
          · omega
          · exact h.2.resolve_left (fun h => hlong (hL.2 h))
          · omega
          · omega
        have : A % P = A - P := by
          rw [← Int.sub_emod_right]; exact Int.emod_eq_of_lt (by omega) (by omega)
        rw [this]; exact H1
    · simp only [hge, decide_false, Bool.false_eq_true, if_false]
      refine ⟨s, rfl, ?_⟩
      rw [Int.emod_eq_of_lt (by omega) (by omega), put_look ha]; exact H

/-! ### Programs -/

theorem execF_one {e' : Env} (c : FStmt) (st : StepF e c e') (hr : RoomF K.lim e c) (hs : SafeF e c)
    (hi : K.dyn = true → InlineF K.N e c) :
    ∃ F, ∀ s, Holds K s e → ∀ fuel, F ≤ fuel → ∃ s', c.exec K fuel s = .ok s' ∧ Holds K s' e' := by
  cases c with
  | nt c => exact execN_one c st hr hs hi
  | add a b p =>
    obtain ⟨A, B, P, ha, hb, hp, rA, rB, rfl⟩ := st
    exact ⟨0, fun s H _ _ => fpAdd_mem H ha hb hp rA rB (hr A B ha hb)⟩
  | addS a b p =>
    obtain ⟨A, P, ha, hp, rA, rB, rfl⟩ := st
    exact ⟨0, fun s H _ _ => fpAddS_mem H ha hp rA rB (hr A ha)⟩
  | sub a b p =>
    obtain ⟨A, B, P, ha, hb, hp, rA, rB, rfl⟩ := st
    exact ⟨0, fun s H _ _ => fpSub_mem H ha hb hp rA rB (hr A B ha hb)⟩
  | subS a b p =>
    obtain ⟨A, P, ha, hp, rA, rB, rfl⟩ := st
    exact ⟨0, fun s H _ _ => fpSubS_mem H ha hp rA rB (hr A ha)⟩
  | neg a p =>
    obtain ⟨A, P, ha, hp, rA, rfl⟩ := st
    exact ⟨0, fun s H _ _ => fpNeg_mem H ha hp rA⟩
  | mul a b p =>
    obtain ⟨A, B, P, ha, hb, hp, hA, hB, hP, rfl⟩ := st
    exact ⟨0, fun s H _ _ => fpMul_mem H ha hb hp (mul_nonneg hA hB) hP (hr A B ha hb)⟩
  | mulS a b p =>
    obtain ⟨A, P, ha, hp, hA, hB, hP, rfl⟩ := st
    exact ⟨0, fun s H _ _ => fpMulS_mem H ha hp (mul_nonneg hA hB) hP (hr A ha)⟩
  | sqr a p =>
    obtain ⟨A, P, ha, hp, hP, rfl⟩ := st
    exact ⟨0, fun s H _ _ => fpMul_mem H ha ha hp (mul_self_nonneg _) hP (by have := hr A ha; rwa [Nat.two_mul] at this)⟩
  | div a b p =>
    obtain ⟨A, B, P, r, ha, hb, hp, rA, rB, hP, hg, rr, he, rfl⟩ := st
    exact fpDiv_mem ha hb hp rA rB hP hg rr he (hr A P ha hp) (fun h => hi h P hp)
  | normalize a p =>
    obtain ⟨A, P, ha, hp, hP, hd, rfl⟩ := st
    exact ⟨0, fun s H _ _ => fpNormalize_mem H ha hp hP hd⟩

theorem execF_spec {e' : Env} {p : List FStmt}
    (h : RunsF (fun e c => RoomF K.lim e c ∧ SafeF e c ∧ (K.dyn = true → InlineF K.N e c)) e p e') :
    ∃ F, ∀ s, Holds K s e → ∀ fuel, F ≤ fuel → ∃ s', execF K fuel s p = .ok s' ∧ Holds K s' e' := by
  induction h with
  | nil e => exact ⟨0, fun s H _ _ => ⟨s, rfl, H⟩⟩
  | @cons e e1 e' c p hc st _ ih =>
    obtain ⟨F, hF⟩ := execF_one c st hc.1 hc.2.1 hc.2.2
    obtain ⟨F', hF'⟩ := ih
    refine ⟨max F F', fun s H fuel hf => ?_⟩
    obtain ⟨s1, e1, H1⟩ := hF s H fuel (by omega)
    obtain ⟨s2, e2, H2⟩ := hF' s1 H1 fuel (by omega)
    refine ⟨s2, ?_, H2⟩
    rw [execF, e1, ok_bind, e2]

end
theorem execF_append (K : Kind) (fuel : Nat) (p q : List FStmt) : ∀ s : BigSt,
    execF K fuel s (p ++ q) = (execF K fuel s p) >>= fun s => execF K fuel s q := by
  induction p with
  | nil => intro s; rfl
  | cons c p ih =>
    intro s
    rw [List.cons_append, execF, execF]
    cases c.exec K fuel s with
    | error _ => rfl
    | ok s' => exact ih s'

end Ack.Mem
