import Verif.Proof.BufferEnd
import Verif.Proof.AliasProg
import Verif.Spec.IntOwn
/-!
# Big integers and the blocks they hold: lemmas
-/
namespace Ack.Mem
open Spec

/-- No new block is in use. -/
def Sub (h h' : Heap) : Prop := ∀ b, InUse h' b → InUse h b

theorem Sub.rfl' (h : Heap) : Sub h h := fun _ => id
theorem Sub.trans {a b c : Heap} (h : Sub a b) (g : Sub b c) : Sub a c := fun x hx => h x (g x hx)

theorem sub_write {h h' : Heap} {p : Ptr} {w : Word} (e : h.write p w = .ok h') : Sub h h' := fun _ => inUse_write e

theorem sub_alloc (h : Heap) (n : Nat) (v : Option Word) : Sub h (h.alloc n false v).1 := fun _ hb => (inUse_alloc hb).elim id fun h => nomatch h.1

theorem sub_mapUp2 {σ : Type} (f : σ → Word → Word → Word × σ) : ∀ (n : Nat) {z x y : Ptr} {h : Heap} {c : σ} {r : Heap × σ},
    mapUp2 f n z x y h c = .ok r → Sub h r.1 := by
  intro n
  induction n with
  | zero => intro z x y h c r e; cases e; exact Sub.rfl' _
  | succ n ih =>
    intro z x y h c r e
    obtain ⟨_, _, e⟩ := bind_ok e
    obtain ⟨_, _, e⟩ := bind_ok e
    obtain ⟨_, e1, e⟩ := bind_ok e
    exact (sub_write e1).trans (ih e)

theorem sub_mapUp1 {σ : Type} (f : σ → Word → Word × σ) : ∀ (n : Nat) {z x : Ptr} {h : Heap} {c : σ} {r : Heap × σ},
    mapUp1 f n z x h c = .ok r → Sub h r.1 := by
  intro n
  induction n with
  | zero => intro z x h c r e; cases e; exact Sub.rfl' _
  | succ n ih =>
    intro z x h c r e
    obtain ⟨_, _, e⟩ := bind_ok e
    obtain ⟨_, e1, e⟩ := bind_ok e
    exact (sub_write e1).trans (ih e)

theorem sub_mapDown1 {σ : Type} (f : σ → Word → Word × σ) : ∀ (n : Nat) {z x : Ptr} {h : Heap} {c : σ} {r : Heap × σ},
    mapDown1 f n z x h c = .ok r → Sub h r.1 := by
  intro n
  induction n with
  | zero => intro z x h c r e; cases e; exact Sub.rfl' _
  | succ n ih =>
    intro z x h c r e
    obtain ⟨_, _, e⟩ := bind_ok e
    obtain ⟨_, e1, e⟩ := bind_ok e
    exact (sub_write e1).trans (ih e)

theorem sub_mAddN {z x y : Ptr} {n : Nat} {h : Heap} {r : Heap × Word} (e : mAddN z x y n h = .ok r) : Sub h r.1 := by
  obtain ⟨_, e1, e⟩ := bind_ok e
  have g := sub_mapUp2 _ _ e1
  cases e; exact g

theorem sub_mSubN {z x y : Ptr} {n : Nat} {h : Heap} {r : Heap × Word} (e : mSubN z x y n h = .ok r) : Sub h r.1 := by
  obtain ⟨_, e1, e⟩ := bind_ok e
  have g := sub_mapUp2 _ _ e1
  cases e; exact g

theorem sub_mMulWordN {z x : Ptr} {y : Word} {n : Nat} {h : Heap} {r : Heap × Word} (e : mMulWordN z x y n h = .ok r) : Sub h r.1 := by
  obtain ⟨_, e1, e⟩ := bind_ok e
  have g := sub_mapUp1 _ _ e1
  cases e; exact g

theorem sub_mMulWordAddN {z x : Ptr} {y : Word} {n : Nat} {h : Heap} {r : Heap × Word} (e : mMulWordAddN z x y n h = .ok r) : Sub h r.1 := by
  obtain ⟨_, e1, e⟩ := bind_ok e
  have g := sub_mapUp2 _ _ e1
  cases e; exact g

theorem sub_mCopyN {z x : Ptr} {n : Nat} {h h' : Heap} (e : mCopyN z x n h = .ok h') : Sub h h' := by
  obtain ⟨_, e1, e⟩ := bind_ok e
  have g := sub_mapUp1 _ _ e1
  cases e; exact g

theorem sub_mClearN : ∀ (n : Nat) {x : Ptr} {h h' : Heap}, mClearN n x h = .ok h' → Sub h h' := by
  intro n
  induction n with
  | zero => intro x h h' e; cases e; exact Sub.rfl' _
  | succ n ih =>
    intro x h h' e
    obtain ⟨_, e1, e⟩ := bind_ok e
    exact (sub_write e1).trans (ih e)

theorem sub_mShlGo (bit : Nat) (z x : Ptr) : ∀ (n : Nat) {p : Word} {h h' : Heap}, mShlGo bit z x n p h = .ok h' → Sub h h' := by
  intro n
  induction n with
  | zero => intro p h h' e; exact sub_write e
  | succ n ih =>
    intro p h h' e
    obtain ⟨_, _, e⟩ := bind_ok e
    obtain ⟨_, e1, e⟩ := bind_ok e
    exact (sub_write e1).trans (ih e)

theorem sub_mShlN {z x : Ptr} {bit n : Nat} {h : Heap} {r : Heap × Word} (e : mShlN z x bit n h = .ok r) : Sub h r.1 := by
  obtain ⟨_, _, e⟩ := bind_ok e
  obtain ⟨_, e1, e⟩ := bind_ok e
  cases e; exact sub_mShlGo _ _ _ _ e1

theorem sub_mShrGo (bit : Nat) : ∀ (n : Nat) {z x : Ptr} {p : Word} {h h' : Heap}, mShrGo bit n z x p h = .ok h' → Sub h h' := by
  intro n
  induction n with
  | zero => intro z x p h h' e; exact sub_write e
  | succ n ih =>
    intro z x p h h' e
    obtain ⟨_, _, e⟩ := bind_ok e
    obtain ⟨_, e1, e⟩ := bind_ok e
    exact (sub_write e1).trans (ih e)

theorem sub_mShiftLeft {y x : Ptr} {bit xn : Nat} {h h' : Heap} (e : mShiftLeft y x bit xn h = .ok h') : Sub h h' := by
  unfold mShiftLeft at e
  simp only at e
  split at e
  · obtain ⟨_, e2, e⟩ := bind_ok e
    obtain ⟨_, e3, e⟩ := bind_ok e
    have g := sub_mapDown1 _ _ e2
    cases e3; exact g.trans (sub_mClearN _ e)
  · obtain ⟨_, e2, e⟩ := bind_ok e
    obtain ⟨_, e3, e⟩ := bind_ok e
    exact (sub_mShlN e2).trans ((sub_write e3).trans (sub_mClearN _ e))

theorem sub_mShiftRight {y x : Ptr} {bit xn : Nat} {h h' : Heap} (e : mShiftRight y x bit xn h = .ok h') : Sub h h' := by
  unfold mShiftRight at e
  simp only at e
  split at e
  · exact sub_mCopyN e
  · obtain ⟨_, _, e⟩ := bind_ok e
    exact sub_mShrGo _ _ e

theorem sub_mIncGo : ∀ (n : Nat) {y : Ptr} {h : Heap} {r : Heap × Word}, mIncGo n y h = .ok r → Sub h r.1 := by
  intro n
  induction n with
  | zero => intro y h r e; cases e; exact Sub.rfl' _
  | succ n ih =>
    intro y h r e
    obtain ⟨_, _, e⟩ := bind_ok e
    obtain ⟨_, e1, e⟩ := bind_ok e
    split at e
    · cases e; exact sub_write e1
    · exact (sub_write e1).trans (ih e)

theorem sub_mAddWord {n : Nat} {y : Ptr} {x : Word} {h : Heap} {r : Heap × Word} (e : mAddWord y n x h = .ok r) : Sub h r.1 := by
  cases n with
  | zero => cases e; exact Sub.rfl' _
  | succ n =>
    obtain ⟨_, _, e⟩ := bind_ok e
    obtain ⟨_, e1, e⟩ := bind_ok e
    split at e
    · cases e; exact sub_write e1
    · exact (sub_write e1).trans (sub_mIncGo _ e)

theorem sub_mDecGo : ∀ (n : Nat) {y : Ptr} {h : Heap} {r : Heap × Word}, mDecGo n y h = .ok r → Sub h r.1 := by
  intro n
  induction n with
  | zero => intro y h r e; cases e; exact Sub.rfl' _
  | succ n ih =>
    intro y h r e
    obtain ⟨_, _, e⟩ := bind_ok e
    obtain ⟨_, e1, e⟩ := bind_ok e
    split at e
    · cases e; exact sub_write e1
    · exact (sub_write e1).trans (ih e)

theorem sub_mSubWord {n : Nat} {y : Ptr} {x : Word} {h : Heap} {r : Heap × Word} (e : mSubWord y n x h = .ok r) : Sub h r.1 := by
  cases n with
  | zero => cases e; exact Sub.rfl' _
  | succ n =>
    obtain ⟨_, _, e⟩ := bind_ok e
    obtain ⟨_, e1, e⟩ := bind_ok e
    split at e
    · cases e; exact sub_write e1
    · exact (sub_write e1).trans (sub_mDecGo _ e)

theorem sub_mDivWord {q x : Ptr} {n : Nat} {y : Word} {h : Heap} {r : Heap × Word} (e : mDivWord q x n y h = .ok r) : Sub h r.1 := by
  obtain ⟨_, _, e⟩ := bind_ok e
  exact sub_mapDown1 _ _ e

theorem sub_mMulRows (x : Ptr) (xn : Nat) : ∀ (k : Nat) {z y : Ptr} {h h' : Heap}, mMulRows x xn k z y h = .ok h' → Sub h h' := by
  intro k
  induction k with
  | zero => intro z y h h' e; cases e; exact Sub.rfl' _
  | succ k ih =>
    intro z y h h' e
    obtain ⟨_, _, e⟩ := bind_ok e
    obtain ⟨_, e1, e⟩ := bind_ok e
    obtain ⟨_, e2, e⟩ := bind_ok e
    exact (sub_mMulWordAddN e1).trans ((sub_write e2).trans (ih e))

theorem sub_mMulNMge {z x y : Ptr} {xn yn : Nat} {h h' : Heap} (e : mMulNMge z x xn y yn h = .ok h') : Sub h h' := by
  have tail : ∀ {x y : Ptr} {h : Heap}, (do
      let y0 ← h.read y
      let (h, c) ← mMulWordN z x y0 xn h
      let h ← h.write (z.add xn) c
      mMulRows x xn (yn - 1) (z.add 1) (y.add 1) h : Res Heap) = .ok h' → Sub h h' := by
    intro x y h e
    obtain ⟨_, _, e⟩ := bind_ok e
    obtain ⟨_, e3, e⟩ := bind_ok e
    obtain ⟨_, e4, e⟩ := bind_ok e
    exact (sub_mMulWordN e3).trans ((sub_write e4).trans (sub_mMulRows _ _ _ e))
  have second : ∀ {x : Ptr} {h : Heap}, (if z = y then
      (do
        let h1 ← mCopyN ⟨(h.alloc yn false none).2, 0⟩ y yn (h.alloc yn false none).1
        let y0 ← h1.read ⟨(h.alloc yn false none).2, 0⟩
        let (h2, c) ← mMulWordN z x y0 xn h1
        let h3 ← h2.write (z.add xn) c
        mMulRows x xn (yn - 1) (z.add 1) ((⟨(h.alloc yn false none).2, 0⟩ : Ptr).add 1) h3 : Res Heap)
      else (do
        let y0 ← h.read y
        let (h2, c) ← mMulWordN z x y0 xn h
        let h3 ← h2.write (z.add xn) c
        mMulRows x xn (yn - 1) (z.add 1) (y.add 1) h3 : Res Heap)) = .ok h' → Sub h h' := by
    intro x h e
    split at e
    · obtain ⟨_, e1, e⟩ := bind_ok e
      exact (sub_alloc _ _ _).trans ((sub_mCopyN e1).trans (tail e))
    · exact tail e
  unfold mMulNMge at e
  simp only at e
  split at e
  · obtain ⟨_, e1, e⟩ := bind_ok e
    obtain ⟨_, e2, e⟩ := bind_ok e
    cases e2
    exact (sub_alloc _ _ _).trans ((sub_mCopyN e1).trans (second e))
  · exact second e

theorem sub_mMulNM {z x y : Ptr} {xn yn : Nat} {h h' : Heap} (e : mMulNM z x xn y yn h = .ok h') : Sub h h' := by
  unfold mMulNM at e
  split at e <;> exact sub_mMulNMge e

theorem sub_writeN : ∀ (ws : List Word) {p : Ptr} {h h' : Heap}, writeN p ws h = .ok h' → Sub h h' := by
  intro ws
  induction ws with
  | nil => intro p h h' e; cases e; exact Sub.rfl' _
  | cons w ws ih =>
    intro p h h' e
    obtain ⟨_, e1, e⟩ := bind_ok e
    exact (sub_write e1).trans (ih e)

namespace BigSt

theorem own_heap {s : BigSt} {h : Heap} (I : Own s.mem) (H : Sub s.mem.heap h) : Own (s.withHeap h).mem := fun b hb => I b (H b hb)

theorem own_resize {K : Kind} {s : BigSt} {i n : Nat} {r : BigSt × Bool} (I : Own s.mem) (e : s.resize K i n = .ok r) : Own r.1.mem := by
  obtain ⟨o, e1, e⟩ := bind_ok e
  obtain ⟨⟨h', o', f⟩, e2, e⟩ := bind_ok e
  cases e
  unfold buf at e1
  split at e1
  · rename_i o1 ho
    cases e1
    exact Own.set (h := s.mem.heap) (objs := s.mem.objs) I ho (inUse_resize e2).2
  · cases e1

theorem own_store {s s' : BigSt} {i k : Nat} {w : Word} (I : Own s.mem) (e : s.store i k w = .ok s') : Own s'.mem := by
  obtain ⟨_, _, e⟩ := bind_ok e
  obtain ⟨_, e1, e⟩ := bind_ok e
  cases e
  exact own_heap I (sub_write e1)

theorem own_assignWord {K : Kind} {s s' : BigSt} {i : Nat} {w : Word} (I : Own s.mem) (e : s.assignWord K i w = .ok s') : Own s'.mem := by
  unfold assignWord at e
  obtain ⟨_, e1, e⟩ := bind_ok e
  obtain ⟨_, e2, e⟩ := bind_ok e
  have g := own_store (own_resize (s := s.setNeg i false) I e1) e2
  cases e
  exact g

theorem own_clear {K : Kind} {s s' : BigSt} {i : Nat} (I : Own s.mem) (e : s.clear K i = .ok s') : Own s'.mem := by
  obtain ⟨_, e1, e⟩ := bind_ok e
  have g := own_assignWord I e1
  cases e
  exact g

theorem own_trim {s s' : BigSt} {i n : Nat} (I : Own s.mem) (e : s.trim i n = .ok s') : Own s'.mem := by
  unfold trim at e
  split at e
  · obtain ⟨_, _, e⟩ := bind_ok e
    simp only at e
    split at e
    · cases e; exact I
    · obtain ⟨w, _, e⟩ := bind_ok e
      have := Except.ok.inj e
      subst this
      split <;> exact I
  · cases e; exact I

theorem own_uaddGe {K : Kind} {s s' : BigSt} {z xn yn : Nat} {px py : Ptr} (I : Own s.mem) (e : s.uaddGe K z px xn py yn = .ok s') : Own s'.mem := by
  unfold uaddGe at e
  obtain ⟨⟨s1, ok⟩, e1, e⟩ := bind_ok e
  have I1 := own_resize I e1
  simp only at e I1
  split at e
  · obtain ⟨_, _, e⟩ := bind_ok e
    obtain ⟨⟨h1, c1⟩, e3, e⟩ := bind_ok e
    split at e
    · split at e
      · obtain ⟨_, e4, e⟩ := bind_ok e
        obtain ⟨_, e5, e⟩ := bind_ok e
        obtain ⟨_, e6, e⟩ := bind_ok e
        exact own_trim (own_heap I1 ((sub_mAddN e3).trans ((sub_mCopyN e4).trans ((sub_mAddWord e5).trans (sub_write e6))))) e
      · obtain ⟨_, e0, e⟩ := bind_ok e
        cases e0
        obtain ⟨_, e5, e⟩ := bind_ok e
        obtain ⟨_, e6, e⟩ := bind_ok e
        exact own_trim (own_heap I1 ((sub_mAddN e3).trans ((sub_mAddWord e5).trans (sub_write e6)))) e
    · obtain ⟨_, e0, e⟩ := bind_ok e
      cases e0
      obtain ⟨_, e6, e⟩ := bind_ok e
      exact own_trim (own_heap I1 ((sub_mAddN e3).trans (sub_write e6))) e
  · exact own_clear I1 e

theorem own_uadd {K : Kind} {s s' : BigSt} {z x y : Nat} (I : Own s.mem) (e : s.uadd K z x y = .ok s') : Own s'.mem := by
  obtain ⟨_, _, e⟩ := bind_ok e
  obtain ⟨_, _, e⟩ := bind_ok e
  split at e <;> exact own_uaddGe I e

theorem own_uadd1 {K : Kind} {s s' : BigSt} {z x : Nat} {y : Word} (I : Own s.mem) (e : s.uadd1 K z x y = .ok s') : Own s'.mem := by
  unfold uadd1 at e
  obtain ⟨⟨s1, ok⟩, e1, e⟩ := bind_ok e
  have I1 := own_resize I e1
  simp only at e I1
  split at e
  · obtain ⟨_, _, e⟩ := bind_ok e
    obtain ⟨_, _, e⟩ := bind_ok e
    split at e
    · obtain ⟨_, e2, e⟩ := bind_ok e
      obtain ⟨_, e3, e⟩ := bind_ok e
      obtain ⟨_, e4, e⟩ := bind_ok e
      exact own_trim (own_store (own_heap I1 ((sub_mCopyN e2).trans (sub_mAddWord e3))) e4) e
    · obtain ⟨_, e0, e⟩ := bind_ok e
      cases e0
      obtain ⟨_, e3, e⟩ := bind_ok e
      obtain ⟨_, e4, e⟩ := bind_ok e
      exact own_trim (own_store (own_heap I1 (sub_mAddWord e3)) e4) e
  · exact own_clear I1 e

theorem own_usub1 {K : Kind} {s s' : BigSt} {z x : Nat} {y : Word} (I : Own s.mem) (e : s.usub1 K z x y = .ok s') : Own s'.mem := by
  unfold usub1 at e
  obtain ⟨⟨s1, ok⟩, e1, e⟩ := bind_ok e
  have I1 := own_resize I e1
  simp only at e I1
  split at e
  · obtain ⟨_, _, e⟩ := bind_ok e
    obtain ⟨_, _, e⟩ := bind_ok e
    split at e
    · obtain ⟨_, e2, e⟩ := bind_ok e
      obtain ⟨_, e3, e⟩ := bind_ok e
      exact own_trim (own_heap I1 ((sub_mCopyN e2).trans (sub_mSubWord e3))) e
    · obtain ⟨_, e0, e⟩ := bind_ok e
      cases e0
      obtain ⟨_, e3, e⟩ := bind_ok e
      exact own_trim (own_heap I1 (sub_mSubWord e3)) e
  · exact own_clear I1 e

theorem own_usub {K : Kind} {s s' : BigSt} {z x y : Nat} (I : Own s.mem) (e : s.usub K z x y = .ok s') : Own s'.mem := by
  unfold usub at e
  obtain ⟨⟨s1, ok⟩, e1, e⟩ := bind_ok e
  have I1 := own_resize I e1
  simp only at e I1
  split at e
  · obtain ⟨_, _, e⟩ := bind_ok e
    obtain ⟨_, _, e⟩ := bind_ok e
    obtain ⟨_, _, e⟩ := bind_ok e
    obtain ⟨_, e2, e⟩ := bind_ok e
    split at e
    · obtain ⟨_, _, e⟩ := bind_ok e
      obtain ⟨_, _, e⟩ := bind_ok e
      split at e
      · obtain ⟨_, e4, e⟩ := bind_ok e
        obtain ⟨_, e5, e⟩ := bind_ok e
        obtain ⟨_, e0, e⟩ := bind_ok e
        cases e0
        exact own_trim (own_heap I1 ((sub_mSubN e2).trans ((sub_mCopyN e4).trans (sub_mSubWord e5)))) e
      · obtain ⟨_, e0, e⟩ := bind_ok e
        cases e0
        obtain ⟨_, e5, e⟩ := bind_ok e
        obtain ⟨_, e0, e⟩ := bind_ok e
        cases e0
        exact own_trim (own_heap I1 ((sub_mSubN e2).trans (sub_mSubWord e5))) e
    · obtain ⟨_, e0, e⟩ := bind_ok e
      cases e0
      exact own_trim (own_heap I1 (sub_mSubN e2)) e
  · exact own_clear I1 e

theorem own_addSigned {K : Kind} {s s' : BigSt} {z x y : Nat} {a b : Bool} (I : Own s.mem) (e : s.addSigned K z x a y b = .ok s') : Own s'.mem := by
  unfold addSigned at e
  split at e
  · obtain ⟨_, e1, e⟩ := bind_ok e
    have g := own_uadd I e1
    cases e; exact g
  · obtain ⟨_, _, e⟩ := bind_ok e
    split at e
    · obtain ⟨_, e1, e⟩ := bind_ok e
      have g := own_usub I e1
      cases e; exact g
    · obtain ⟨_, e1, e⟩ := bind_ok e
      have g := own_usub I e1
      cases e; exact g

theorem own_addu1Go {K : Kind} {s s' : BigSt} {z x : Nat} {y : Word} {b : Bool} (I : Own s.mem) (e : s.addu1Go K z x y b = .ok s') : Own s'.mem := by
  unfold addu1Go at e
  split at e
  · obtain ⟨_, e1, e⟩ := bind_ok e
    have g := own_uadd1 I e1
    cases e; exact g
  · obtain ⟨_, _, e⟩ := bind_ok e
    split at e
    · obtain ⟨_, e1, e⟩ := bind_ok e
      have g := own_usub1 I e1
      cases e; exact g
    · obtain ⟨_, e1, e⟩ := bind_ok e
      have g := own_assignWord I e1
      cases e; exact g

theorem own_mul {K : Kind} {s : BigSt} {r : BigSt × Bool} {z x y : Nat} (I : Own s.mem) (e : s.mul K z x y = .ok r) : Own r.1.mem := by
  unfold mul at e
  obtain ⟨⟨s1, ok⟩, e1, e⟩ := bind_ok e
  have I1 := own_resize I e1
  simp only at e I1
  split at e
  · obtain ⟨_, _, e⟩ := bind_ok e
    obtain ⟨_, _, e⟩ := bind_ok e
    obtain ⟨_, _, e⟩ := bind_ok e
    obtain ⟨_, e2, e⟩ := bind_ok e
    obtain ⟨_, e3, e⟩ := bind_ok e
    have g := own_trim (own_heap I1 (sub_mMulNM e2)) e3
    cases e
    exact g
  · cases e; exact I1

theorem own_mulu1 {K : Kind} {s s' : BigSt} {z x : Nat} {y : Word} (I : Own s.mem) (e : s.mulu1 K z x y = .ok s') : Own s'.mem := by
  unfold mulu1 at e
  obtain ⟨⟨s1, ok⟩, e1, e⟩ := bind_ok e
  have I1 := own_resize I e1
  simp only at e I1
  split at e
  · obtain ⟨_, _, e⟩ := bind_ok e
    obtain ⟨_, _, e⟩ := bind_ok e
    obtain ⟨_, e2, e⟩ := bind_ok e
    obtain ⟨s2, e3, e⟩ := bind_ok e
    have g := own_store (own_heap I1 (sub_mMulWordN e2)) e3
    exact own_trim (s := s2.setNeg z (s2.neg x)) g e
  · exact own_clear I1 e

theorem own_shl {K : Kind} {s s' : BigSt} {y x n : Nat} (I : Own s.mem) (e : s.shl K y x n = .ok s') : Own s'.mem := by
  unfold shl at e
  obtain ⟨⟨s1, ok⟩, e1, e⟩ := bind_ok e
  have I1 := own_resize I e1
  obtain ⟨_, _, e⟩ := bind_ok e
  obtain ⟨_, _, e⟩ := bind_ok e
  obtain ⟨h, e2, e⟩ := bind_ok e
  exact own_trim (s := (s1.withHeap h).setNeg y (s1.neg x)) (own_heap I1 (sub_mShiftLeft e2)) e

theorem own_shr {K : Kind} {s s' : BigSt} {y x n : Nat} (I : Own s.mem) (e : s.shr K y x n = .ok s') : Own s'.mem := by
  unfold shr at e
  simp only at e
  split at e
  · exact own_clear I e
  · obtain ⟨⟨s1, ok⟩, e1, e⟩ := bind_ok e
    have I1 := own_resize I e1
    obtain ⟨_, _, e⟩ := bind_ok e
    obtain ⟨_, _, e⟩ := bind_ok e
    obtain ⟨h, e2, e⟩ := bind_ok e
    exact own_trim (s := (s1.withHeap h).setNeg y (s1.neg x)) (own_heap I1 (sub_mShiftRight e2)) e

theorem own_divs1 {K : Kind} {s s' : BigSt} {q x : Nat} {y : BitVec 32} (I : Own s.mem) (e : s.divs1 K q x y = .ok s') : Own s'.mem := by
  unfold divs1 at e
  obtain ⟨⟨s1, ok⟩, e1, e⟩ := bind_ok e
  have I1 := own_resize (s := s.setNeg q (s.neg x ^^ decide (y.toInt < 0))) I e1
  simp only at e I1
  split at e
  · obtain ⟨_, _, e⟩ := bind_ok e
    obtain ⟨_, _, e⟩ := bind_ok e
    obtain ⟨_, e2, e⟩ := bind_ok e
    exact own_trim (own_heap I1 (sub_mDivWord e2)) e
  · exact own_clear I1 e

theorem own_setBit {K : Kind} {s s' : BigSt} {x i : Nat} {v : Bool} (I : Own s.mem) (e : s.setBit K x i v = .ok s') : Own s'.mem := by
  have tail : ∀ {s : BigSt}, Own s.mem → (do
      let len ← s.bitLength x
      let w ← s.load x (i / 32)
      let s ← s.store x (i / 32) (if v then w ||| 1#32 <<< (i % 32) else w &&& ~~~(1#32 <<< (i % 32)))
      if i + 1 ≥ len then s.trim x (i / 32 + 1) else .ok s : Res BigSt) = .ok s' → Own s'.mem := by
    intro s I1 e
    obtain ⟨_, _, e⟩ := bind_ok e
    obtain ⟨_, _, e⟩ := bind_ok e
    obtain ⟨_, e2, e⟩ := bind_ok e
    have I2 := own_store I1 e2
    split at e
    · exact own_trim I2 e
    · cases e; exact I2
  unfold setBit at e
  simp only at e
  split at e
  · obtain ⟨⟨s1, ok⟩, e1, e⟩ := bind_ok e
    have I1 := own_resize I e1
    simp only at e I1
    split at e
    · exact tail I1 e
    · exact own_clear I1 e
  · exact tail I e

theorem own_assign {K : Kind} {s s' : BigSt} {z x : Nat} (I : Own s.mem) (e : s.assign K z x = .ok s') : Own s'.mem := by
  unfold assign at e
  split at e
  · cases e; exact I
  · obtain ⟨_, e1, e⟩ := bind_ok e
    cases e
    obtain ⟨⟨m, _⟩, e2, e1⟩ := bind_ok e1
    cases e1
    exact own_any I e2

theorem own_mod {K : Kind} {s : BigSt} {t : BigSt × Bool} {r x y : Nat} (I : Own s.mem) (e : s.mod K r x y = .ok t) : Own t.1.mem := by
  unfold mod at e
  simp only at e
  split at e
  · obtain ⟨_, e1, e⟩ := bind_ok e
    obtain ⟨⟨m, _⟩, e3, e1⟩ := bind_ok e1
    cases e1
    obtain ⟨_, e2, e⟩ := bind_ok e
    have g := own_trim (own_any I e3) e2
    cases e
    exact g
  · obtain ⟨_, _, e⟩ := bind_ok e
    obtain ⟨_, _, e⟩ := bind_ok e
    obtain ⟨_, _, e⟩ := bind_ok e
    obtain ⟨_, _, e⟩ := bind_ok e
    obtain ⟨_, _, e⟩ := bind_ok e
    obtain ⟨⟨s1, ok⟩, e1, e⟩ := bind_ok e
    have I1 := own_resize I e1
    simp only at e I1
    split at e
    · obtain ⟨_, _, e⟩ := bind_ok e
      obtain ⟨_, e2, e⟩ := bind_ok e
      obtain ⟨_, e3, e⟩ := bind_ok e
      have g := own_trim (own_heap I1 (sub_writeN _ e2)) e3
      cases e
      exact g
    · cases e; exact I1

theorem own_swap {K : Kind} (hK : K.dyn = true) {s s' : BigSt} {x y : Nat} (hx : x < s.mem.objs.length) (hy : y < s.mem.objs.length) (I : Own s.mem)
    (e : s.swap K x y = .ok s') : Own s'.mem := by
  unfold swap at e
  obtain ⟨m, e1, e⟩ := bind_ok e
  cases e
  unfold swapBuf at e1
  obtain ⟨⟨m1, o1⟩, c1, e1⟩ := bind_ok e1
  obtain ⟨⟨m2, o2⟩, c2, e1⟩ := bind_ok e1
  obtain ⟨⟨m3, o3⟩, c3, e1⟩ := bind_ok e1
  cases e1
  have I3 := own_any (own_any (own_any I c1) c2) c3
  -- the temporary holds nothing at the end
  have l1 : m1.objs.length = s.mem.objs.length + 1 := by
    simp only [step, List.getElem?_eq_getElem hx] at c1
    obtain ⟨⟨h', o', r'⟩, _, d2⟩ := bind_ok c1
    cases d2
    simp
  have l2 : m2.objs.length = m1.objs.length := by
    simp only [step] at c2
    split at c2
    · split at c2
      · cases c2; rfl
      · obtain ⟨_, _, c2⟩ := bind_ok c2
        obtain ⟨_, _, c2⟩ := bind_ok c2
        cases c2
        simp
    · cases c2; rfl
  have key : ∀ o, m3.objs[s.mem.objs.length]? = some o → o.db = none := by
    intro o ho
    have hne : y ≠ s.mem.objs.length := by omega
    simp only [step, List.getElem?_eq_getElem (show y < m2.objs.length by omega), List.getElem?_eq_getElem (show s.mem.objs.length < m2.objs.length by omega),
      if_neg hne] at c3
    obtain ⟨_, _, c3⟩ := bind_ok c3
    obtain ⟨⟨h', o', r'⟩, d1, c3⟩ := bind_ok c3
    cases c3
    rcases get_set ho with ⟨_, e⟩ | ⟨e, _⟩
    · obtain ⟨_, _, d2⟩ := bind_ok d1
      cases d2
      rw [e]
      simp [hK]
    · exact absurd rfl e
  have l3 : m3.objs.length = m2.objs.length := by
    simp only [step] at c3
    split at c3
    · split at c3
      · cases c3; rfl
      · obtain ⟨_, _, c3⟩ := bind_ok c3
        obtain ⟨_, _, c3⟩ := bind_ok c3
        cases c3
        simp
    · cases c3; rfl
  intro b hb
  obtain ⟨i, o, hi, ho⟩ := I3 b hb
  refine ⟨i, o, ?_, ho⟩
  have hl := lt_of_get hi
  simp only
  rw [List.getElem?_take, if_pos, hi]
  by_contra hn
  have : i = s.mem.objs.length := by omega
  subst this
  rw [key o hi] at ho
  cases ho

theorem own_bitLoop (f : Word → Word → Word) (z x y : Nat) : ∀ (n i : Nat) {s s' : BigSt}, Own s.mem → bitLoop f z x y n i s = .ok s' → Own s'.mem := by
  intro n
  induction n with
  | zero => intro i s s' I e; cases e; exact I
  | succ n ih =>
    intro i s s' I e
    obtain ⟨_, _, e⟩ := bind_ok e
    obtain ⟨_, _, e⟩ := bind_ok e
    obtain ⟨_, e1, e⟩ := bind_ok e
    exact ih _ (own_store I e1) e

theorem own_orBit {K : Kind} {s s' : BigSt} {z x y : Nat} (I : Own s.mem) (e : s.orBit K z x y = .ok s') : Own s'.mem := by
  have tail : ∀ {s : BigSt} {px n m : Nat}, Own s.mem → (do
      let s ← bitLoop (· ||| ·) z x y n 0 s
      let pz ← s.elem z 0
      let pp ← s.elem px 0
      let h ← mCopyN (pz.add n) (pp.add n) (m - n) s.mem.heap
      (s.withHeap h).trim z m : Res BigSt) = .ok s' → Own s'.mem := by
    intro s px n m I1 e
    obtain ⟨_, e2, e⟩ := bind_ok e
    obtain ⟨_, _, e⟩ := bind_ok e
    obtain ⟨_, _, e⟩ := bind_ok e
    obtain ⟨_, e3, e⟩ := bind_ok e
    exact own_trim (own_heap (own_bitLoop _ _ _ _ _ _ I1 e2) (sub_mCopyN e3)) e
  unfold orBit at e
  obtain ⟨⟨s1, ok⟩, e1, e⟩ := bind_ok e
  have I1 := own_resize I e1
  simp only at e I1
  split at e
  · exact tail I1 e
  · obtain ⟨_, e2, e⟩ := bind_ok e
    exact tail (own_clear I1 e2) e

theorem own_andBit {K : Kind} {s s' : BigSt} {z x y : Nat} (I : Own s.mem) (e : s.andBit K z x y = .ok s') : Own s'.mem := by
  unfold andBit at e
  obtain ⟨⟨s1, ok⟩, e1, e⟩ := bind_ok e
  have I1 := own_resize I e1
  simp only at e I1
  split at e
  · obtain ⟨_, e2, e⟩ := bind_ok e
    exact own_trim (own_bitLoop _ _ _ _ _ _ I1 e2) e
  · exact own_clear I1 e

theorem own_orBitu1 {K : Kind} {s s' : BigSt} {z x : Nat} {y : Word} (I : Own s.mem) (e : s.orBitu1 K z x y = .ok s') : Own s'.mem := by
  obtain ⟨_, e1, e⟩ := bind_ok e
  obtain ⟨_, _, e⟩ := bind_ok e
  exact own_store (own_assign I e1) e

theorem own_andBitu1 {K : Kind} {s s' : BigSt} {z x : Nat} {y : Word} (I : Own s.mem) (e : s.andBitu1 K z x y = .ok s') : Own s'.mem := by
  unfold andBitu1 at e
  obtain ⟨⟨s1, ok⟩, e1, e⟩ := bind_ok e
  have I1 := own_resize I e1
  obtain ⟨_, _, e⟩ := bind_ok e
  obtain ⟨_, e2, e⟩ := bind_ok e
  have g := own_store I1 e2
  cases e; exact g

theorem own_divu1 {K : Kind} {s s' : BigSt} {q x : Nat} {y : Word} (I : Own s.mem) (e : s.divu1 K q x y = .ok s') : Own s'.mem := by
  unfold divu1 at e
  obtain ⟨⟨s1, ok⟩, e1, e⟩ := bind_ok e
  have I1 := own_resize I e1
  simp only at e I1
  split at e
  · obtain ⟨_, _, e⟩ := bind_ok e
    obtain ⟨_, _, e⟩ := bind_ok e
    obtain ⟨_, e2, e⟩ := bind_ok e
    obtain ⟨_, e3, e⟩ := bind_ok e
    have g := own_trim (own_heap I1 (sub_mDivWord e2)) e3
    cases e; exact g
  · exact own_clear I1 e

end BigSt

theorem own_exec1 {K : Kind} (hK : K.dyn = true) {fuel : Nat} {s s' : BigSt} {c : Stmt} (hc : NoLocal s c) (I : Own s.mem)
    (e : c.exec K fuel s = .ok s') : Own s'.mem := by
  cases c with
  | create w =>
    obtain ⟨⟨m, _⟩, e1, e⟩ := bind_ok e
    exact BigSt.own_assignWord (s := { s with mem := m }) (own_any I e1) e
  | set z w => exact BigSt.own_assignWord I e
  | assign z x => exact BigSt.own_assign I e
  | copyNew x =>
    obtain ⟨⟨m, _⟩, e1, e⟩ := bind_ok e
    cases e; exact own_any I e1
  | moveNew x =>
    obtain ⟨⟨m, _⟩, e1, e⟩ := bind_ok e
    cases e; exact own_any I e1
  | moveAssign z x =>
    simp only [Stmt.exec, BigSt.moveAssign] at e
    split at e
    · cases e; exact I
    · obtain ⟨⟨m, _⟩, e1, e⟩ := bind_ok e
      cases e; exact own_any I e1
  | swap x y => exact BigSt.own_swap hK hc.1 hc.2 I e
  | neg z x =>
    obtain ⟨_, e1, e⟩ := bind_ok e
    have g := BigSt.own_assign I e1
    cases e; exact g
  | abs z x =>
    obtain ⟨_, e1, e⟩ := bind_ok e
    have g := BigSt.own_assign I e1
    cases e; exact g
  | add z x y => exact BigSt.own_addSigned I e
  | sub z x y => exact BigSt.own_addSigned I e
  | addWord z x w b => exact BigSt.own_addu1Go I e
  | mul z x y =>
    simp only [Stmt.exec] at e
    cases h : s.mul K z x y with
    | error _ => rw [h] at e; cases e
    | ok r => rw [h] at e; have g := BigSt.own_mul I h; cases e; exact g
  | mulu1 z x w => exact BigSt.own_mulu1 I e
  | muls1 z x w =>
    obtain ⟨_, e1, e⟩ := bind_ok e
    have g := BigSt.own_mulu1 I e1
    cases e; exact g
  | shl z x n => exact BigSt.own_shl I e
  | shr z x n => exact BigSt.own_shr I e
  | divs1 z x w => exact BigSt.own_divs1 I e
  | div z x y => exact hc.elim
  | mod z x y =>
    simp only [Stmt.exec] at e
    cases h : s.mod K z x y with
    | error _ => rw [h] at e; cases e
    | ok r => rw [h] at e; have g := BigSt.own_mod I h; cases e; exact g
  | setBit x i v => exact BigSt.own_setBit I e

theorem own_exec {K : Kind} (hK : K.dyn = true) {fuel : Nat} : ∀ (p : List Stmt) {s s' : BigSt},
    (∀ p1 c p2 s1, p = p1 ++ c :: p2 → exec K fuel s p1 = .ok s1 → NoLocal s1 c) → Own s.mem → exec K fuel s p = .ok s' → Own s'.mem := by
  intro p
  induction p with
  | nil => intro s s' _ I e; cases e; exact I
  | cons c p ih =>
    intro s s' hp I e
    obtain ⟨s1, e1, e⟩ := bind_ok e
    refine ih (fun p1 c' p2 s2 h1 h2 => hp (c :: p1) c' p2 s2 (by rw [h1]; rfl) ?_) (own_exec1 hK (hp [] c p s rfl rfl) I e1) e
    show (c.exec K fuel s >>= fun s => exec K fuel s p1) = _
    rw [e1]; exact h2

open Ack.Spec.Prog in
theorem own_evals {K : Kind} (hK : K.dyn = true) {fuel : Nat} : ∀ (p : List Stmt) {s s' : BigSt} {e e' : Env}, Holds K s e → evals e p = some e' →
    Always (Room K.lim) e p → (∀ z x y, Stmt.div z x y ∉ p) → Own s.mem → exec K fuel s p = .ok s' → Own s'.mem ∧ Holds K s' e' := by
  intro p
  induction p with
  | nil => intro s s' e e' H he _ _ I h; cases he; cases h; exact ⟨I, H⟩
  | cons c p ih =>
    intro s s' e e' H he hr hd I h
    unfold evals at he
    cases h1 : eval e c with
    | none => rw [h1] at he; cases he
    | some e1 =>
      rw [h1] at he
      change evals e1 p = some e' at he
      obtain ⟨s1, x1, h⟩ := bind_ok h
      have ds : DivSafe e c := by
        cases c <;> first | trivial | exact absurd (List.mem_cons_self ..) (hd _ _ _)
      rcases exec_one fuel H c h1 hr.1 ds with ⟨s2, x2, H1⟩ | ⟨_, _, x2⟩
      · cases x1.symm.trans x2
        have nl : NoLocal s c := by
          cases c with
          | div z x y => exact absurd (List.mem_cons_self ..) (hd z x y)
          | swap x y =>
            have live : ∀ i a, look e i = some a → i < s.mem.objs.length := by
              intro i a hi
              rw [H.len]
              unfold look at hi
              cases hg : e[i]? with
              | none => rw [hg] at hi; cases hi
              | some _ => exact (List.getElem?_eq_some_iff.1 hg).1
            simp only [eval] at h1
            cases hx : look e x with
            | none => rw [hx] at h1; cases h1
            | some a =>
              cases hy : look e y with
              | none => rw [hx, hy] at h1; cases h1
              | some b => exact ⟨live x a hx, live y b hy⟩
          | _ => trivial
        exact ih H1 he (hr.2 e1 h1) (fun z x y hm => hd z x y (List.mem_cons_of_mem _ hm)) (own_exec1 hK nl I x1) h
      · cases x1.symm.trans x2

end Ack.Mem
