import Verif.Proof.FeProg
import Verif.Spec.FeClient
/-! # Lemmas for clients that compute with field elements (C99) -/
namespace Ack.Mem
open Spec.Ec Spec.Fe
open Big (Byte)

section
variable {K : Kind} {P fuel : ℕ} {p : Big} [hP : Fact P.Prime]

omit hP in
theorem feLook_run (M : Mod K.lim p P) {s : BigSt} {v : FeVars} {e : FeEnv P} (H : FInv K p s v e) : Is s (feLook v) (feSight e) := by
  unfold feLook
  rw [H.bools, H.strs]
  exact Is.bind (readEls M _ _ H.len H.el) (Is.pure _)

theorem fePlay_run (F : FC K p P fuel) {C : FeClient} (hC : FeNames P C) : ∀ (n : ℕ) (h : List FeSight) (s : BigSt) (v : FeVars) (e : FeEnv P),
    FInv K p s v e →
    (∃ h' s', FePlays K.lim C n h e h' ∧ fePlay K fuel 0 C n h v s = .ok (h', s')) ∨
    (FeHalts K.lim C n h e ∧ fePlay K fuel 0 C n h v s = .error .abort) := by
  intro n
  induction n with
  | zero => intro h s v e H; exact Or.inl ⟨_, s, .out h e, (bind_run (feLook_run F.M H)).trans rfl⟩
  | succ n ih =>
    intro h s v e H
    have e0 := feLook_run F.M H
    cases ht : C (feSight e :: h) with
    | none =>
      refine Or.inl ⟨_, s, .done n ht, (bind_run e0).trans ?_⟩
      simp only [ht]; rfl
    | some t =>
      have hf := hC _ _ _ ht
      rw [show (feSight e).els.length = e.els.length from List.length_map _] at hf
      rcases step_run F H t hf with ⟨e1, v1, s1, d1, r1, H1, -⟩ | ⟨d1, r1⟩
      · rcases ih (feSight e :: h) s1 v1 e1 H1 with ⟨h', s', d2, r2⟩ | ⟨d2, r2⟩
        · refine Or.inl ⟨h', s', .step ht d1 d2, (bind_run e0).trans ?_⟩
          simp only [ht]
          exact (bind_run r1).trans r2
        · refine Or.inr ⟨.step ht d1 d2, (bind_run e0).trans ?_⟩
          simp only [ht]
          exact (bind_run r1).trans r2
      · refine Or.inr ⟨.stop n ht d1, (bind_run e0).trans ?_⟩
        simp only [ht]
        exact bind_err r1

theorem feClient_run {d : List Byte} (S : FeSetting K d P) (hf : Spec.Passes P fuel) {C : FeClient} (hC : FeNames P C) (n : ℕ) :
    (∃ h, FePlays K.lim C n [] (⟨[], [], []⟩ : FeEnv P) h ∧ feClientSees K fuel d C n = .ok h) ∨
    (FeHalts K.lim C n [] (⟨[], [], []⟩ : FeEnv P) ∧ feClientSees K fuel d C n = .error .abort) := by
  have h8 := S.big
  have f1 : Cap.fits K.lim 1 = true := Big.fits_mono S.room (by unfold Spec.Prog.words; omega)
  have I : Inv K BigSt.init.mem := init_inv K
  have hd := ofBytes_exact I f1 d
  rcases Ack.ofBytes_fits K.lim d f1 with ⟨-, p, ep, cp, vp⟩ | ⟨h, -⟩
  swap
  · exact absurd S.fits h
  rw [ep] at hd
  obtain ⟨s1, e1, N⟩ := hd
  rw [S.p] at vp
  have wp := words_nat cp vp
  have M : Mod K.lim p P := ⟨by unfold Room; rw [wp]; exact S.room, cp, vp, by omega⟩
  have F : FC K p P fuel := ⟨M, h8, fun h => by rw [wp]; exact S.inline h, hf⟩
  have H : FInv K p s1 ⟨[], [], []⟩ (⟨[], [], []⟩ : FeEnv P) :=
    ⟨N.inv, N.res, rfl, fun i a x h => by simp at h, fun i j a b h => by simp at h, rfl, rfl⟩
  have hp : (do let p ← newObj fun s => s.ofBytes K d; fePlay K fuel p C n [] ⟨[], [], []⟩ : Ack.Mem.M _) BigSt.init =
      fePlay K fuel 0 C n [] ⟨[], [], []⟩ s1 := bind_run (newObj_run e1)
  rcases fePlay_run F hC n [] s1 _ _ H with ⟨h', s', h1, h2⟩ | ⟨h1, h2⟩
  · refine Or.inl ⟨h', h1, ?_⟩
    unfold feClientSees
    rw [hp, h2]; rfl
  · refine Or.inr ⟨h1, ?_⟩
    unfold feClientSees
    rw [hp, h2]; rfl

end
end Ack.Mem
