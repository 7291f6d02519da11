import Verif.Props.Fp
import Verif.Model.Formula
/-!
# Formulas over field elements (C72)
-/
namespace Ack.Props
open Ack Ack.Big Ack.Spec

/-- The residue class of an element. -/
def resOf (P : ℕ) (a : Fe) : ZMod P := (a.v.toInt : ZMod P)

/-- C72: every expression over elements of one prime field evaluates to the value of the formula in the field; it aborts
exactly when the formula divides by zero. -/
theorem C72_formula {cap : Cap} {p : Big} (r : Room cap p) (cp : p.Canon) {P : ℕ} [hP : Fact P.Prime] (hp : p.toInt = P)
    (env : ℕ → Fe) (he : ∀ i, IsElt p (env i)) (f : Formula) :
    (∀ z, f.value (fun i => resOf P (env i)) = some z → ∃ c, Fe.eval cap env f = .ok c ∧ IsElt p c ∧ resOf P c = z) ∧
    (f.value (fun i => resOf P (env i)) = none → Fe.eval cap env f = .error .abort) := by
  have M : Mod cap p P := ⟨r, cp, hp, hP.out.one_lt⟩
  have key : (∀ z, f.value (fun i => resOf P (env i)) = some z → ∃ c, Fe.eval cap env f = .ok c ∧ Rep P p c z) ∧
      (f.value (fun i => resOf P (env i)) = none → Fe.eval cap env f = .error .abort) := by
    induction f with
    | var i =>
      refine ⟨fun z h => ?_, fun h => by simp [Formula.value] at h⟩
      simp only [Formula.value, Option.some.injEq] at h
      subst h
      exact ⟨env i, rfl, (he i).1, (he i).2, rfl⟩
    | neg a ih =>
      cases ha : a.value (fun i => resOf P (env i)) with
      | none => exact ⟨fun z h => by simp [Formula.value, ha] at h, fun _ => by rw [Fe.eval, ih.2 ha]; rfl⟩
      | some x =>
        obtain ⟨c, e, rc⟩ := ih.1 x ha
        obtain ⟨d, e', rd⟩ := rc.neg M
        refine ⟨fun z h => ⟨d, by rw [Fe.eval, e]; exact e', ?_⟩, fun h => by simp [Formula.value, ha] at h⟩
        simp [Formula.value, ha] at h; rw [← h]; exact rd
    | sqr a ih =>
      cases ha : a.value (fun i => resOf P (env i)) with
      | none => exact ⟨fun z h => by simp [Formula.value, ha] at h, fun _ => by rw [Fe.eval, ih.2 ha]; rfl⟩
      | some x =>
        obtain ⟨c, e, rc⟩ := ih.1 x ha
        obtain ⟨d, e', rd⟩ := rc.sqr M
        refine ⟨fun z h => ⟨d, by rw [Fe.eval, e]; exact e', ?_⟩, fun h => by simp [Formula.value, ha] at h⟩
        simp [Formula.value, ha] at h; rw [← h]; exact rd
    | inv a ih =>
      cases ha : a.value (fun i => resOf P (env i)) with
      | none => exact ⟨fun z h => by simp [Formula.value, ha] at h, fun _ => by rw [Fe.eval, ih.2 ha]; rfl⟩
      | some x =>
        obtain ⟨c, e, rc⟩ := ih.1 x ha
        by_cases hx : x = 0
        · refine ⟨fun z h => by simp [Formula.value, ha, hx] at h, fun _ => ?_⟩
          rw [Fe.eval, e]; exact rc.inv_zero M hx
        · obtain ⟨d, e', rd⟩ := rc.inv M hx
          refine ⟨fun z h => ⟨d, by rw [Fe.eval, e]; exact e', ?_⟩, fun h => by simp [Formula.value, ha, hx] at h⟩
          simp [Formula.value, ha, hx] at h; rw [← h]; exact rd
    | add a b iha ihb =>
      cases ha : a.value (fun i => resOf P (env i)) with
      | none => exact ⟨fun z h => by simp [Formula.value, ha] at h, fun _ => by rw [Fe.eval, iha.2 ha]; rfl⟩
      | some x =>
        obtain ⟨c, e, rc⟩ := iha.1 x ha
        cases hb : b.value (fun i => resOf P (env i)) with
        | none => exact ⟨fun z h => by simp [Formula.value, ha, hb] at h, fun _ => by rw [Fe.eval, e, ok_bind, ihb.2 hb]; rfl⟩
        | some y =>
          obtain ⟨d, e2, rd⟩ := ihb.1 y hb
          obtain ⟨g, e3, rg⟩ := rc.add M rd
          refine ⟨fun z h => ⟨g, by rw [Fe.eval, e, ok_bind, e2, ok_bind]; exact e3, ?_⟩, fun h => by simp [Formula.value, ha, hb] at h⟩
          simp [Formula.value, ha, hb] at h; rw [← h]; exact rg
    | sub a b iha ihb =>
      cases ha : a.value (fun i => resOf P (env i)) with
      | none => exact ⟨fun z h => by simp [Formula.value, ha] at h, fun _ => by rw [Fe.eval, iha.2 ha]; rfl⟩
      | some x =>
        obtain ⟨c, e, rc⟩ := iha.1 x ha
        cases hb : b.value (fun i => resOf P (env i)) with
        | none => exact ⟨fun z h => by simp [Formula.value, ha, hb] at h, fun _ => by rw [Fe.eval, e, ok_bind, ihb.2 hb]; rfl⟩
        | some y =>
          obtain ⟨d, e2, rd⟩ := ihb.1 y hb
          obtain ⟨g, e3, rg⟩ := rc.sub M rd
          refine ⟨fun z h => ⟨g, by rw [Fe.eval, e, ok_bind, e2, ok_bind]; exact e3, ?_⟩, fun h => by simp [Formula.value, ha, hb] at h⟩
          simp [Formula.value, ha, hb] at h; rw [← h]; exact rg
    | mul a b iha ihb =>
      cases ha : a.value (fun i => resOf P (env i)) with
      | none => exact ⟨fun z h => by simp [Formula.value, ha] at h, fun _ => by rw [Fe.eval, iha.2 ha]; rfl⟩
      | some x =>
        obtain ⟨c, e, rc⟩ := iha.1 x ha
        cases hb : b.value (fun i => resOf P (env i)) with
        | none => exact ⟨fun z h => by simp [Formula.value, ha, hb] at h, fun _ => by rw [Fe.eval, e, ok_bind, ihb.2 hb]; rfl⟩
        | some y =>
          obtain ⟨d, e2, rd⟩ := ihb.1 y hb
          obtain ⟨g, e3, rg⟩ := rc.mul M rd
          refine ⟨fun z h => ⟨g, by rw [Fe.eval, e, ok_bind, e2, ok_bind]; exact e3, ?_⟩, fun h => by simp [Formula.value, ha, hb] at h⟩
          simp [Formula.value, ha, hb] at h; rw [← h]; exact rg
    | div a b iha ihb =>
      cases ha : a.value (fun i => resOf P (env i)) with
      | none => exact ⟨fun z h => by simp [Formula.value, ha] at h, fun _ => by rw [Fe.eval, iha.2 ha]; rfl⟩
      | some x =>
        obtain ⟨c, e, rc⟩ := iha.1 x ha
        cases hb : b.value (fun i => resOf P (env i)) with
        | none => exact ⟨fun z h => by simp [Formula.value, ha, hb] at h, fun _ => by rw [Fe.eval, e, ok_bind, ihb.2 hb]; rfl⟩
        | some y =>
          obtain ⟨d, e2, rd⟩ := ihb.1 y hb
          by_cases hy : y = 0
          · refine ⟨fun z h => by simp [Formula.value, ha, hb, hy] at h, fun _ => ?_⟩
            rw [Fe.eval, e, ok_bind, e2, ok_bind]
            exact rc.divB_zero M rd.elt (by rw [rd.val]; exact hy)
          · obtain ⟨g, e3, rg⟩ := rc.divB M rd.elt (by rw [rd.val]; exact hy)
            refine ⟨fun z h => ⟨g, by rw [Fe.eval, e, ok_bind, e2, ok_bind]; exact e3, ?_⟩, fun h => by simp [Formula.value, ha, hb, hy] at h⟩
            simp [Formula.value, ha, hb, hy] at h; rw [← h, ← rd.val]; exact rg
  refine ⟨fun z h => ?_, key.2⟩
  obtain ⟨c, e, rc⟩ := key.1 z h
  exact ⟨c, e, ⟨rc.pm, rc.elt⟩, rc.val⟩

/-- The slope of the tangent at (3, 5) on y² = x³ + x + 9 over the field of 13 elements, as an expression; and a division by
zero. -/
example : Room (some 2) (ofInt32 13) ∧ (ofInt32 13).Canon ∧
    exR (Fe.eval (some 2) (fun i => ⟨ofInt32 (BitVec.ofNat 32 (i % 13)), some (ofInt32 13)⟩)
      (.div (.add (.mul (.var 3) (.sqr (.var 3))) (.var 1)) (.mul (.var 2) (.var 5)))) = some 8 ∧
    Fe.eval (some 2) (fun i => ⟨ofInt32 (BitVec.ofNat 32 (i % 13)), some (ofInt32 13)⟩)
      (.div (.var 3) (.sub (.var 4) (.var 17))) = .error .abort := by decide +kernel

end Ack.Props
