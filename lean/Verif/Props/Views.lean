import Verif.Proof.Views
/-!
# Property C94: byte vectors, views and keys made of views
-/
namespace Ack.Props
open Ack.View (Alloc St Stmt Opd program)
open Ack.Spec.View (means Alloc.Ok)

/-- C94: a program that builds byte vectors, copies, concatenates and appends them, takes views of them, xors views into each
other (also overlapping ones) and compares views, vectors and keys computes what the specification says on byte strings, and
does nothing undefined, wherever the allocator puts the bytes and however much room it gives. -/
theorem C94 (A : Alloc) (hA : Alloc.Ok A) (p : List Stmt) (r : List (Option (List (BitVec 8))) × List Bool) (h : means p = some r) :
    program A p = .ok r := by
  obtain ⟨e, he, hr⟩ := View.bind_some h
  obtain ⟨s, hs, I⟩ := View.run_exec hA p View.Inv.empty he
  cases hr
  unfold View.program
  rw [hs, ok_bind, I.contents]

/-- An allocator: behind everything, with as much extra room as `f` says. -/
def bump (f : Nat → Nat) : Alloc := fun s n => (s.vecs.foldr (fun o m => match o with | some v => max m (v.addr + v.cap) | none => m) 100, n + f n)

theorem bump_ok (f : Nat → Nat) : Alloc.Ok (bump f) := by
  intro s n
  refine ⟨Nat.le_add_right _ _, fun v hv => Or.inr ?_⟩
  unfold bump
  dsimp only
  revert hv
  induction s.vecs with
  | nil => intro h; simp at h
  | cons o t ih =>
    intro h
    rw [List.foldr_cons]
    rcases List.mem_cons.1 h with rfl | h
    · exact le_max_right _ _
    · have := ih h
      cases o with
      | none => exact this
      | some u => exact le_trans this (le_max_left _ _)

/-- The hypotheses are met: a program with growth, overlapping views and keys. -/
example : means [.make [1, 2, 3], .make [4, 5], .cat 0 0, .append 0 1, .view (.vec 0) 1 3, .view (.view 0) 1 2, .memxor (.view 0) (.view 1) 9,
      .eq (.view 0) (.vec 2), .copy (.view 1), .eq (.view 1) (.vec 3), .drop 3, .pssEq (.vec 0) (.vec 1) (some 3) (.vec 0) (.vec 1) none,
      .keyEq (.vec 0) (.view 1) (.vec 0) (.view 1)] =
    some ([some [1, 1, 7, 4, 5], some [4, 5], some [1, 2, 3, 1, 2, 3], none], [false, true, false, true]) := by decide

example : program (bump fun _ => 0) [.make [1, 2, 3], .make [4, 5], .append 0 1, .view (.vec 0) 1 3, .append 1 0] =
    .ok ([some [1, 2, 3, 4, 5], some [4, 5, 1, 2, 3, 4, 5]], []) ∧
    program (bump fun n => n) [.make [1, 2, 3], .make [4, 5], .append 0 1, .view (.vec 0) 1 3, .append 1 0] =
    .ok ([some [1, 2, 3, 4, 5], some [4, 5, 1, 2, 3, 4, 5]], []) :=
  ⟨C94 _ (bump_ok _) _ _ (by decide), C94 _ (bump_ok _) _ _ (by decide)⟩

/-- C94, the rules are needed: `v += v` is undefined for every vector. -/
theorem C94_append_self_wrong (A : Alloc) (l : List (BitVec 8)) : program A [.make l, .append 0 0] = .error .ub := rfl

/-- C94, the rules are needed: a view is left behind when its vector grows, and using it then is undefined. -/
theorem C94_view_left_behind_wrong : program (bump fun _ => 0) [.make [1], .make [2], .view (.vec 0) 0 1, .append 0 1, .copy (.view 0)] = .error .ub ∧
    program (bump fun _ => 0) [.make [1], .view (.vec 0) 0 1, .drop 0, .copy (.view 0)] = .error .ub := by decide

/-- C94, the rules are needed: `memxor` from bytes that begin before the destination and reach into it xors bytes it has already
changed.  (`[1, 2, 4]` with its first two bytes xored into its last two should be `[1, 3, 6]`.) -/
theorem C94_memxor_overlap_wrong : program (bump fun _ => 0) [.make [1, 2, 4], .view (.vec 0) 1 2, .memxor (.view 0) (.vec 0) 2] =
    .ok ([some [1, 3, 7]], []) := by rfl

end Ack.Props
