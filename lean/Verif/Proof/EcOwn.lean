import Verif.Proof.Bigint
import Verif.Model.EcProg
/-! # Which curve the result of a point operation refers to -/
namespace Ack.Mem

/-- Every result of `v` has the property `S`. -/
def Only {β : Type} (S : β → Prop) (v : Res β) : Prop := ∀ b, v = .ok b → S b

section
variable {α β : Type} {S : β → Prop} {T : α → Prop}

theorem Only.ok {b : β} (h : S b) : Only S (.ok b) := fun _ e => by cases e; exact h
theorem Only.pure {b : β} (h : S b) : Only S (Pure.pure b : Res β) := fun _ e => by cases e; exact h
theorem Only.err {e : Err} : Only S (.error e) := fun _ h => by cases h
theorem Only.bind {v : Res α} {f : α → Res β} (h : ∀ a, v = .ok a → Only S (f a)) : Only S (v >>= f) := by
  cases v with
  | error e => exact Only.err
  | ok a => exact h a rfl
theorem Only.next {v : Res α} {f : α → Res β} (hv : Only T v) (h : ∀ a, T a → Only S (f a)) : Only S (v >>= f) :=
  Only.bind fun a e => h a (hv a e)
theorem Only.ite {c : Prop} [Decidable c] {v w : Res β} (h1 : Only S v) (h2 : Only S w) : Only S (if c then v else w) := by
  split <;> assumption
end

/-- No curve, or the curve `C`. -/
def OwnC (C : Curve) (c : Option Curve) : Prop := c = none ∨ c = some C
/-- The identity object, or a point on `C`. -/
def OwnA (C : Curve) (q : APt) : Prop := q = APt.identity ∨ q.curve = some C
def OwnP (C : Curve) (q : PPt) : Prop := OwnC C q.curve
def OwnJ (C : Curve) (q : JPt) : Prop := OwnC C q.curve

theorem OwnA.c {C : Curve} {q : APt} (h : OwnA C q) : OwnC C q.curve := by
  rcases h with rfl | h
  · exact Or.inl rfl
  · exact Or.inr h

theorem own_curve {C c : Curve} {o : Option Curve} (h : OwnC C o) (e : curveOf o = .ok c) : c = C := by
  rcases h with rfl | rfl
  · cases e
  · cases e; rfl

section
variable {C : Curve} {cap : Cap}

theorem ownA_mk {c : Curve} {o : Option Curve} (h : OwnC C o) (e : curveOf o = .ok c) (x y : Fe) : OwnA C ⟨some c, x, y⟩ := by
  rw [own_curve h e]; exact Or.inr rfl
theorem ownP_mk {c : Curve} {o : Option Curve} (h : OwnC C o) (e : curveOf o = .ok c) (x y z : Fe) : OwnP C ⟨some c, x, y, z⟩ := by
  rw [own_curve h e]; exact Or.inr rfl
theorem ownJ_mk {c : Curve} {o : Option Curve} (h : OwnC C o) (e : curveOf o = .ok c) (x y z : Fe) : OwnJ C ⟨some c, x, y, z⟩ := by
  rw [own_curve h e]; exact Or.inr rfl

/-- Go through the steps of a function; the curve comes from a point with `OwnC`. -/
macro "own" : tactic => `(tactic|
  repeat (first
    | exact Only.ok (by assumption)
    | exact Only.ok (Or.inl rfl)
    | exact Only.ok (ownA_mk (by assumption) (by assumption) _ _)
    | exact Only.ok (ownP_mk (by assumption) (by assumption) _ _ _)
    | exact Only.ok (ownJ_mk (by assumption) (by assumption) _ _ _)
    | refine Only.ite ?_ ?_
    | (refine Only.bind fun _ _ => ?_; try dsimp only)
    | assumption))

theorem own_ladder {α : Type} {S : α → Prop} {add : α → α → Res α} {dbl : α → Res α} (ha : ∀ a b, S a → S b → Only S (add a b))
    (hd : ∀ a, S a → Only S (dbl a)) : ∀ (f : Nat) (r t : α) (x : Big), S r → S t → Only S (ladder add dbl f r t x)
  | 0, _, _, _, _, _ => Only.err
  | f + 1, r, t, x, hr, ht => by
    unfold ladder
    refine Only.ite (Only.next (T := S) (Only.ite (ha _ _ hr ht) (Only.ok hr)) fun r' hr' => Only.next (hd _ ht) fun t' ht' => ?_) (Only.ok hr)
    exact own_ladder ha hd f r' t' _ hr' ht'

theorem ownA_inverted {q : APt} (h : OwnA C q) : Only (OwnA C) (q.inverted cap) := by
  have hc := h.c
  unfold APt.inverted; own
theorem ownA_doubled {q : APt} (h : OwnA C q) : Only (OwnA C) (q.doubled cap) := by
  have hc := h.c
  unfold APt.doubled; own
theorem ownA_add {q a : APt} (h : OwnA C q) (h' : OwnA C a) : Only (OwnA C) (q.add cap a) := by
  have hc := h.c
  have hd := ownA_doubled (cap := cap) h
  unfold APt.add; own
theorem ownA_sub {q a : APt} (h : OwnA C q) (h' : OwnA C a) : Only (OwnA C) (q.sub cap a) := by
  unfold APt.sub
  exact Only.next (ownA_inverted h') fun n hn => ownA_add h hn
theorem ownA_mulNN {q : APt} (h : OwnA C q) (x : Big) : Only (OwnA C) (q.mulNN cap x) := by
  have := own_ladder (S := OwnA C) (fun a b => ownA_add (cap := cap) (q := a) (a := b)) (fun a => ownA_doubled (cap := cap) (q := a)) (x.bitLength + 1) APt.identity q x
    (Or.inl rfl) h
  unfold APt.mulNN; exact Only.ite (Only.ok h) (Only.ite (Only.ok (Or.inl rfl)) this)
theorem ownA_mul {q : APt} (h : OwnA C q) (x : Big) : Only (OwnA C) (q.mul cap x) := by
  have h1 := ownA_mulNN (cap := cap) h x
  have h2 := Only.next (ownA_inverted (cap := cap) h) fun i hi => ownA_mulNN (cap := cap) hi (Big.negate x)
  unfold APt.mul
  exact Only.ite (Only.ok h) (Only.ite (Only.ok (Or.inl rfl)) (Only.ite h2 h1))

theorem ownP_ofAffine {q : APt} (h : OwnA C q) : Only (OwnP C) (PPt.ofAffine q) := by
  have hc := h.c
  unfold PPt.ofAffine; own
theorem ownP_toAffine {q : PPt} (h : OwnP C q) : Only (OwnA C) (q.toAffine cap) := by
  have hc : OwnC C q.curve := h
  unfold PPt.toAffine; own
theorem ownP_inverted {q : PPt} (h : OwnP C q) : Only (OwnP C) (q.inverted cap) := by
  have hc : OwnC C q.curve := h
  unfold PPt.inverted; own
theorem ownP_doubled {q : PPt} (h : OwnP C q) : Only (OwnP C) (q.doubled cap) := by
  have hc : OwnC C q.curve := h
  unfold PPt.doubled; own
theorem ownP_add {q a : PPt} (h : OwnP C q) (h' : OwnP C a) : Only (OwnP C) (q.add cap a) := by
  have hc : OwnC C q.curve := h
  have hd := ownP_doubled (cap := cap) h
  unfold PPt.add; own
theorem ownP_sub {q a : PPt} (h : OwnP C q) (h' : OwnP C a) : Only (OwnP C) (q.sub cap a) := by
  unfold PPt.sub
  exact Only.next (ownP_inverted h') fun n hn => ownP_add h hn
theorem ownP_mulNN {q : PPt} (h : OwnP C q) (x : Big) : Only (OwnP C) (q.mulNN cap x) := by
  have := own_ladder (S := OwnP C) (fun a b => ownP_add (cap := cap) (q := a) (a := b)) (fun a => ownP_doubled (cap := cap) (q := a)) (x.bitLength + 1) PPt.identity q x
    (Or.inl rfl) h
  unfold PPt.mulNN; exact Only.ite (Only.ok h) (Only.ite (Only.ok (Or.inl rfl)) this)
theorem ownP_mul {q : PPt} (h : OwnP C q) (x : Big) : Only (OwnP C) (q.mul cap x) := by
  have h1 := ownP_mulNN (cap := cap) h x
  have h2 := Only.next (ownP_inverted (cap := cap) h) fun i hi => ownP_mulNN (cap := cap) hi (Big.negate x)
  unfold PPt.mul
  exact Only.ite (Only.ok h) (Only.ite (Only.ok (Or.inl rfl)) (Only.ite h2 h1))

theorem ownJ_ofAffine {q : APt} (h : OwnA C q) : Only (OwnJ C) (JPt.ofAffine q) := by
  have hc := h.c
  unfold JPt.ofAffine; own
theorem ownJ_toAffine {q : JPt} (h : OwnJ C q) : Only (OwnA C) (q.toAffine cap) := by
  have hc : OwnC C q.curve := h
  unfold JPt.toAffine; own
theorem ownJ_inverted {q : JPt} (h : OwnJ C q) : Only (OwnJ C) (q.inverted cap) := by
  have hc : OwnC C q.curve := h
  unfold JPt.inverted; own
theorem ownJ_doubled {q : JPt} (h : OwnJ C q) : Only (OwnJ C) (q.doubled cap) := by
  have hc : OwnC C q.curve := h
  unfold JPt.doubled; own
theorem ownJ_addex {q a : JPt} (h : OwnJ C q) (u v w x : Fe) : Only (OwnJ C) (q.addex cap a u v w x) := by
  have hc : OwnC C q.curve := h
  have hd := ownJ_doubled (cap := cap) h
  unfold JPt.addex; own
theorem ownJ_addZ2One {q a : JPt} (h : OwnJ C q) : Only (OwnJ C) (q.addZ2One cap a) := by
  unfold JPt.addZ2One
  iterate 4 refine Only.bind fun _ _ => ?_
  exact ownJ_addex h _ _ _ _
theorem ownJ_addNe {q a : JPt} (h : OwnJ C q) : Only (OwnJ C) (q.addNe cap a) := by
  unfold JPt.addNe
  iterate 8 refine Only.bind fun _ _ => ?_
  exact ownJ_addex h _ _ _ _
theorem ownJ_add {q a : JPt} (h : OwnJ C q) (h' : OwnJ C a) : Only (OwnJ C) (q.add cap a) := by
  unfold JPt.add
  exact Only.ite (Only.ok h') (Only.ite (Only.ok h) (Only.ite (ownJ_addex h _ _ _ _) (Only.ite (ownJ_addZ2One h')
    (Only.ite (ownJ_addZ2One h) (ownJ_addNe h)))))
theorem ownJ_sub {q a : JPt} (h : OwnJ C q) (h' : OwnJ C a) : Only (OwnJ C) (q.sub cap a) := by
  unfold JPt.sub
  exact Only.next (ownJ_inverted h') fun n hn => ownJ_add h hn
theorem ownJ_nafLoop {q a : JPt} (h : OwnJ C q) (h' : OwnJ C a) : ∀ (l : List (BitVec 8)) (r : JPt), OwnJ C r → Only (OwnJ C) (JPt.nafLoop cap q a l r)
  | [], r, hr => Only.ok hr
  | d :: t, r, hr => by
    unfold JPt.nafLoop
    refine Only.next (ownJ_doubled hr) fun r hr => Only.next (T := OwnJ C) (Only.ite (ownJ_add hr h) (Only.ite (ownJ_add hr h') (Only.ok hr))) fun r hr => ?_
    exact ownJ_nafLoop h h' t r hr
theorem ownJ_mulNN {q : JPt} (h : OwnJ C q) (x : Big) : Only (OwnJ C) (q.mulNN cap x) := by
  have hc : OwnC C q.curve := h
  unfold JPt.mulNN
  refine Only.ite (Only.ok h) (Only.ite (Only.ok (Or.inl rfl)) (Only.next (ownJ_inverted h) fun i hi => ?_))
  refine Only.bind fun c ec => ?_
  dsimp only
  exact Only.bind fun ds _ => ownJ_nafLoop h hi _ _ (ownJ_mk hc ec _ _ _)
theorem ownJ_mul {q : JPt} (h : OwnJ C q) (x : Big) : Only (OwnJ C) (q.mul cap x) := by
  have h1 := ownJ_mulNN (cap := cap) h x
  have h2 := Only.next (ownJ_inverted (cap := cap) h) fun i hi => ownJ_mulNN (cap := cap) hi (Big.negate x)
  unfold JPt.mul
  exact Only.ite (Only.ok h) (Only.ite (Only.ok (Or.inl rfl)) (Only.ite h2 h1))

theorem ownJ_mulAddLoop {t : MulAddTbl JPt} (h1 : OwnJ C t.p) (h2 : OwnJ C t.q) (h3 : OwnJ C t.pneg) (h4 : OwnJ C t.qneg)
    (h5 : OwnJ C t.pnegqneg) (h6 : OwnJ C t.pqneg) (h7 : OwnJ C t.pqnegInv) (h8 : OwnJ C t.pnegqnegInv) :
    ∀ (a b : List (BitVec 8)) (r : JPt), OwnJ C r → Only (OwnJ C) (mulAddLoop (JPt.ops cap) t a b r)
  | [], _, r, hr => by unfold mulAddLoop; exact Only.ok hr
  | _ :: _, [], r, hr => by unfold mulAddLoop; exact Only.ok hr
  | d :: a, e :: b, r, hr => by
    unfold mulAddLoop mulAddStep
    refine Only.next (T := OwnJ C) (Only.next (ownJ_doubled hr) fun r hr => ?_) fun r hr =>
      ownJ_mulAddLoop h1 h2 h3 h4 h5 h6 h7 h8 a b r hr
    exact Only.ite (Only.ite (Only.ok hr) (Only.ite (ownJ_add hr h4) (ownJ_add hr h2)))
      (Only.ite (Only.ite (ownJ_add hr h3) (Only.ite (ownJ_add hr h5) (ownJ_add hr h7)))
        (Only.ite (ownJ_add hr h1) (Only.ite (ownJ_add hr h6) (ownJ_add hr h8))))

theorem ownJ_mulAdd {q r : JPt} (h : OwnJ C q) (h' : OwnJ C r) (x y : Big) : Only (OwnJ C) (mulAddFast cap (JPt.ops cap) x q y r) := by
  unfold mulAddFast
  refine Only.bind fun an _ => Only.bind fun bn _ => ?_
  dsimp only
  refine Only.next (ownJ_inverted h) fun _ h1 => Only.next (ownJ_inverted h') fun _ h2 => Only.next (ownJ_add h1 h2) fun _ h3 => ?_
  refine Only.next (ownJ_add h h2) fun _ h4 => Only.next (ownJ_inverted h4) fun _ h5 => Only.next (ownJ_inverted h3) fun _ h6 => ?_
  exact ownJ_mulAddLoop h h' h1 h2 h3 h4 h5 h6 _ _ _ (Or.inl rfl)

end
end Ack.Mem
