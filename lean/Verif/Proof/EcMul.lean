import Verif.Proof.EcProj
import Verif.Proof.BigBytes
import Verif.Proof.BigNT
/-!
# Scalar multiplication, for any point type that refines a commutative group
-/
namespace Ack
open Big

/-- The operations `o` refine the group `G` through the relation `R`. -/
structure OpsOk {α G : Type} [AddCommGroup G] (o : PointOps α) (R : α → G → Prop) : Prop where
  id : R o.identity 0
  inv : ∀ {a g}, R a g → ∃ r, o.inverted a = .ok r ∧ R r (-g)
  add : ∀ {a b g h}, R a g → R b h → ∃ r, o.add a b = .ok r ∧ R r (g + h)
  dbl : ∀ {a g}, R a g → ∃ r, o.doubled a = .ok r ∧ R r (g + g)

variable {α G : Type} [AddCommGroup G] {o : PointOps α} {R : α → G → Prop}

theorem ladder_spec (H : OpsOk o R) : ∀ (f k : Nat) (r t : α) (s : Big) (g h : G), R r g → R t h → s.Canon → 0 ≤ s.toInt →
    s.toInt < 2 ^ k → k + 1 ≤ f → ∃ c, ladder o.add o.doubled f r t s = .ok c ∧ R c (g + s.toInt • h) := by
  intro f
  induction f with
  | zero => intro k r t s g h _ _ _ _ _ hf; omega
  | succ f ih =>
    intro k r t s g h hr ht hs h0 hk hf
    rw [ladder]
    by_cases hz : s.toInt = 0
    · have : Big.eqS s 0 = true := (eqS_iff hs 0).2 hz
      rw [this]
      exact ⟨r, rfl, by rw [hz, zero_smul, add_zero]; exact hr⟩
    · have hne : Big.eqS s 0 = false := by rw [← Bool.not_eq_true, eqS_iff hs 0]; exact hz
      rw [hne, if_pos (by rfl)]
      have hk0 : k ≠ 0 := by rintro rfl; rw [pow_zero] at hk; omega
      obtain ⟨k, rfl⟩ := Nat.exists_eq_succ_of_ne_zero hk0
      obtain ⟨cs, vs, -⟩ := shr_spec s 1 hs
      rw [Int.tdiv_eq_ediv_of_nonneg h0, pow_one] at vs
      have hr' : ∃ c, (if s.isOdd = true then o.add r t else .ok r) = .ok c ∧ R c (g + (s.toInt % 2) • h) := by
        by_cases ho : s.isOdd = true
        · rw [if_pos ho]; rw [isOdd_iff] at ho; rw [ho, one_smul]; exact H.add hr ht
        · rw [if_neg ho]; rw [isOdd_iff] at ho
          rw [show s.toInt % 2 = 0 by omega, zero_smul, add_zero]; exact ⟨r, rfl, hr⟩
      step r' hr' := hr'
      step t' ht' := H.dbl ht
      obtain ⟨c, e, hc⟩ := ih k r' t' (shr s 1) _ _ hr' ht' cs (by omega) (by rw [vs]; rw [pow_succ] at hk; omega) (by omega)
      refine ⟨c, e, ?_⟩
      rw [vs, add_assoc] at hc
      have e2 : (s.toInt % 2) • h + (s.toInt / 2) • (h + h) = s.toInt • h := by
        rw [← two_zsmul, smul_smul, ← add_smul]; congr 1; omega
      rw [e2] at hc
      exact hc

theorem digitsVal_append (l : List (BitVec 8)) (d : BitVec 8) : digitsVal (l ++ [d]) = digitsVal l + 2 ^ l.length * d.toInt := by
  induction l with
  | nil => simp [digitsVal]
  | cons a l ih => rw [List.cons_append]; simp only [digitsVal, ih, List.length_cons, pow_succ]; ring

theorem digitsVal_rep (l : List (BitVec 8)) (n : Nat) : digitsVal (l ++ List.replicate n 0) = digitsVal l := by
  induction n with
  | zero => simp
  | succ n ih => rw [List.replicate_succ', ← List.append_assoc, digitsVal_append, ih]; simp

/-- Digits of the non-adjacent form, most significant first. -/
theorem toRnaf_spec (cap : Cap) (s : Big) (hs : s.Canon) (h0 : 0 ≤ s.toInt) (hc : cap.fits (s.ws.length + 1) = true) :
    ∃ l, toRnaf cap s = .ok l ∧ digitsVal l.reverse = s.toInt ∧ ∀ d ∈ l, d = 0#8 ∨ d = 1#8 ∨ d = 255#8 := by
  by_cases hn : s.neg = false
  · obtain ⟨l, e, v, na, dg, -, top, len⟩ := nafGo_spec cap s.ws.length hc s.bitLength (s.bitLength + 2) s hs hn le_rfl
      (lt_two_pow_bitLength hs).le le_rfl
    refine ⟨l.reverse, by unfold toRnaf toNaf; rw [e]; rfl, by rw [List.reverse_reverse, v, toInt_of_nonneg hn], ?_⟩
    intro d hd; exact dg d (by simpa using hd)
  · rw [Bool.not_eq_false] at hn
    have hz : s.toInt = 0 := by unfold toInt at h0 ⊢; rw [hn] at h0 ⊢; simp at h0 ⊢; omega
    refine ⟨[], ?_, by rw [hz]; rfl, by simp⟩
    unfold toRnaf toNaf nafGo compareu1; rw [hn]; rfl

/-- A negative scalar has no digits. -/
theorem toRnaf_neg (cap : Cap) (s : Big) (h : s.neg = true) : toRnaf cap s = .ok [] := by
  unfold toRnaf toNaf nafGo compareu1; rw [h]; rfl

theorem mulAddStep_spec (H : OpsOk o R) {t : MulAddTbl α} {g h : G} (hp : R t.p g) (hq : R t.q h) (hpn : R t.pneg (-g))
    (hqn : R t.qneg (-h)) (h1 : R t.pnegqneg (-g + -h)) (h2 : R t.pqneg (g + -h)) (h3 : R t.pqnegInv (-(g + -h)))
    (h4 : R t.pnegqnegInv (-(-g + -h))) {da db : BitVec 8} (ha : da = 0#8 ∨ da = 1#8 ∨ da = 255#8) (hb : db = 0#8 ∨ db = 1#8 ∨ db = 255#8)
    {r : α} {k : G} (hr : R r k) :
    ∃ c, mulAddStep o t da db r = .ok c ∧ R c ((2:ℤ) • k + da.toInt • g + db.toInt • h) := by
  unfold mulAddStep
  step r hr := H.dbl hr
  have fin : ∀ {a : α} {x y : G}, R a x → k + k + x = y → ∃ c, o.add r a = .ok c ∧ R c y := by
    intro a x y hx e; subst e; exact H.add hr hx
  have e0 : (0#8).toInt = 0 := by decide
  have e1 : (1#8).toInt = 1 := by decide
  have e2 : (255#8).toInt = -1 := by decide
  rw [two_zsmul]
  rcases ha with rfl | rfl | rfl <;> rcases hb with rfl | rfl | rfl <;> simp only [e0, e1, e2, zero_smul, one_smul, neg_smul]
  · exact ⟨r, rfl, by rw [add_zero, add_zero]; exact hr⟩
  · exact fin hq (by abel)
  · exact fin hqn (by abel)
  · exact fin hp (by abel)
  · exact fin h4 (by abel)
  · exact fin h2 (by abel)
  · exact fin hpn (by abel)
  · exact fin h3 (by abel)
  · exact fin h1 (by abel)

theorem mulAddLoop_spec (H : OpsOk o R) {t : MulAddTbl α} {g h : G} (hp : R t.p g) (hq : R t.q h) (hpn : R t.pneg (-g))
    (hqn : R t.qneg (-h)) (h1 : R t.pnegqneg (-g + -h)) (h2 : R t.pqneg (g + -h)) (h3 : R t.pqnegInv (-(g + -h)))
    (h4 : R t.pnegqnegInv (-(-g + -h))) : ∀ (as bs : List (BitVec 8)), as.length = bs.length →
    (∀ d ∈ as, d = 0#8 ∨ d = 1#8 ∨ d = 255#8) → (∀ d ∈ bs, d = 0#8 ∨ d = 1#8 ∨ d = 255#8) → ∀ (r : α) (k : G), R r k →
    ∃ c, mulAddLoop o t as bs r = .ok c ∧ R c ((2:ℤ) ^ as.length • k + digitsVal as.reverse • g + digitsVal bs.reverse • h)
  | [], [], _, _, _, r, k, hr => ⟨r, rfl, by simpa [digitsVal] using hr⟩
  | [], _ :: _, hl, _, _, _, _, _ => by simp at hl
  | _ :: _, [], hl, _, _, _, _, _ => by simp at hl
  | da :: as, db :: bs, hl, ha, hb, r, k, hr => by
    rw [mulAddLoop]
    step r hr := mulAddStep_spec H hp hq hpn hqn h1 h2 h3 h4 (ha da (by simp)) (hb db (by simp)) hr
    have hl' : as.length = bs.length := by simpa using hl
    obtain ⟨c, e, hc⟩ := mulAddLoop_spec H hp hq hpn hqn h1 h2 h3 h4 as bs hl' (fun d h => ha d (by simp [h]))
      (fun d h => hb d (by simp [h])) r _ hr
    refine ⟨c, e, ?_⟩
    have : (2:ℤ) ^ as.length • ((2:ℤ) • k + da.toInt • g + db.toInt • h) + digitsVal as.reverse • g + digitsVal bs.reverse • h =
        (2:ℤ) ^ (da :: as).length • k + digitsVal (da :: as).reverse • g + digitsVal (db :: bs).reverse • h := by
      rw [List.reverse_cons, List.reverse_cons, digitsVal_append, digitsVal_append, List.length_reverse, List.length_reverse, hl',
        List.length_cons, hl', pow_succ]
      simp only [smul_add, smul_smul, add_smul]
      abel
    rw [this] at hc
    exact hc

/-- `ec_mul_add_fast` on a pair of digit strings. -/
theorem mulAddFast_digits (H : OpsOk o R) (cap : Cap) {a b : Big} {p q : α} {g h : G} (hp : R p g) (hq : R q h)
    {an bn : List (BitVec 8)} (ea : toRnaf cap a = .ok an) (eb : toRnaf cap b = .ok bn)
    (da : ∀ d ∈ an, d = 0#8 ∨ d = 1#8 ∨ d = 255#8) (db : ∀ d ∈ bn, d = 0#8 ∨ d = 1#8 ∨ d = 255#8) :
    ∃ r, mulAddFast cap o a p b q = .ok r ∧ R r (digitsVal an.reverse • g + digitsVal bn.reverse • h) := by
  unfold mulAddFast
  rw [ea, ok_bind, eb, ok_bind]
  dsimp only
  step pn hpn := H.inv hp
  step qn hqn := H.inv hq
  step t1 h1 := H.add hpn hqn
  step t2 h2 := H.add hp hqn
  step t3 h3 := H.inv h2
  step t4 h4 := H.inv h1
  obtain ⟨c, e, hc⟩ := mulAddLoop_spec H (t := ⟨p, q, pn, qn, t1, t2, t3, t4⟩) hp hq hpn hqn h1 h2 h3 h4
    (List.replicate (bn.length - an.length) 0 ++ an) (List.replicate (an.length - bn.length) 0 ++ bn) (by simp; omega)
    (by intro d hd; rw [List.mem_append] at hd; rcases hd with hd | hd
        · left; simpa using (List.eq_of_mem_replicate hd)
        · exact da d hd)
    (by intro d hd; rw [List.mem_append] at hd; rcases hd with hd | hd
        · left; simpa using (List.eq_of_mem_replicate hd)
        · exact db d hd) o.identity 0 H.id
  refine ⟨c, e, ?_⟩
  rw [List.reverse_append, List.reverse_append, List.reverse_replicate, List.reverse_replicate, digitsVal_rep, digitsVal_rep, smul_zero,
    zero_add] at hc
  exact hc

theorem mulAddFast_spec (H : OpsOk o R) (cap : Cap) {a b : Big} {p q : α} {g h : G} (hp : R p g) (hq : R q h)
    (ca : a.Canon) (cb : b.Canon) (ha : 0 ≤ a.toInt) (hb : 0 ≤ b.toInt) (fa : cap.fits (a.ws.length + 1) = true)
    (fb : cap.fits (b.ws.length + 1) = true) :
    ∃ r, mulAddFast cap o a p b q = .ok r ∧ R r (a.toInt • g + b.toInt • h) := by
  obtain ⟨an, ea, va, da⟩ := toRnaf_spec cap a ca ha fa
  obtain ⟨bn, eb, vb, db⟩ := toRnaf_spec cap b cb hb fb
  rw [← va, ← vb]
  exact mulAddFast_digits H cap hp hq ea eb da db

theorem toRnaf_max (cap : Cap) (s : Big) (hs : s.Canon) (hc : cap.fits (s.ws.length + 1) = true) :
    ∃ l, toRnaf cap s = .ok l ∧ digitsVal l.reverse = max s.toInt 0 ∧ ∀ d ∈ l, d = 0#8 ∨ d = 1#8 ∨ d = 255#8 := by
  by_cases h0 : 0 ≤ s.toInt
  · rw [max_eq_left h0]; exact toRnaf_spec cap s hs h0 hc
  · have hn : s.neg = true := by
      by_contra hn
      rw [Bool.not_eq_true] at hn
      exact h0 (by unfold toInt; rw [hn]; simp)
    exact ⟨[], toRnaf_neg cap s hn, by rw [max_eq_right (by omega)]; rfl, by simp⟩

/-- Negative scalars count as zero. -/
theorem mulAddFast_exact (H : OpsOk o R) (cap : Cap) {a b : Big} {p q : α} {g h : G} (hp : R p g) (hq : R q h)
    (ca : a.Canon) (cb : b.Canon) (fa : cap.fits (a.ws.length + 1) = true) (fb : cap.fits (b.ws.length + 1) = true) :
    ∃ r, mulAddFast cap o a p b q = .ok r ∧ R r (max a.toInt 0 • g + max b.toInt 0 • h) := by
  obtain ⟨an, ea, va, da⟩ := toRnaf_max cap a ca fa
  obtain ⟨bn, eb, vb, db⟩ := toRnaf_max cap b cb fb
  rw [← va, ← vb]
  exact mulAddFast_digits H cap hp hq ea eb da db

/-! ## The three point types -/
section
variable {P : ℕ} [Fact P.Prime] {cap : Cap} {C : Curve}

theorem APt.opsOk (K : CurveOk P cap C) : OpsOk (APt.ops cap) (APt.Rep (P := P) C) :=
  ⟨rfl, APt.inverted_spec K, APt.add_spec K, APt.doubled_spec K⟩
theorem PPt.opsOk (K : CurveOk P cap C) : OpsOk (PPt.ops cap) (PPt.Rep (P := P) C) :=
  ⟨rfl, PPt.inverted_spec K, PPt.add_spec K, PPt.doubled_spec K⟩
theorem JPt.opsOk (K : CurveOk P cap C) (h8 : 8 < P) : OpsOk (JPt.ops cap) (JPt.Rep (P := P) C) :=
  ⟨rfl, JPt.inverted_spec K, JPt.add_spec K h8, JPt.doubled_spec K h8⟩

theorem negate_toInt (s : Big) : (negate s).toInt = -s.toInt := by
  unfold negate toInt; cases s.neg <;> simp
theorem negate_canon {s : Big} (h : s.Canon) : (negate s).Canon := h

theorem APt.mulNN_spec (K : CurveOk P cap C) {q : APt} {Q : C.Pt P} (h : q.Rep C Q) {s : Big} (hs : s.Canon) (h0 : 0 ≤ s.toInt) :
    ∃ r, q.mulNN cap s = .ok r ∧ r.Rep C (s.toInt • Q) := by
  unfold APt.mulNN
  by_cases h1 : (s.isOne || q.isIdentity) = true
  · rw [if_pos h1]
    rw [Bool.or_eq_true, isOne_iff hs, h.zero_iff K] at h1
    rcases h1 with h1 | h1
    · exact ⟨q, rfl, by rw [h1, one_zsmul]; exact h⟩
    · exact ⟨q, rfl, by rw [h1, zsmul_zero]; rw [h1] at h; exact h⟩
  rw [if_neg h1]
  by_cases hz : s.isZero = true
  · rw [if_pos hz]; rw [isZero_iff hs] at hz; exact ⟨_, rfl, by rw [hz, zero_zsmul]; rfl⟩
  rw [if_neg hz]
  have hb : s.toInt < 2 ^ s.bitLength := by
    have := lt_two_pow_bitLength hs
    have e : s.toInt ≤ val s.ws := by unfold toInt; split <;> omega
    exact_mod_cast lt_of_le_of_lt e (by exact_mod_cast this)
  obtain ⟨c, e, hc⟩ := ladder_spec (APt.opsOk K) (s.bitLength + 1) s.bitLength APt.identity q s 0 Q rfl h hs h0 hb le_rfl
  exact ⟨c, e, by rw [zero_add] at hc; exact hc⟩

theorem APt.mul_spec (K : CurveOk P cap C) {q : APt} {Q : C.Pt P} (h : q.Rep C Q) {s : Big} (hs : s.Canon) :
    ∃ r, q.mul cap s = .ok r ∧ r.Rep C (s.toInt • Q) := by
  unfold APt.mul
  by_cases h1 : (s.isOne || q.isIdentity) = true
  · rw [if_pos h1]
    rw [Bool.or_eq_true, isOne_iff hs, h.zero_iff K] at h1
    rcases h1 with h1 | h1
    · exact ⟨q, rfl, by rw [h1, one_zsmul]; exact h⟩
    · exact ⟨q, rfl, by rw [h1, zsmul_zero]; rw [h1] at h; exact h⟩
  rw [if_neg h1]
  by_cases hz : s.isZero = true
  · rw [if_pos hz]; rw [isZero_iff hs] at hz; exact ⟨_, rfl, by rw [hz, zero_zsmul]; rfl⟩
  rw [if_neg hz]
  by_cases hn : ltS s 0 = true
  · rw [if_pos hn]
    rw [ltS_iff hs, show (0 : BitVec 32).toInt = 0 by decide] at hn
    step i hi := APt.inverted_spec K h
    obtain ⟨r, e, hr⟩ := APt.mulNN_spec K hi (negate_canon hs) (by rw [negate_toInt]; omega)
    exact ⟨r, e, by rw [negate_toInt, zsmul_neg, neg_zsmul, neg_neg] at hr; exact hr⟩
  · rw [if_neg hn]
    rw [ltS_iff hs, show (0 : BitVec 32).toInt = 0 by decide] at hn
    exact APt.mulNN_spec K h hs (by omega)

theorem PPt.mulNN_spec (K : CurveOk P cap C) {q : PPt} {Q : C.Pt P} (h : q.Rep C Q) {s : Big} (hs : s.Canon) (h0 : 0 ≤ s.toInt) :
    ∃ r, q.mulNN cap s = .ok r ∧ r.Rep C (s.toInt • Q) := by
  unfold PPt.mulNN
  by_cases h1 : (s.isOne || q.isIdentity) = true
  · rw [if_pos h1]
    rw [Bool.or_eq_true, isOne_iff hs, h.zero_iff K] at h1
    rcases h1 with h1 | h1
    · exact ⟨q, rfl, by rw [h1, one_zsmul]; exact h⟩
    · exact ⟨q, rfl, by rw [h1, zsmul_zero]; rw [h1] at h; exact h⟩
  rw [if_neg h1]
  by_cases hz : s.isZero = true
  · rw [if_pos hz]; rw [isZero_iff hs] at hz; exact ⟨_, rfl, by rw [hz, zero_zsmul]; rfl⟩
  rw [if_neg hz]
  have hb : s.toInt < 2 ^ s.bitLength := by
    have := lt_two_pow_bitLength hs
    have e : s.toInt ≤ val s.ws := by unfold toInt; split <;> omega
    exact_mod_cast lt_of_le_of_lt e (by exact_mod_cast this)
  obtain ⟨c, e, hc⟩ := ladder_spec (PPt.opsOk K) (s.bitLength + 1) s.bitLength PPt.identity q s 0 Q rfl h hs h0 hb le_rfl
  exact ⟨c, e, by rw [zero_add] at hc; exact hc⟩

theorem PPt.mul_spec (K : CurveOk P cap C) {q : PPt} {Q : C.Pt P} (h : q.Rep C Q) {s : Big} (hs : s.Canon) :
    ∃ r, q.mul cap s = .ok r ∧ r.Rep C (s.toInt • Q) := by
  unfold PPt.mul
  by_cases h1 : (s.isOne || q.isIdentity) = true
  · rw [if_pos h1]
    rw [Bool.or_eq_true, isOne_iff hs, h.zero_iff K] at h1
    rcases h1 with h1 | h1
    · exact ⟨q, rfl, by rw [h1, one_zsmul]; exact h⟩
    · exact ⟨q, rfl, by rw [h1, zsmul_zero]; rw [h1] at h; exact h⟩
  rw [if_neg h1]
  by_cases hz : s.isZero = true
  · rw [if_pos hz]; rw [isZero_iff hs] at hz; exact ⟨_, rfl, by rw [hz, zero_zsmul]; rfl⟩
  rw [if_neg hz]
  by_cases hn : ltS s 0 = true
  · rw [if_pos hn]
    rw [ltS_iff hs, show (0 : BitVec 32).toInt = 0 by decide] at hn
    step i hi := PPt.inverted_spec K h
    obtain ⟨r, e, hr⟩ := PPt.mulNN_spec K hi (negate_canon hs) (by rw [negate_toInt]; omega)
    exact ⟨r, e, by rw [negate_toInt, zsmul_neg, neg_zsmul, neg_neg] at hr; exact hr⟩
  · rw [if_neg hn]
    rw [ltS_iff hs, show (0 : BitVec 32).toInt = 0 by decide] at hn
    exact PPt.mulNN_spec K h hs (by omega)

theorem JPt.nafLoop_spec (K : CurveOk P cap C) (h8 : 8 < P) {p pn : JPt} {g : C.Pt P} (hp : p.Rep C g) (hpn : pn.Rep C (-g)) :
    ∀ (as : List (BitVec 8)), (∀ d ∈ as, d = 0#8 ∨ d = 1#8 ∨ d = 255#8) → ∀ (r : JPt) (k : C.Pt P), r.Rep C k →
    ∃ c, JPt.nafLoop cap p pn as r = .ok c ∧ c.Rep C ((2:ℤ) ^ as.length • k + digitsVal as.reverse • g)
  | [], _, r, k, hr => ⟨r, rfl, by simpa [digitsVal] using hr⟩
  | d :: as, ha, r, k, hr => by
    rw [nafLoop]
    step r hr := JPt.doubled_spec K h8 hr
    have e0 : (0#8).toInt = 0 := by decide
    have e1 : (1#8).toInt = 1 := by decide
    have e2 : (255#8).toInt = -1 := by decide
    have hr' : ∃ c, (if d.toInt > 0 then add cap r p else if d.toInt < 0 then add cap r pn else .ok r) = .ok c ∧
        c.Rep C ((2:ℤ) • k + d.toInt • g) := by
      rcases ha d (by simp) with rfl | rfl | rfl
      · rw [e0, if_neg (by omega), if_neg (by omega), zero_zsmul, add_zero, two_zsmul]; exact ⟨r, rfl, hr⟩
      · rw [e1, if_pos (by omega), one_zsmul, two_zsmul]; exact JPt.add_spec K h8 hr hp
      · rw [e2, if_neg (by omega), if_pos (by omega), neg_zsmul, one_zsmul, two_zsmul]; exact JPt.add_spec K h8 hr hpn
    step r hr := hr'
    obtain ⟨c, e, hc⟩ := JPt.nafLoop_spec K h8 hp hpn as (fun d h => ha d (by simp [h])) r _ hr
    refine ⟨c, e, ?_⟩
    have : (2:ℤ) ^ as.length • ((2:ℤ) • k + d.toInt • g) + digitsVal as.reverse • g =
        (2:ℤ) ^ (d :: as).length • k + digitsVal (d :: as).reverse • g := by
      rw [List.reverse_cons, digitsVal_append, List.length_reverse, List.length_cons, pow_succ]
      rw [zsmul_add, add_zsmul, ← mul_zsmul, ← mul_zsmul]
      abel
    rw [this] at hc
    exact hc

theorem JPt.mulNN_spec (K : CurveOk P cap C) (h8 : 8 < P) {q : JPt} {Q : C.Pt P} (h : q.Rep C Q) {s : Big} (hs : s.Canon) (h0 : 0 ≤ s.toInt)
    (fs : cap.fits (s.ws.length + 1) = true) :
    ∃ r, q.mulNN cap s = .ok r ∧ r.Rep C (s.toInt • Q) := by
  unfold JPt.mulNN
  by_cases h1 : (s.isOne || q.isIdentity) = true
  · rw [if_pos h1]
    rw [Bool.or_eq_true, isOne_iff hs, h.zero_iff K] at h1
    rcases h1 with h1 | h1
    · exact ⟨q, rfl, by rw [h1, one_zsmul]; exact h⟩
    · exact ⟨q, rfl, by rw [h1, zsmul_zero]; rw [h1] at h; exact h⟩
  rw [if_neg h1]
  by_cases hz : s.isZero = true
  · rw [if_pos hz]; rw [isZero_iff hs] at hz; exact ⟨_, rfl, by rw [hz, zero_zsmul]; rfl⟩
  rw [if_neg hz]
  step qn hqn := JPt.inverted_spec K h
  have hqc : q.curve = some C := by
    cases Q with
    | zero => rw [show q.isIdentity = true from h] at h1; simp at h1
    | some x y hn => exact h.1
  rw [hqc, curveOf_some, ok_bind]
  dsimp only
  obtain ⟨l, e, v, dg⟩ := toRnaf_spec cap s hs h0 fs
  rw [e, ok_bind]
  have hne : l ≠ [] := by
    rintro rfl
    rw [isZero_iff hs] at hz
    exact hz (by rw [← v]; rfl)
  have same : JPt.nafLoop cap q qn l ⟨some C, ⟨ofInt32 0, some C.p⟩, ⟨ofInt32 0, some C.p⟩, ⟨ofInt32 1, some C.p⟩⟩ =
      JPt.nafLoop cap q qn l JPt.identity := by
    cases l with
    | nil => exact absurd rfl hne
    | cons d l => rfl
  rw [same]
  obtain ⟨c, e, hc⟩ := JPt.nafLoop_spec K h8 h hqn l dg JPt.identity 0 rfl
  exact ⟨c, e, by rw [zsmul_zero, zero_add, v] at hc; exact hc⟩

theorem JPt.mul_spec (K : CurveOk P cap C) (h8 : 8 < P) {q : JPt} {Q : C.Pt P} (h : q.Rep C Q) {s : Big} (hs : s.Canon)
    (fs : cap.fits (s.ws.length + 1) = true) :
    ∃ r, q.mul cap s = .ok r ∧ r.Rep C (s.toInt • Q) := by
  unfold JPt.mul
  by_cases h1 : (s.isOne || q.isIdentity) = true
  · rw [if_pos h1]
    rw [Bool.or_eq_true, isOne_iff hs, h.zero_iff K] at h1
    rcases h1 with h1 | h1
    · exact ⟨q, rfl, by rw [h1, one_zsmul]; exact h⟩
    · exact ⟨q, rfl, by rw [h1, zsmul_zero]; rw [h1] at h; exact h⟩
  rw [if_neg h1]
  by_cases hz : s.isZero = true
  · rw [if_pos hz]; rw [isZero_iff hs] at hz; exact ⟨_, rfl, by rw [hz, zero_zsmul]; rfl⟩
  rw [if_neg hz]
  by_cases hn : ltS s 0 = true
  · rw [if_pos hn]
    rw [ltS_iff hs, show (0 : BitVec 32).toInt = 0 by decide] at hn
    step i hi := JPt.inverted_spec K h
    obtain ⟨r, e, hr⟩ := JPt.mulNN_spec K h8 hi (negate_canon hs) (by rw [negate_toInt]; omega) fs
    exact ⟨r, e, by rw [negate_toInt, zsmul_neg, neg_zsmul, neg_neg] at hr; exact hr⟩
  · rw [if_neg hn]
    rw [ltS_iff hs, show (0 : BitVec 32).toInt = 0 by decide] at hn
    exact JPt.mulNN_spec K h8 h hs (by omega) fs

theorem APt.sub_spec (K : CurveOk P cap C) {p q : APt} {A B : C.Pt P} (hp : p.Rep C A) (hq : q.Rep C B) :
    ∃ r, p.sub cap q = .ok r ∧ r.Rep C (A - B) := by
  unfold APt.sub
  step n hn := APt.inverted_spec K hq
  rw [sub_eq_add_neg]; exact APt.add_spec K hp hn
theorem PPt.sub_spec (K : CurveOk P cap C) {p q : PPt} {A B : C.Pt P} (hp : p.Rep C A) (hq : q.Rep C B) :
    ∃ r, p.sub cap q = .ok r ∧ r.Rep C (A - B) := by
  unfold PPt.sub
  step n hn := PPt.inverted_spec K hq
  rw [sub_eq_add_neg]; exact PPt.add_spec K hp hn
theorem JPt.sub_spec (K : CurveOk P cap C) (h8 : 8 < P) {p q : JPt} {A B : C.Pt P} (hp : p.Rep C A) (hq : q.Rep C B) :
    ∃ r, p.sub cap q = .ok r ∧ r.Rep C (A - B) := by
  unfold JPt.sub
  step n hn := JPt.inverted_spec K hq
  rw [sub_eq_add_neg]; exact JPt.add_spec K h8 hp hn

end
end Ack
