import Verif.Proof.BigNative
import Mathlib.Data.Int.ModEq
/-! # Powers -/
namespace Ack
namespace Big

/-- Result of a computation that either gives up (`bad none`: returns false; `bad (some e)`: ends with `e`) or delivers
a representative of the `n`-th power. -/
def Pw (P : Big → Nat → Prop) (bad : Option Err → Prop) (r : Res (Option Big)) (n : Nat) : Prop :=
  (r = .ok none ∧ bad none) ∨ (∃ e, r = .error e ∧ bad (some e)) ∨ ∃ z, r = .ok (some z) ∧ P z n

theorem obind_none {α β : Type} (f : α → Res (Option β)) : obind (.ok none) f = .ok none := rfl
theorem obind_some {α β : Type} (a : α) (f : α → Res (Option β)) : obind (.ok (some a)) f = f a := rfl

theorem obind_error {α β : Type} (e : Err) (f : α → Res (Option β)) : obind (.error e) f = .error e := rfl

theorem window (v : Word) (k : Nat) : ((v >>> (k * 4)) &&& 15).toNat = v.toNat / 16^k % 16 := by
  rw [BitVec.toNat_and, BitVec.toNat_ushiftRight, Nat.shiftRight_eq_div_pow]
  have : (15 : BitVec 32).toNat = 2^4 - 1 := by decide
  rw [this, Nat.and_two_pow_sub_one_eq_mod, show (16:Nat) = 2^4 by norm_num, ← pow_mul, mul_comm 4 k]

section
variable {P : Big → Nat → Prop} {bad : Option Err → Prop} {mul : Big → Big → Res (Option Big)} {sqr : Big → Res (Option Big)}

theorem Pw.bind {r : Res (Option Big)} {n m : Nat} {f : Big → Res (Option Big)} (h : Pw P bad r n)
    (hf : ∀ z, P z n → Pw P bad (f z) m) : Pw P bad (obind r f) m := by
  rcases h with ⟨rfl, hb⟩ | ⟨e, rfl, hb⟩ | ⟨z, rfl, hz⟩
  · exact Or.inl ⟨rfl, hb⟩
  · exact Or.inr (Or.inl ⟨e, rfl, hb⟩)
  · exact hf z hz

variable (hmul : ∀ a b i j, P a i → P b j → Pw P bad (mul a b) (i + j))
  (hsqr : ∀ a i, P a i → Pw P bad (sqr a) (i + i))
include hmul hsqr

omit hmul in
theorem sqrN_spec : ∀ (k : Nat) (z : Big) (n : Nat), P z n → Pw P bad (sqrN sqr k z) (n * 2^k)
  | 0, z, n, h => Or.inr <| Or.inr ⟨z, rfl, by simpa using h⟩
  | k+1, z, n, h => by
    rw [sqrN]
    refine (hsqr z n h).bind fun z' hz' => ?_
    have := sqrN_spec k z' _ hz'
    rwa [show (n + n) * 2^k = n * 2^(k+1) by ring] at this

omit hsqr in
theorem powTblGo_spec (x : Big) (hx : P x 1) : ∀ (k i : Nat) (t : Big), P t i →
    (powTblGo mul x k t = .ok none ∧ bad none) ∨ (∃ e, powTblGo mul x k t = .error e ∧ bad (some e)) ∨
    ∃ l, powTblGo mul x k t = .ok (some l) ∧ l.length = k + 1 ∧ ∀ j (h : j < l.length), P l[j] (i + j)
  | 0, i, t, h => by
    refine Or.inr <| Or.inr ⟨[t], rfl, rfl, ?_⟩
    intro j hj
    have : j = 0 := by simpa using hj
    subst this; simpa using h
  | k+1, i, t, h => by
    rw [powTblGo]
    rcases hmul t x i 1 h hx with ⟨e, hb⟩ | ⟨er, e, hb⟩ | ⟨t', e, ht'⟩
    · rw [e]; exact Or.inl ⟨rfl, hb⟩
    · rw [e]; exact Or.inr <| Or.inl ⟨er, rfl, hb⟩
    · rw [e, obind_some]
      rcases powTblGo_spec x hx k (i+1) t' ht' with ⟨e2, hb⟩ | ⟨er, e2, hb⟩ | ⟨l, e2, hl, hp⟩
      · rw [e2]; exact Or.inl ⟨rfl, hb⟩
      · rw [e2]; exact Or.inr <| Or.inl ⟨er, rfl, hb⟩
      · rw [e2, obind_some]
        refine Or.inr <| Or.inr ⟨t :: l, rfl, by simp [hl], ?_⟩
        intro j hj
        cases j with
        | zero => simpa using h
        | succ j =>
          have := hp j (by simpa using hj)
          simpa [Nat.add_assoc, Nat.add_comm 1 j] using this

theorem powWord_spec (tbl : List Big) (hl : tbl.length = 15) (ht : ∀ j (h : j < tbl.length), P tbl[j] (1 + j)) (v : Word) :
    ∀ (k n : Nat) (z : Big), P z n → Pw P bad (powWord mul sqr tbl v k z) (n * 16^k + v.toNat % 16^k)
  | 0, n, z, h => Or.inr <| Or.inr ⟨z, rfl, by simpa [Nat.mod_one] using h⟩
  | k+1, n, z, h => by
    rw [powWord]
    refine (sqrN_spec hsqr 4 z n h).bind fun z' hz' => ?_
    simp only [window]
    have hidx : v.toNat / 16^k % 16 < 16 := Nat.mod_lt _ (by norm_num)
    have hexp : (n * 2^4 + v.toNat / 16^k % 16) * 16^k + v.toNat % 16^k = n * 16^(k+1) + v.toNat % 16^(k+1) := by
      rw [pow_succ 16 k, Nat.mod_mul]; ring
    rw [← hexp]
    split
    · rename_i h0
      have hlt : v.toNat / 16^k % 16 - 1 < tbl.length := by omega
      have hg : tbl.getD (v.toNat / 16^k % 16 - 1) zero = tbl[v.toNat / 16^k % 16 - 1] := by
        rw [List.getD_eq_getElem?_getD, List.getElem?_eq_getElem hlt]; rfl
      rw [hg]
      have := hmul z' _ _ _ hz' (ht _ hlt)
      refine this.bind fun z'' hz'' => ?_
      rw [show n * 2^4 + (1 + (v.toNat / 16^k % 16 - 1)) = n * 2^4 + v.toNat / 16^k % 16 by omega] at hz''
      exact powWord_spec tbl hl ht v k _ z'' hz''
    · rename_i h0
      have h0' : v.toNat / 16^k % 16 = 0 := by omega
      rw [h0', add_zero]
      exact powWord_spec tbl hl ht v k _ z' hz'

theorem powWords_spec (tbl : List Big) (hl : tbl.length = 15) (ht : ∀ j (h : j < tbl.length), P tbl[j] (1 + j)) :
    ∀ (vs : List Word) (n : Nat) (z : Big), P z n → Pw P bad (powWords mul sqr tbl vs z) (n * B vs.length + val vs.reverse)
  | [], n, z, h => Or.inr <| Or.inr ⟨z, rfl, by simpa using h⟩
  | v :: vs, n, z, h => by
    rw [powWords]
    refine (powWord_spec hmul hsqr tbl hl ht v 8 n z h).bind fun z' hz' => ?_
    have e16 : (16:Nat)^8 = 4294967296 := by norm_num
    rw [e16, Nat.mod_eq_of_lt v.isLt] at hz'
    have := powWords_spec tbl hl ht vs _ z' hz'
    rw [List.reverse_cons, val_append, val_singleton, List.length_reverse, List.length_cons, B_succ]
    rwa [show (n * 4294967296 + v.toNat) * B vs.length + val vs.reverse =
      n * (4294967296 * B vs.length) + (val vs.reverse + B vs.length * v.toNat) by ring] at this

theorem powGo_spec (x : Big) (y : List Word) (hy : y ≠ []) (hx : P x 1) (h1 : P (ofInt32 1) 0) :
    Pw P bad (powGo mul sqr x y) (val y) := by
  have hv1 : getRealSize y = 1 → val y = (y.headD 0).toNat := by
    intro h
    have := getRealSize_val y
    rw [h] at this
    rw [← this]
    cases y with
    | nil => exact absurd rfl hy
    | cons w t => simp
  unfold powGo
  simp only
  split
  · rename_i h; rw [hv1 h.1, h.2]; exact Or.inr <| Or.inr ⟨_, rfl, h1⟩
  split
  · rename_i h; rw [hv1 h.1, h.2]; exact Or.inr <| Or.inr ⟨_, rfl, hx⟩
  split
  · rename_i h; rw [hv1 h.1, h.2]; exact hsqr x 1 hx
  split
  · rename_i h; rw [hv1 h.1, h.2]
    exact (hsqr x 1 hx).bind fun z hz => hmul z x 2 1 hz hx
  split
  · rename_i h; rw [hv1 h.1, h.2]
    exact (hsqr x 1 hx).bind fun z hz => hsqr z 2 hz
  · rcases powTblGo_spec hmul x hx 14 1 x hx with ⟨e, hb⟩ | ⟨er, e, hb⟩ | ⟨tbl, e, hl, hp⟩
    · unfold powTbl; rw [e]; exact Or.inl ⟨rfl, hb⟩
    · unfold powTbl; rw [e]; exact Or.inr <| Or.inl ⟨er, rfl, hb⟩
    · unfold powTbl; rw [e, obind_some]
      have := powWords_spec hmul hsqr tbl hl hp (y.take (getRealSize y)).reverse 0 _ h1
      rw [List.reverse_reverse, getRealSize_val, zero_mul, zero_add] at this
      exact this

end

theorem one_toInt : (ofInt32 1).toInt = 1 := by decide
theorem one_canon : (ofInt32 1).Canon := by decide

theorem one_fits {cap : Cap} {x : Big} (hx : x.Canon) (fx : Fits cap x) {b : Big} (hb : b.ws.length = 1) : Fits cap b := by
  intro N hN
  have := fx N hN
  have := List.length_pos_iff.2 hx.1
  omega

/-- `pow`: the exact power, or no result (only on a fixed capacity). -/
theorem pow?_spec (cap : Cap) (x y : Big) (hx : x.Canon) (hy : y.Canon) (fx : Fits cap x) (hn : y.neg = false) :
    (pow? cap x y = .ok none ∧ cap ≠ none) ∨
    ∃ z, pow? cap x y = .ok (some z) ∧ z.Canon ∧ Fits cap z ∧ z.toInt = x.toInt ^ (val y.ws) := by
  let P : Big → Nat → Prop := fun z n => z.Canon ∧ Fits cap z ∧ z.toInt = x.toInt ^ n
  have hmul : ∀ a b i j, P a i → P b j → Pw P (fun o => o = none ∧ cap ≠ none) (.ok (mul? cap a b)) (i + j) := by
    intro a b i j ⟨ca, fa, va⟩ ⟨cb, fb, vb⟩
    rcases mul?_spec cap a b ca cb with ⟨z, e, cz, fz, vz, -⟩ | ⟨e, hf⟩
    · rw [e]; exact Or.inr <| Or.inr ⟨z, rfl, cz, fz, by rw [vz, va, vb, pow_add]⟩
    · rw [e]; refine Or.inl ⟨rfl, rfl, ?_⟩
      rintro rfl; simp [Cap.fits] at hf
  have := powGo_spec (P := P) (bad := fun o => o = none ∧ cap ≠ none) (mul := fun a b => .ok (mul? cap a b)) (sqr := fun a => .ok (sqr? cap a))
    hmul (fun a i ha => hmul a a i i ha ha) x y.ws hy.1 ⟨hx, fx, by simp⟩ ⟨one_canon, one_fits hx fx rfl, by rw [one_toInt, pow_zero]⟩
  unfold pow?
  rw [hn]
  rcases this with ⟨h, -, hb⟩ | ⟨e, -, h, -⟩ | h
  · exact Or.inl ⟨h, hb⟩
  · exact absurd h (by simp)
  · exact Or.inr h

/-- `modexp` for a non-negative base: the least residue of the power for exponents of two and more. -/
theorem modexpGo_spec (cap : Cap) (x m : Big) (ys : List Word) (hx : x.Canon) (hm : m.Canon) (fx : Fits cap x)
    (hys : ys ≠ []) (hx0 : 0 ≤ x.toInt) (hm0 : m.toInt ≠ 0) :
    Pw (fun z n => z.Canon ∧ Fits cap z ∧ z.toInt ≡ x.toInt ^ n [ZMOD m.toInt] ∧ 0 ≤ z.toInt ∧
        (n = 0 → z.toInt = 1 ∨ z.toInt < |m.toInt|) ∧ (2 ≤ n → z.toInt < |m.toInt|) ∧
        z.ws.length ≤ max x.ws.length m.ws.length)
      (fun o => o = none ∧ cap.fits (2 * max x.ws.length m.ws.length) = false) (powGo (modMul cap m) (modSqr cap m) x ys) (val ys) := by
  set K := max x.ws.length m.ws.length with hK
  let P : Big → Nat → Prop := fun z n => z.Canon ∧ Fits cap z ∧ z.toInt ≡ x.toInt ^ n [ZMOD m.toInt] ∧ 0 ≤ z.toInt ∧
        (n = 0 → z.toInt = 1 ∨ z.toInt < |m.toInt|) ∧ (2 ≤ n → z.toInt < |m.toInt|) ∧ z.ws.length ≤ K
  have hmul : ∀ a b i j, P a i → P b j → Pw P (fun o => o = none ∧ cap.fits (2 * K) = false) (modMul cap m a b) (i + j) := by
    rintro a b i j ⟨ca, fa, va, pa, -, -, la⟩ ⟨cb, fb, vb, pb, -, -, lb⟩
    unfold modMul
    rcases mul?_spec cap a b ca cb with ⟨z, e, cz, fz, vz, -, -⟩ | ⟨e, hf⟩
    · rw [e]
      simp only
      obtain ⟨q, r, e2, cq, cr, fq, fr, vq, vr, -⟩ := divMod?_spec cap z m cz hm fz hm0
      rw [e2]
      have hz0 : 0 ≤ z.toInt := by rw [vz]; exact mul_nonneg pa pb
      have hrem : r.toInt = z.toInt % m.toInt := by rw [vr, Int.tmod_eq_emod_of_nonneg hz0]
      have hlt : r.toInt < |m.toInt| := by rw [hrem]; exact Int.emod_lt_abs _ hm0
      have hge : 0 ≤ r.toInt := by rw [hrem]; exact Int.emod_nonneg _ hm0
      refine Or.inr <| Or.inr ⟨r, rfl, cr, fr, ?_, hge, fun _ => Or.inr hlt, fun _ => hlt, ?_⟩
      · rw [hrem, vz, pow_add]
        exact (Int.mod_modEq _ _).trans (va.mul vb)
      · have : val r.ws ≤ val m.ws := by
          have h1 : |m.toInt| = val m.ws := by unfold toInt; cases m.neg <;> simp
          have h2 : |r.toInt| = val r.ws := by unfold toInt; cases r.neg <;> simp
          rw [abs_of_nonneg hge] at h2
          omega
        have := cr.w.length_le hm.1 this
        omega
    · rw [e]; refine Or.inl ⟨rfl, rfl, ?_⟩
      by_contra hcon
      rw [Bool.not_eq_false] at hcon
      have := fits_mono hcon (n := a.ws.length + b.ws.length) (by omega)
      rw [hf] at this; exact absurd this (by simp)
  have hp := List.length_pos_iff.2 hx.1
  exact powGo_spec (P := P) hmul (fun a i ha => hmul a a i i ha ha) x ys hys
    ⟨hx, fx, by simp [Int.ModEq.refl], hx0, by omega, by omega, by omega⟩
    ⟨one_canon, one_fits hx fx rfl, by rw [one_toInt, pow_zero], by rw [one_toInt]; decide,
      fun _ => Or.inl one_toInt, by omega, by show 1 ≤ K; omega⟩

end Big
end Ack
