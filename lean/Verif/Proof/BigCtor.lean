import Verif.Model.BigintOps
import Verif.Proof.BigNT
/-! # Constructors and canonical form of every result -/
namespace Ack
namespace Big

theorem ofInt32_toInt (x : BitVec 32) : (ofInt32 x).toInt = x.toInt := by
  show (⟨decide (x.toInt < 0), [cabs32 x]⟩ : Big).toInt = _
  rw [toInt_mk, val_singleton]; exact signed_cabs x

theorem ofWord_toInt (x : Word) : (ofWord x).toInt = x.toNat := by
  show (⟨false, [x]⟩ : Big).toInt = _
  rw [toInt_mk, val_singleton]; rfl

theorem ofU64_spec (cap : Cap) (x : BitVec 64) (h : cap.fits 2 = true) :
    ∃ z, ofU64 cap x = .ok z ∧ z.Canon ∧ Fits cap z ∧ z.neg = false ∧ z.toInt = x.toNat := by
  have hx := x.isLt
  set w0 : Word := x.setWidth 32 with hw0
  set w1 : Word := (x >>> 32).setWidth 32 with hw1
  have h0 : w0.toNat = x.toNat % 4294967296 := by rw [hw0, BitVec.toNat_setWidth]
  have h1 : w1.toNat = x.toNat / 4294967296 := by
    rw [hw1, BitVec.toNat_setWidth, BitVec.toNat_ushiftRight, Nat.shiftRight_eq_div_pow]
    apply Nat.mod_eq_of_lt; omega
  have e : ofU64 cap x = .ok (if w1 ≠ 0 then trim false [w0, w1] else trim false [w0]) := by
    unfold ofU64 check; rw [h]; rfl
  have key : ∀ l : List Word, l ≠ [] → l.length ≤ 2 → val l = x.toNat →
      (trim false l).Canon ∧ Fits cap (trim false l) ∧ (trim false l).neg = false ∧ (trim false l).toInt = x.toNat := by
    intro l hl hll hv
    refine ⟨trim_canon _ _ hl, ?_, ?_, ?_⟩
    · intro N hN
      have := fits_iff.1 h N hN
      have := trim_length_le false _ hl
      omega
    · rw [trim_neg _ _ hl]; rfl
    · rw [trim_toInt _ _ hl, hv]; rfl
  refine ⟨_, e, ?_⟩
  split
  · exact key _ (by simp) (by simp) (by simp only [val_cons, val_nil]; omega)
  · rename_i hz
    have hz' : w1.toNat = 0 := by
      rw [ne_eq, not_not] at hz; rw [hz]; rfl
    exact key _ (by simp) (by simp) (by simp only [val_cons, val_nil]; omega)

theorem ofU64_small (cap : Cap) (x : BitVec 64) (h : cap.fits 2 = false) : ofU64 cap x = .error .abort := by
  unfold ofU64 check; rw [h]; rfl

theorem ofInt64_spec (cap : Cap) (x : BitVec 64) (h : cap.fits 2 = true) :
    ∃ z, ofInt64 cap x = .ok z ∧ z.Canon ∧ Fits cap z ∧ z.toInt = x.toInt ∧ z.neg = decide (x.toInt < 0) := by
  obtain ⟨z, e, cz, fz, nz, vz⟩ := ofU64_spec cap (cabs64 x) h
  refine ⟨⟨decide (x.toInt < 0), z.ws⟩, ?_, cz, fz, ?_, rfl⟩
  · unfold ofInt64; rw [e]; rfl
  · rw [toInt_mk]
    rw [toInt_of_nonneg nz] at vz
    have hv : ((val z.ws : Nat) : Int) = |x.toInt| := by rw [vz]; exact cabs64_toNat x
    rw [hv]
    by_cases hx : x.toInt < 0
    · simp [hx, abs_of_neg hx]
    · simp [hx, abs_of_nonneg (not_lt.1 hx)]

theorem ofInt64_small (cap : Cap) (x : BitVec 64) (h : cap.fits 2 = false) : ofInt64 cap x = .error .abort := by
  unfold ofInt64; rw [ofU64_small cap _ h]; rfl

/-- `div` and `mod` never give anything but a result or an abort. -/
theorem divMod?_cases (cap : Cap) (x y : Big) (hx : x.Canon) (hy : y.Canon) (fx : Fits cap x) :
    divMod? cap x y = .error .abort ∨ ∃ q r, divMod? cap x y = .ok (some (q, r)) ∧ q.Canon ∧ r.Canon ∧ Fits cap q ∧ Fits cap r := by
  by_cases h : y.toInt = 0
  · exact Or.inl (divMod?_zero cap x y hx hy fx h)
  · obtain ⟨q, r, e, cq, cr, fq, fr, -⟩ := divMod?_spec cap x y hx hy fx h
    exact Or.inr ⟨q, r, e, cq, cr, fq, fr⟩

theorem mul_canon (cap : Cap) (x y d : Big) (hx : x.Canon) (hy : y.Canon) (hd : d.Canon) (fd : Fits cap d) :
    ((mul? cap x y).getD d).Canon ∧ Fits cap ((mul? cap x y).getD d) := by
  rcases mul?_spec cap x y hx hy with ⟨z, e, cz, fz, -⟩ | ⟨e, -⟩
  · rw [e]; exact ⟨cz, fz⟩
  · rw [e]; exact ⟨hd, fd⟩

theorem zero_canon : zero.Canon := by decide

theorem zero_fits {cap : Cap} {x : Big} (hx : x.Canon) (fx : Fits cap x) : Fits cap zero := one_fits hx fx rfl

theorem powGo_canon (cap : Cap) (mul : Big → Big → Res (Option Big)) (x : Big) (ys : List Word) (hys : ys ≠ [])
    (hx : x.Canon) (fx : Fits cap x)
    (hmul : ∀ a b, a.Canon → b.Canon → Fits cap a → Fits cap b → ∀ z, mul a b = .ok (some z) → z.Canon ∧ Fits cap z) (z : Big)
    (h : powGo mul (fun a => mul a a) x ys = .ok (some z)) : z.Canon ∧ Fits cap z := by
  have hm : ∀ a b i j, (a.Canon ∧ Fits cap a) → (b.Canon ∧ Fits cap b) →
      Pw (fun z _ => z.Canon ∧ Fits cap z) (fun _ => True) (mul a b) (i + j) := by
    rintro a b i j ⟨ca, fa⟩ ⟨cb, fb⟩
    match hr : mul a b with
    | .ok none => exact Or.inl ⟨rfl, trivial⟩
    | .error e => exact Or.inr <| Or.inl ⟨e, rfl, trivial⟩
    | .ok (some z) => exact Or.inr <| Or.inr ⟨z, rfl, hmul a b ca cb fa fb z hr⟩
  have := powGo_spec (P := fun z _ => z.Canon ∧ Fits cap z) (bad := fun _ => True) (mul := mul) (sqr := fun a => mul a a)
    hm (fun a i ha => hm a a i i ha ha) x ys hys ⟨hx, fx⟩ ⟨one_canon, one_fits hx fx rfl⟩
  rcases this with ⟨e, -⟩ | ⟨er, e, -⟩ | ⟨z', e, c⟩
  · rw [h] at e; cases e
  · rw [h] at e; cases e
  · rw [h] at e; cases e; exact c

theorem pow_canon (cap : Cap) (x y : Big) (hx : x.Canon) (hy : y.Canon) (fx : Fits cap x) (z : Big)
    (h : pow cap x y = .ok z) : z.Canon ∧ Fits cap z := by
  unfold pow pow? at h
  by_cases hn : y.neg = true
  · rw [if_pos hn] at h; cases h
  · rw [if_neg hn] at h
    match hr : powGo (fun a b => .ok (mul? cap a b)) (fun a => .ok (sqr? cap a)) x y.ws with
    | .error e => rw [hr] at h; cases h
    | .ok none => rw [hr] at h; cases h
    | .ok (some z') =>
      rw [hr] at h
      cases h
      refine powGo_canon cap (fun a b => .ok (mul? cap a b)) x y.ws hy.1 hx fx ?_ z hr
      intro a b ca cb fa fb z hz
      rcases mul?_spec cap a b ca cb with ⟨z', e, cz, fz, -⟩ | ⟨e, -⟩
      · rw [e] at hz; cases hz; exact ⟨cz, fz⟩
      · rw [e] at hz; cases hz

theorem modexp_canon (cap : Cap) (x y m : Big) (hx : x.Canon) (hy : y.Canon) (hm : m.Canon) (fx : Fits cap x) (z : Big)
    (h : modexp cap x y m = .ok z) : z.Canon ∧ Fits cap z := by
  unfold modexp modexp? at h
  by_cases hn : y.neg = true
  · rw [if_pos hn] at h; cases h
  · rw [if_neg hn] at h
    match hr : powGo (modMul cap m) (modSqr cap m) x y.ws with
    | .error e => rw [hr] at h; cases h
    | .ok none => rw [hr] at h; cases h
    | .ok (some z') =>
      rw [hr] at h
      cases h
      refine powGo_canon cap (modMul cap m) x y.ws hy.1 hx fx ?_ z hr
      intro a b ca cb fa fb z hz
      unfold modMul at hz
      rcases mul?_spec cap a b ca cb with ⟨z', e, cz, fz, -⟩ | ⟨e, -⟩
      · rw [e] at hz
        rcases divMod?_cases cap z' m cz hm fz with e2 | ⟨q, r, e2, cq, cr, fq, fr⟩
        · simp only [e2] at hz; cases hz
        · simp only [e2] at hz; cases hz; exact ⟨cr, fr⟩
      · rw [e] at hz; cases hz

theorem modinvGo_canon (cap : Cap) (m : Big) (cm : m.Canon) (fm : Fits cap m) : ∀ (f : Nat) (a b s t z : Big),
    a.Canon → Fits cap a → b.Canon → Fits cap b → s.Canon → Fits cap s → t.Canon → Fits cap t →
    modinvGo cap m f a b s t = .ok (some z) → z.Canon ∧ Fits cap z
  | 0, _, _, _, _, _, _, _, _, _, _, _, _, _, h => by cases h
  | f+1, a, b, s, t, z, ca, fa, cb, fb, cs, fs, ct, ft, h => by
    rw [modinvGo] at h
    have hadd : ∀ c : Big, c.Canon → Fits cap c → (if c.neg then add cap c m else c).Canon ∧ Fits cap (if c.neg then add cap c m else c) := by
      intro c cc fc
      split
      · have := add_spec cap c m cc cm fc fm; exact ⟨this.1, this.2.1⟩
      · exact ⟨cc, fc⟩
    rcases divMod?_cases cap s t cs ct fs with e | ⟨q, r, e, cq, cr, fq, fr⟩
    · rw [e] at h; cases h
    · rw [e, obind_some] at h
      simp only at h
      split at h
      · split at h
        · cases h
        · cases h; exact hadd b cb fb
      · have hm1 := mul_canon cap b q zero cb cq zero_canon (zero_fits cb fb)
        have hs1 := sub_spec cap a (mul cap b q) ca hm1.1 fa hm1.2
        rcases divMod?_cases cap t r ct cr ft with e2 | ⟨q2, r2, e2, cq2, cr2, fq2, fr2⟩
        · rw [e2] at h; cases h
        · rw [e2, obind_some] at h
          simp only at h
          split at h
          · split at h
            · cases h
            · cases h; exact hadd _ hs1.1 hs1.2.1
          · have hm2 := mul_canon cap (sub cap a (mul cap b q)) q2 zero hs1.1 cq2 zero_canon (zero_fits cb fb)
            have hs2 := sub_spec cap b (mul cap (sub cap a (mul cap b q)) q2) cb hm2.1 fb hm2.2
            exact modinvGo_canon cap m cm fm f _ _ _ _ z hs1.1 hs1.2.1 hs2.1 hs2.2.1 cr fr cr2 fr2 h

theorem modinv_canon (cap : Cap) (x m : Big) (cx : x.Canon) (fx : Fits cap x) (cm : m.Canon) (fm : Fits cap m) (z : Big)
    (h : modinv cap x m = .ok z) : z.Canon ∧ Fits cap z := by
  unfold modinv at h
  match hr : modinv? cap x m with
  | .error e => rw [hr] at h; cases h
  | .ok none => rw [hr] at h; cases h
  | .ok (some z') =>
    rw [hr] at h
    cases h
    unfold modinv? check at hr
    by_cases hz : m.isZero = true
    · simp only [hz] at hr; cases hr
    · have hz' : m.isZero = false := by simpa using hz
      simp only [hz', Bool.not_false, if_true, ok_bind] at hr
      have c0 : (ofInt32 0).Canon := by decide
      split at hr
      · split at hr
        · cases hr; exact ⟨c0, one_fits cx fx rfl⟩
        · cases hr
      · split at hr
        · split at hr
          · cases hr; exact ⟨c0, one_fits cx fx rfl⟩
          · cases hr; exact ⟨one_canon, one_fits cx fx rfl⟩
        · rcases divMod?_cases cap m x cm cx fm with e | ⟨q, r, e, cq, cr, fq, fr⟩
          · rw [e] at hr; cases hr
          · rw [e, obind_some] at hr
            simp only at hr
            split at hr
            · cases hr
            · exact modinvGo_canon cap m cm fm _ _ (negate q) _ _ z one_canon (one_fits cx fx rfl) cq fq cx fx cr fr hr

end Big
end Ack
