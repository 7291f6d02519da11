import Verif.Proof.Array
import Verif.Proof.NamedCurve
/-!
# Curve objects built in constant evaluation
-/
namespace Ack
open Big

theorem capCx_fits (q : CurveParams) (w : Bool) {n : Nat} (h : n ≤ bitsizeToWordsize q.bits) : (q.capCx w).fits n = true := by
  rw [fits_iff]
  intro M hM
  unfold CurveParams.capCx at hM
  split at hM <;> cases hM <;> unfold bitsizeToWordsize at * <;> omega

theorem setBytes_cap {c1 c2 : Cap} {d : List Byte} (h1 : c1.fits (wordSize d.length) = true) (h2 : c2.fits (wordSize d.length) = true) :
    setBytes c1 d = setBytes c2 d := by
  unfold setBytes
  rw [h1, h2]

theorem litCx_eq {q : CurveParams} {s : String} {v : Nat} (h : LitOk q s v) (hl : ((chars s).length + 1) / 2 ≤ 4 * bitsizeToWordsize q.bits)
    (w : Bool) : Big.ofHexLitCx (q.capCx w) (chars s) = Big.ofHexLit (q.cap w) (chars s) := by
  obtain ⟨h1, h2, h3⟩ := h
  have hs : stripNul (chars s) = chars s := if_neg h2
  have hf := fromHexFixed_spec (((chars s).length + 1) / 2) (chars s) (by rw [hs])
  rw [hs, h1] at hf
  obtain ⟨d, l, hv, e⟩ := hf
  rw [l, Nat.sub_self, List.replicate_zero, List.append_nil] at e
  unfold Big.ofHexLitCx Big.ofHexLit fromHexLit
  rw [e, ok_bind, ok_bind, setBytesCx_eq, setBytes_cap (capCx_fits q w _) (cap_fits q w _)]
  · rfl
  · unfold wordSize; omega
  · unfold wordSize; omega

theorem subs1_cap {c1 c2 : Cap} {x : Big} (hn : x.neg = false) (h1 : c1.fits x.ws.length = true) (h2 : c2.fits x.ws.length = true) :
    subs1 c1 x 3 = subs1 c2 x 3 := by
  unfold subs1 adds1Go
  have e : ¬ (x.neg ^^ !decide ((3 : BitVec 32).toInt < 0)) = false := by rw [hn]; decide
  rw [if_neg e]
  conv_rhs => rw [if_neg e]
  unfold usub1
  rw [h1, h2]

theorem sub_cap {c1 c2 : Cap} {x y : Big} (hx : x.neg = false) (hy : y.neg = false) (h1 : c1.fits x.ws.length = true)
    (h2 : c2.fits x.ws.length = true) (h3 : c1.fits y.ws.length = true) (h4 : c2.fits y.ws.length = true) : sub c1 x y = sub c2 x y := by
  unfold sub addSigned
  have e : ¬ (x.neg ^^ !y.neg) = false := by rw [hx, hy]; decide
  rw [if_neg e]
  conv_rhs => rw [if_neg e]
  unfold usub
  rw [h1, h2, h3, h4]

theorem neg_of_pos {x : Big} {v : ℕ} (h : x.toInt = v) (hv : 0 < v) : x.neg = false := by
  unfold toInt at h
  by_contra hn
  rw [if_pos (by simpa using hn)] at h
  omega

theorem buildCx_eq {q : CurveParams} {P A B X Y N : ℕ} (K : NumCert q P A B X Y N)
    (hl : ∀ s ∈ [q.p, q.a, q.b, q.gx, q.gy, q.n], ((chars s).length + 1) / 2 ≤ 4 * bitsizeToWordsize q.bits) (w : Bool) (addr : Nat) :
    q.buildCx w addr = q.build w addr := by
  obtain ⟨h3, hA, hB0, hB, hX, hY, hPN, hPN3, hNP, hPb, hPb', hNb, hNb', hbits, hh⟩ := K.num
  obtain ⟨p, ep, cp, fp, vp⟩ := lit_spec K.hp hbits w
  obtain ⟨n, en, cn, fn, vn⟩ := lit_spec K.hn hbits w
  have hwp : 0 < bitsizeToWordsize q.bits := by unfold bitsizeToWordsize; omega
  have h32 : 2 ^ q.bits ≤ 2 ^ (32 * bitsizeToWordsize q.bits) := Nat.pow_le_pow_right (by norm_num) (by unfold bitsizeToWordsize; omega)
  have lp : p.ws.length ≤ bitsizeToWordsize q.bits := length_of_lt cp hwp (by rw [vp]; simp; omega)
  have ln : n.ws.length ≤ bitsizeToWordsize q.bits := length_of_lt cn hwp (by rw [vn]; simp; omega)
  have np := neg_of_pos vp (by omega)
  have nn := neg_of_pos vn (by omega)
  simp only [List.mem_cons, List.not_mem_nil, or_false, forall_eq_or_imp, forall_eq] at hl
  obtain ⟨l1, l2, l3, l4, l5, l6⟩ := hl
  unfold CurveParams.buildCx CurveParams.build
  rw [litCx_eq K.hp l1, litCx_eq K.ha l2, litCx_eq K.hb l3, litCx_eq K.hgx l4, litCx_eq K.hgy l5, litCx_eq K.hn l6, ep, en]
  simp only [ok_bind]
  unfold Curve.make
  rw [subs1_cap np (capCx_fits q w lp) (cap_fits q w (by omega)),
    sub_cap np nn (capCx_fits q w lp) (cap_fits q w (by omega)) (capCx_fits q w ln) (cap_fits q w (by omega))]

end Ack
