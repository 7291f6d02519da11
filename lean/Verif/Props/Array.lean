import Verif.Proof.ArrayCurve
import Verif.Props.Curves
/-!
# Word arrays and compile-time constants (C73, C74)
-/
namespace Ack.Props
open Ack Ack.Big

/-- C73: `set_array` on elements of 1, 2, 4 or 8 bytes yields the nonnegative integer whose digits in base 2^(8·size) are the
elements, least significant first (`bigendian = false`) or last (`bigendian = true`), in canonical form, if the number fits
the buffer. -/
theorem C73_set_array (cap : Cap) {sz : ℕ} (hsz : sz = 1 ∨ sz = 2 ∨ sz = 4 ∨ sz = 8) (x : List (BitVec (8 * sz))) (bigendian : Bool)
    (h1 : cap.fits 1 = true) (hf : cap.fits ((x.length * sz + 3) / 4) = true) :
    ∃ r, setArray cap sz x bigendian = some r ∧ r.Canon ∧ Fits cap r ∧
      r.toInt = ((Nat.ofDigits (2 ^ (8 * sz)) ((if bigendian then x.reverse else x).map BitVec.toNat) : ℕ) : ℤ) := by
  have e : arrayWordSize sz x.length = (x.length * sz + 3) / 4 := by
    unfold arrayWordSize; rcases hsz with h | h | h | h <;> subst h <;> omega
  obtain ⟨r, a, b, c, -, d⟩ := setArray_spec cap hsz x bigendian (by rw [e]; exact hf) h1
  exact ⟨r, a, b, c, d⟩

/-- C73: `set_array` returns false, for every nonempty array that does not fit the buffer. -/
theorem C73_set_array_false (cap : Cap) {sz : ℕ} (hsz : sz = 1 ∨ sz = 2 ∨ sz = 4 ∨ sz = 8) (x : List (BitVec (8 * sz)))
    (bigendian : Bool) (h0 : x ≠ []) (hf : cap.fits ((x.length * sz + 3) / 4) = false) : setArray cap sz x bigendian = none := by
  have e : arrayWordSize sz x.length = (x.length * sz + 3) / 4 := by
    unfold arrayWordSize; rcases hsz with h | h | h | h <;> subst h <;> omega
  unfold setArray
  rw [if_neg (by simpa using h0), e, hf]
  rfl

/-- C73: `get_array` fills the whole array with the magnitude of the integer, least significant word first, or returns false,
exactly when the integer has more words than the array. -/
theorem C73_get_array (a : Big) (x : List Word) :
    (a.ws.length ≤ x.length → ∃ y, getArray a x = some y ∧ y.length = x.length ∧ val y = a.toInt.natAbs) ∧
    (x.length < a.ws.length → getArray a x = none) := by
  unfold getArray
  refine ⟨fun h => ?_, fun h => if_pos h⟩
  rw [if_neg (by omega)]
  refine ⟨_, rfl, by simp; omega, ?_⟩
  rw [val_append, val_replicate_zero]
  unfold toInt
  split <;> simp

/-- C73: words written by `get_array` and read back by `set_array` give the absolute value. -/
theorem C73_round_trip (cap : Cap) (a : Big) (x y : List Word) (h : getArray a x = some y) (h1 : cap.fits 1 = true)
    (hf : cap.fits x.length = true) : ∃ r, setArray cap 4 y false = some r ∧ r.Canon ∧ r.toInt = |a.toInt| := by
  have hlen : a.ws.length ≤ x.length := by
    by_contra hlt
    rw [(C73_get_array a x).2 (by omega)] at h
    cases h
  obtain ⟨y', e, ly, vy⟩ := (C73_get_array a x).1 hlen
  rw [h] at e
  cases e
  obtain ⟨r, er, cr, -, vr⟩ := C73_set_array cap (sz := 4) (by omega) y false h1 (by rw [ly, show (x.length * 4 + 3) / 4 = x.length by omega]; exact hf)
  refine ⟨r, er, cr, ?_⟩
  have hd : ∀ l : List Word, Nat.ofDigits (2 ^ (8 * 4)) (l.map BitVec.toNat) = val l := by
    intro l
    induction l with
    | nil => rfl
    | cons w l ih => rw [List.map_cons, Nat.ofDigits_cons, ih, val_cons]; simp
  rw [vr, if_neg (by decide), hd, vy]
  exact Int.natCast_natAbs _

example : setArray (some 4) 8 [0x1122334455667788, 0x99aabbcc] false = some ⟨false, [0x55667788, 0x11223344, 0x99aabbcc]⟩ ∧
    setArray (some 4) 8 [0x1122334455667788, 0x99aabbcc] true = some ⟨false, [0x99aabbcc, 0, 0x55667788, 0x11223344]⟩ ∧
    setArray (some 4) 1 [1, 2, 3, 4, 5] true = some ⟨false, [0x02030405, 1]⟩ ∧
    setArray (some 4) 2 [1, 2, 3] false = some ⟨false, [0x00020001, 3]⟩ ∧ setArray (some 1) 1 [1, 2, 3, 4, 5] true = none ∧
    getArray ⟨true, [7, 8]⟩ [9, 9, 9] = some [7, 8, 0] ∧ getArray ⟨true, [7, 8]⟩ [9] = none := by decide

/-- C74: bytes imported when the compiler evaluates a constant give the same integer, or the same failure, as at run time. -/
theorem C74_bytes (cap : Cap) (d : List Byte) : setBytesCx cap d = setBytes cap d := setBytesCx_eq cap d

/-- C74: a hexadecimal literal denotes the same integer in a constant and at run time. -/
theorem C74_literal (cap : Cap) (s : List Byte) : ofHexLitCx cap s = ofHexLit cap s := by
  unfold ofHexLitCx ofHexLit ofBytes
  simp only [setBytesCx_eq]
  rfl

theorem lits (c : Named) : ∀ s ∈ [c.params.p, c.params.a, c.params.b, c.params.gx, c.params.gy, c.params.n],
    ((chars s).length + 1) / 2 ≤ 4 * bitsizeToWordsize c.params.bits := by
  cases c <;> decide +kernel

/-- C74: each named curve, a constant the compiler evaluates in buffers that cannot grow, is the object of C38. -/
theorem C74_named_curves (c : Named) (wasm : Bool) (addr : Nat) : c.params.buildCx wasm addr = c.params.build wasm addr := by
  obtain ⟨P, A, B, X, Y, N, K⟩ := certs c
  exact buildCx_eq K (lits c) wasm addr

example : setBytesCx (some 2) [1, 2, 3, 4, 5] = some ⟨false, [0x02030405, 1]⟩ ∧ setBytesCx (some 1) [1, 2, 3, 4, 5] = none ∧
    Named.brainpoolP512r1.params.capCx true = some 16 ∧ Named.brainpoolP512r1.params.cap true = none := by decide

end Ack.Props
