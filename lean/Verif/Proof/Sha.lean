import Verif.Proof.ShaConst
import Verif.Proof.Words
import Mathlib.Tactic.Ring
import Mathlib.Data.BitVec
/-! # SHA-384 against FIPS 180-4 -/
namespace Ack.Sha
open Ack
open Ack.Big (Byte)

theorem SIG0_eq (x : W64) : SIG0 x = Spec.Sha.bigSigma0 x := rfl
theorem SIG1_eq (x : W64) : SIG1 x = Spec.Sha.bigSigma1 x := rfl
theorem sig0_eq (x : W64) : sig0 x = Spec.Sha.sigma0 x := rfl
theorem sig1_eq (x : W64) : sig1 x = Spec.Sha.sigma1 x := rfl

theorem or_shl {w : Nat} (x y : BitVec w) (k : Nat) (hy : y.toNat < 2 ^ k) (hx : x.toNat * 2 ^ k < 2 ^ w) :
    ((x <<< k) ||| y).toNat = x.toNat * 2 ^ k + y.toNat := by
  rw [BitVec.toNat_or, BitVec.toNat_shiftLeft, Nat.shiftLeft_eq, Nat.mod_eq_of_lt hx, ← Nat.shiftLeft_eq, Nat.shiftLeft_add_eq_or_of_lt hy]

theorem readU32_val (a b c d : Byte) :
    ((a.setWidth 32 <<< 24) ||| (b.setWidth 32 <<< 16) ||| (c.setWidth 32 <<< 8) ||| (d.setWidth 32 : Word)).toNat = beVal [a, b, c, d] := by
  have ha := a.isLt; have hb := b.isLt; have hc := c.isLt; have hd := d.isLt
  have ea : (a.setWidth 32 : Word).toNat = a.toNat := by rw [BitVec.toNat_setWidth]; omega
  have eb : (b.setWidth 32 : Word).toNat = b.toNat := by rw [BitVec.toNat_setWidth]; omega
  have ec : (c.setWidth 32 : Word).toNat = c.toNat := by rw [BitVec.toNat_setWidth]; omega
  have ed : (d.setWidth 32 : Word).toNat = d.toNat := by rw [BitVec.toNat_setWidth]; omega
  rw [BitVec.or_assoc, BitVec.or_assoc]
  have h1 := or_shl (c.setWidth 32 : Word) (d.setWidth 32) 8 (by omega) (by omega)
  have h2 := or_shl (b.setWidth 32 : Word) ((c.setWidth 32 <<< 8) ||| d.setWidth 32) 16 (by omega) (by omega)
  have h3 := or_shl (a.setWidth 32 : Word) ((b.setWidth 32 <<< 16) ||| ((c.setWidth 32 <<< 8) ||| d.setWidth 32)) 24 (by omega) (by omega)
  rw [h3, h2, h1, ea, eb, ec, ed]
  simp [beVal]; try ring

theorem rdB_drop (l : List Byte) (i j : Nat) : rdB l (i + j) = rdB (l.drop i) j := by
  unfold rdB; rw [List.getElem?_drop]

theorem and_mask (x : W64) (h : x.toNat < 2 ^ 32) : (x &&& 0xffffffff) = x := by
  apply BitVec.eq_of_toNat_eq
  rw [BitVec.toNat_and]
  show x.toNat &&& (2 ^ 32 - 1) = _
  rw [Nat.and_two_pow_sub_one_eq_mod]; omega

theorem list8 {l : List Byte} (h : 8 ≤ l.length) : ∃ a b c d e f g i t, l = a :: b :: c :: d :: e :: f :: g :: i :: t := by
  match l, h with
  | a :: b :: c :: d :: e :: f :: g :: i :: t, _ => exact ⟨a, b, c, d, e, f, g, i, t, rfl⟩

theorem readU64_spec (src : List Byte) (i : Nat) (h : i + 8 ≤ src.length) :
    readU64 src i = .ok (BitVec.ofNat 64 (beVal ((src.drop i).take 8))) := by
  obtain ⟨a, b, c, d, e, f, g, j, t, hl⟩ := list8 (l := src.drop i) (by rw [List.length_drop]; omega)
  have hr : ∀ k, rdB src (i + k) = rdB (a :: b :: c :: d :: e :: f :: g :: j :: t) k := fun k => by rw [rdB_drop, hl]
  have h0 : rdB src i = .ok a := hr 0
  unfold readU64 readU32
  rw [h0, hr 1, hr 2, hr 3, show i + 4 + 1 = i + 5 by ring, show i + 4 + 2 = i + 6 by ring, show i + 4 + 3 = i + 7 by ring,
    hr 4, hr 5, hr 6, hr 7, hl]
  show Except.ok _ = _
  congr 1
  have u := readU32_val a b c d
  have l := readU32_val e f g j
  generalize ((a.setWidth 32 <<< 24) ||| (b.setWidth 32 <<< 16) ||| (c.setWidth 32 <<< 8) ||| (d.setWidth 32 : Word)) = U at *
  generalize ((e.setWidth 32 <<< 24) ||| (f.setWidth 32 <<< 16) ||| (g.setWidth 32 <<< 8) ||| (j.setWidth 32 : Word)) = L at *
  have hU := U.isLt; have hL := L.isLt
  have eU : (U.setWidth 64 : W64).toNat = U.toNat := by rw [BitVec.toNat_setWidth]; omega
  have eL : (L.setWidth 64 : W64).toNat = L.toNat := by rw [BitVec.toNat_setWidth]; omega
  rw [and_mask _ (by omega), and_mask _ (by omega)]
  apply BitVec.eq_of_toNat_eq
  rw [or_shl _ _ 32 (by omega) (by omega), eU, eL, BitVec.toNat_ofNat]
  have : beVal (List.take 8 (a :: b :: c :: d :: e :: f :: g :: j :: t)) = U.toNat * 2 ^ 32 + L.toNat := by
    rw [u, l]; simp [beVal]; ring
  rw [this]; omega

theorem byte_of (x : W64) (k : Nat) : (((x >>> k) &&& 0xff).setWidth 8 : Byte) = BitVec.ofNat 8 (x.toNat / 2 ^ k) := by
  apply BitVec.eq_of_toNat_eq
  rw [BitVec.toNat_setWidth, BitVec.toNat_and, BitVec.toNat_ofNat, BitVec.toNat_ushiftRight, Nat.shiftRight_eq_div_pow]
  show (x.toNat / 2 ^ k &&& (2 ^ 8 - 1)) % _ = _
  rw [Nat.and_two_pow_sub_one_eq_mod, Nat.mod_mod]

theorem writeU64_eq (x : W64) : writeU64 x = Spec.Sha.be 8 x.toNat := by
  have h0 := byte_of x 0
  have e0 : x >>> 0 = x := by simp
  rw [e0] at h0
  unfold writeU64
  rw [byte_of, byte_of, byte_of, byte_of, byte_of, byte_of, byte_of, h0]
  rfl

theorem be16 (v : Nat) : Spec.Sha.be 16 v = Spec.Sha.be 8 (v / 2 ^ 64) ++ Spec.Sha.be 8 (v % 2 ^ 64) := by
  have r16 : List.range 16 = [0, 1, 2, 3, 4, 5, 6, 7, 8, 9, 10, 11, 12, 13, 14, 15] := rfl
  have r8 : List.range 8 = [0, 1, 2, 3, 4, 5, 6, 7] := rfl
  have e : ∀ a b : Nat, a % 256 = b % 256 → (BitVec.ofNat 8 a : BitVec 8) = BitVec.ofNat 8 b := by
    intro a b h
    apply BitVec.eq_of_toNat_eq
    rw [BitVec.toNat_ofNat, BitVec.toNat_ofNat]; exact h
  unfold Spec.Sha.be
  rw [r16, r8]
  simp only [List.map_cons, List.map_nil, List.cons_append, List.nil_append, List.cons.injEq, and_true]
  refine ⟨?_, ?_, ?_, ?_, ?_, ?_, ?_, ?_, ?_, ?_, ?_, ?_, ?_, ?_, ?_, ?_⟩ <;> apply e <;> omega

/-! ## Compression -/

/-- The model's array for a tuple. -/
def lst : Spec.Sha.Vars → List W64
  | (a, b, c, d, e, f, g, h) => [a, b, c, d, e, f, g, h]

def vars : Spec.Sha.Vars → Vars
  | (a, b, c, d, e, f, g, h) => ⟨a, b, c, d, e, f, g, h⟩

/-- The first `t` words of the schedule are there. -/
def Inv (W : List W64) (t : Nat) (f : Nat → W64) : Prop := W.length = 80 ∧ ∀ j, j < t → W[j]? = some (f j)

theorem rd_inv {W : List W64} {t : Nat} {f : Nat → W64} (h : Inv W t f) {j : Nat} (hj : j < t) : rd W j = .ok (f j) := by
  unfold rd; rw [h.2 j hj]

theorem wr_inv {W : List W64} {t : Nat} {f : Nat → W64} (h : Inv W t f) (ht : t < 80) :
    ∃ W', wr W t (f t) = .ok W' ∧ Inv W' (t + 1) f := by
  unfold wr
  rw [if_pos (by rw [h.1]; exact ht)]
  refine ⟨_, rfl, by simp [h.1], fun j hj => ?_⟩
  by_cases hjt : j = t
  · subst hjt; rw [List.getElem?_set_self (by rw [h.1]; exact ht)]
  · rw [List.getElem?_set_ne (by omega)]; exact h.2 j (by omega)

theorem loadLoop_spec (data : List Byte) (f : Nat → W64) (hd : 128 ≤ data.length)
    (hf : ∀ j, j < 16 → f j = BitVec.ofNat 64 (beVal ((data.drop (8 * j)).take 8))) :
    ∀ (n t : Nat) (W : List W64), t + n = 16 → Inv W t f → ∃ W', loadLoop data n t W = .ok W' ∧ Inv W' 16 f := by
  intro n
  induction n with
  | zero => intro t W h hi; rw [show t = 16 by omega] at hi; exact ⟨W, rfl, hi⟩
  | succ n ih =>
    intro t W h hi
    rw [loadLoop, readU64_spec _ _ (by omega), ok_bind, Nat.mul_comm, ← hf t (by omega)]
    obtain ⟨W', h1, h2⟩ := wr_inv hi (by omega)
    rw [h1, ok_bind]
    exact ih (t + 1) W' (by omega) h2

theorem prepLoop_spec (M : Nat → W64) : ∀ (n t : Nat) (W : List W64), 16 ≤ t → t + n = 80 → Inv W t (Spec.Sha.sched M) →
    ∃ W', prepLoop n t W = .ok W' ∧ Inv W' 80 (Spec.Sha.sched M) := by
  intro n
  induction n with
  | zero => intro t W _ h hi; rw [show t = 80 by omega] at hi; exact ⟨W, rfl, hi⟩
  | succ n ih =>
    intro t W ht h hi
    rw [prepLoop, prepare, rd_inv hi (by omega), ok_bind, rd_inv hi (by omega), ok_bind, rd_inv hi (by omega), ok_bind,
      rd_inv hi (by omega), ok_bind, sig0_eq, sig1_eq]
    have e : Spec.Sha.sched M (t - 7) + Spec.Sha.sched M (t - 16) + Spec.Sha.sigma0 (Spec.Sha.sched M (t - 15)) +
        Spec.Sha.sigma1 (Spec.Sha.sched M (t - 2)) = Spec.Sha.sched M t := by
      conv_rhs => rw [Spec.Sha.sched, if_neg (by omega)]
      ring
    rw [e]
    obtain ⟨W', h1, h2⟩ := wr_inv hi (by omega)
    rw [h1, ok_bind]
    exact ih (t + 1) W' (by omega) (by omega) h2

theorem rd_K (t : Nat) (h : t < 80) : rd K512 t = .ok (Spec.Sha.K t) := by
  rw [K_eq t h, rd]
  have : t < K512.length := h
  rw [List.getElem?_eq_getElem this, List.getD_eq_getElem _ _ this]

theorem roundLoop_spec (W : List W64) (f : Nat → W64) (hW : Inv W 80 f) (v0 : Spec.Sha.Vars) : ∀ (n t : Nat), t + n = 80 →
    roundLoop W n t (vars (Spec.Sha.rounds f t v0)) = .ok (vars (Spec.Sha.rounds f 80 v0)) := by
  intro n
  induction n with
  | zero => intro t h; rw [show t = 80 by omega]; rfl
  | succ n ih =>
    intro t h
    rw [roundLoop, round, rd_inv hW (by omega), ok_bind, rd_K t (by omega), ok_bind]
    rw [← ih (t + 1) (by omega), Spec.Sha.rounds]
    obtain ⟨⟨a, b, c, d, e, g, k, l⟩, hv⟩ : ∃ v, v = Spec.Sha.rounds f t v0 := ⟨_, rfl⟩
    rw [← hv, ok_bind]
    dsimp only [vars]
    rw [SIG0_eq, SIG1_eq]
    have e1 : Ch e g k + f t + Spec.Sha.K t + l + Spec.Sha.bigSigma1 e = l + Spec.Sha.bigSigma1 e + Spec.Sha.Ch e g k + Spec.Sha.K t + f t := by
      show Spec.Sha.Ch e g k + f t + Spec.Sha.K t + l + Spec.Sha.bigSigma1 e = _
      ring
    have e2 : Maj a b c + Spec.Sha.bigSigma0 a = Spec.Sha.bigSigma0 a + Spec.Sha.Maj a b c := by
      show Spec.Sha.Maj a b c + Spec.Sha.bigSigma0 a = _
      ring
    rw [e1, e2]

theorem compress_spec (data : List Byte) (M : Nat → W64) (H : Spec.Sha.Vars) (hd : 128 ≤ data.length)
    (hM : ∀ j, j < 16 → M j = BitVec.ofNat 64 (beVal ((data.drop (8 * j)).take 8))) :
    compress data (lst H) = .ok (lst (Spec.Sha.block M H)) := by
  have hs : ∀ j, j < 16 → Spec.Sha.sched M j = M j := fun j hj => by rw [Spec.Sha.sched, if_pos hj]
  unfold compress
  obtain ⟨W1, h1, h2⟩ := loadLoop_spec data (Spec.Sha.sched M) hd (fun j hj => by rw [hs j hj, hM j hj]) 16 0 (List.replicate 80 0) rfl
    ⟨by simp, fun j hj => absurd hj (by omega)⟩
  rw [h1, ok_bind]
  obtain ⟨W2, h3, h4⟩ := prepLoop_spec M 64 16 W1 (le_refl _) rfl h2
  rw [h3, ok_bind]
  obtain ⟨a, b, c, d, e, f, g, h⟩ := H
  have hr := roundLoop_spec W2 _ h4 (a, b, c, d, e, f, g, h) 80 0 rfl
  have hr' : roundLoop W2 80 0 ⟨a, b, c, d, e, f, g, h⟩ = .ok (vars (Spec.Sha.rounds (Spec.Sha.sched M) 80 (a, b, c, d, e, f, g, h))) := hr
  show (roundLoop W2 80 0 ⟨a, b, c, d, e, f, g, h⟩ >>= _) = _
  rw [hr', ok_bind]
  unfold Spec.Sha.block
  generalize Spec.Sha.rounds (Spec.Sha.sched M) 80 (a, b, c, d, e, f, g, h) = v
  obtain ⟨a', b', c', d', e', f', g', h'⟩ := v
  show Except.ok _ = _
  congr 1
  simp only [lst, vars, BitVec.add_comm]

/-! ## The whole hash -/

theorem take_take8 (l : List Byte) (j : Nat) (h : j < 16) : ((l.take 128).drop (8 * j)).take 8 = (l.drop (8 * j)).take 8 := by
  rw [List.drop_take, List.take_take, Nat.min_eq_left (by omega)]

/-- Compressing 128 bytes that are block `i` of `p`. -/
theorem compress_block (data p : List Byte) (i : Nat) (init : Spec.Sha.Vars) (hd : 128 ≤ data.length)
    (h : data.take 128 = (p.drop (128 * i)).take 128) :
    compress data (lst (Spec.Sha.chain p init i)) = .ok (lst (Spec.Sha.chain p init (i + 1))) := by
  rw [Spec.Sha.chain]
  apply compress_spec _ _ _ hd
  intro j hj
  unfold Spec.Sha.word
  rw [← take_take8 data j hj, h, take_take8 _ j hj, List.drop_drop]

theorem blockLoop_spec (m tail : List Byte) (init : Spec.Sha.Vars) : ∀ (f i : Nat), 128 * i ≤ m.length → m.length - 128 * i < f →
    blockLoop f (m.drop (128 * i)) (lst (Spec.Sha.chain (m ++ tail) init i)) =
      .ok (lst (Spec.Sha.chain (m ++ tail) init (m.length / 128)), m.drop (128 * (m.length / 128))) := by
  intro f
  induction f with
  | zero => intro i _ h; omega
  | succ f ih =>
    intro i h1 h2
    rw [blockLoop, List.length_drop]
    by_cases h : m.length - 128 * i ≥ 128
    · rw [if_pos h, compress_block _ (m ++ tail) i init (by rw [List.length_drop]; omega), ok_bind, List.drop_drop,
        show 128 * i + 128 = 128 * (i + 1) by ring]
      · exact ih (i + 1) (by omega) (by omega)
      · rw [List.drop_append_of_le_length h1, List.take_append_of_le_length (by rw [List.length_drop]; omega)]
    · rw [if_neg h, show m.length / 128 = i by omega]

theorem be_length (k v : Nat) : (Spec.Sha.be k v).length = k := by simp [Spec.Sha.be]

theorem len_bytes (m : List Byte) (h : m.length < 2 ^ 64) :
    writeU64 (BitVec.ofNat 64 m.length >>> (64 - 3)) ++ writeU64 (BitVec.ofNat 64 m.length <<< 3) = Spec.Sha.be 16 (8 * m.length) := by
  rw [be16, writeU64_eq, writeU64_eq, BitVec.toNat_ushiftRight, BitVec.toNat_shiftLeft, BitVec.toNat_ofNat, Nat.mod_eq_of_lt h,
    Nat.shiftRight_eq_div_pow, Nat.shiftLeft_eq]
  congr 2 <;> omega

theorem init_eq : initial384 = lst (Spec.Sha.H0 0, Spec.Sha.H0 1, Spec.Sha.H0 2, Spec.Sha.H0 3, Spec.Sha.H0 4, Spec.Sha.H0 5,
    Spec.Sha.H0 6, Spec.Sha.H0 7) := by
  rw [H_eq 0 (by omega), H_eq 1 (by omega), H_eq 2 (by omega), H_eq 3 (by omega), H_eq 4 (by omega), H_eq 5 (by omega),
    H_eq 6 (by omega), H_eq 7 (by omega)]
  rfl

/-- The padding with the length field `L`. -/
def padWith (m L : List Byte) : List Byte := m ++ [0x80] ++ List.replicate ((239 - m.length % 128) % 128) 0 ++ L

/-- `sha512_compute` from any initial value: the whole chain over the message padded with the length field `L`. -/
theorem sha512Compute_core (m : List Byte) (init : Spec.Sha.Vars) (L : List Byte)
    (hL : writeU64 (BitVec.ofNat 64 m.length >>> (64 - 3)) ++ writeU64 (BitVec.ofNat 64 m.length <<< 3) = L) :
    sha512Compute (lst init) m = .ok (((lst (Spec.Sha.chain (padWith m L) init ((padWith m L).length / 128))).map writeU64).flatten) := by
  have hLl : L.length = 16 := by rw [← hL, writeU64_eq, writeU64_eq, List.length_append, be_length, be_length]
  obtain ⟨q, hq⟩ : ∃ q, q = m.length / 128 := ⟨_, rfl⟩
  obtain ⟨r, hr⟩ : ∃ r, r = m.length % 128 := ⟨_, rfl⟩
  obtain ⟨rest, hrest⟩ : ∃ rest, rest = m.drop (128 * q) := ⟨_, rfl⟩
  have hrl : rest.length = r := by rw [hrest, List.length_drop]; omega
  obtain ⟨tail, htail⟩ : ∃ tail, tail = [0x80] ++ List.replicate ((239 - r) % 128) 0 ++ L := ⟨_, rfl⟩
  have hpad : padWith m L = m ++ tail := by
    unfold padWith; rw [htail, ← hr]; simp only [List.append_assoc]
  have hpl : (padWith m L).length = m.length + 1 + (239 - r) % 128 + 16 := by
    unfold padWith; rw [← hr]; simp only [List.length_append, List.length_replicate, hLl]; rfl
  have hdrop : (padWith m L).drop (128 * q) = rest ++ tail := by
    rw [hpad, List.drop_append_of_le_length (by omega), hrest]
  unfold sha512Compute
  dsimp only
  have hb := blockLoop_spec m tail init (m.length + 1) 0 (by omega) (by omega)
  have hb' : blockLoop (m.length + 1) m (lst init) =
      .ok (lst (Spec.Sha.chain (padWith m L) init q), rest) := by
    rw [hpad, hq, hrest, hq]; exact hb
  rw [hb', ok_bind]
  dsimp only
  rw [if_neg (by rw [List.length_append, hrl]; show ¬ r + 1 > 128; omega)]
  have fin : ∀ H : Spec.Sha.Vars, (do
      .ok (writeU64 (← rd (lst H) 0) ++ writeU64 (← rd (lst H) 1) ++ writeU64 (← rd (lst H) 2) ++ writeU64 (← rd (lst H) 3) ++
        writeU64 (← rd (lst H) 4) ++ writeU64 (← rd (lst H) 5) ++ writeU64 (← rd (lst H) 6) ++ writeU64 (← rd (lst H) 7)) : Res (List Byte)) =
      .ok (((lst H).map writeU64).flatten) := by
    rintro ⟨a, b, c, d, e, f, g, i⟩
    show Except.ok _ = _
    simp only [lst, List.map_cons, List.map_nil, List.flatten_cons, List.flatten_nil, List.append_assoc, List.append_nil]
  by_cases hc : r + 1 > 112
  · have hz : (239 - r) % 128 = (127 - r) + 112 := by omega
    rw [if_pos (by rw [List.length_append, hrl]; exact hc)]
    have hfl : (rest ++ [0x80] ++ List.replicate (128 - (rest ++ [(0x80 : Byte)]).length) 0) = rest ++ [0x80] ++ List.replicate (127 - r) 0 := by
      rw [List.length_append, hrl]; congr 2; simp only [List.length_cons, List.length_nil]; omega
    rw [hfl]
    have ht : rest ++ tail = (rest ++ [0x80] ++ List.replicate (127 - r) 0) ++ (List.replicate 112 0 ++ L) := by
      rw [htail, hz, List.replicate_add]; simp only [List.append_assoc]
    have hl1 : (rest ++ [(0x80 : Byte)] ++ List.replicate (127 - r) 0).length = 128 := by
      simp only [List.length_append, List.length_replicate, hrl, List.length_cons, List.length_nil]; omega
    rw [compress_block _ (padWith m L) q init (by omega) (by
      rw [hdrop, ht, List.take_left' hl1, List.take_of_length_le (by omega)]), ok_bind]
    simp only [pure_bind, List.nil_append, List.length_nil, Nat.sub_zero]
    have hd2 : (padWith m L).drop (128 * (q + 1)) = List.replicate 112 0 ++ L := by
      rw [show 128 * (q + 1) = 128 * q + 128 by ring, ← List.drop_drop, hdrop, ht, List.drop_left' hl1]
    rw [List.append_assoc, hL, show (128 - 16 : Nat) = 112 from rfl]
    rw [compress_block _ (padWith m L) (q + 1) init (by simp [hLl]) (by rw [hd2]), ok_bind, fin,
      show (padWith m L).length / 128 = q + 1 + 1 by rw [hpl]; omega]
  · have hz : (239 - r) % 128 = 111 - r := by omega
    rw [if_neg (by rw [List.length_append, hrl]; exact hc)]
    simp only [pure_bind]
    have hfl : (rest ++ [0x80] ++ List.replicate (128 - 16 - (rest ++ [(0x80 : Byte)]).length) 0) = rest ++ [0x80] ++ List.replicate (111 - r) 0 := by
      rw [List.length_append, hrl]; congr 2; simp only [List.length_cons, List.length_nil]; omega
    rw [hfl, List.append_assoc _ (writeU64 _) (writeU64 _), hL]
    have ht : rest ++ tail = rest ++ [0x80] ++ List.replicate (111 - r) 0 ++ L := by
      rw [htail, hz]; simp only [List.append_assoc]
    rw [compress_block _ (padWith m L) q init (by
        simp only [List.length_append, List.length_replicate, hrl, List.length_cons, List.length_nil, hLl]; omega)
      (by rw [hdrop, ht]), ok_bind, fin, show (padWith m L).length / 128 = q + 1 by rw [hpl]; omega]

/-- `sha512_compute` from any initial value: the whole chain over the padded message. -/
theorem sha512Compute_spec (m : List Byte) (init : Spec.Sha.Vars) (h : m.length < 2 ^ 64) :
    sha512Compute (lst init) m = .ok (((lst (Spec.Sha.chain (Spec.Sha.pad m) init ((Spec.Sha.pad m).length / 128))).map writeU64).flatten) :=
  sha512Compute_core m init _ (len_bytes m h)

/-- `sha384` returns 48 bytes for every argument. -/
theorem sha384_total (m : List Byte) : ∃ d, sha384 m = .ok d ∧ d.length = 48 := by
  unfold sha384
  rw [init_eq, sha512Compute_core m _ _ rfl, ok_bind]
  generalize Spec.Sha.chain _ _ _ = v
  obtain ⟨a, b, c, d, e, f, g, i⟩ := v
  have hl : (((lst (a, b, c, d, e, f, g, i)).map writeU64).flatten).length = 64 := by
    simp only [lst, List.map_cons, List.map_nil, List.flatten_cons, List.flatten_nil, List.length_append, writeU64_eq, be_length, List.length_nil]
  rw [if_neg (by omega)]
  exact ⟨_, rfl, by rw [List.length_take]; omega⟩

theorem sha384_spec (m : List Byte) (h : m.length < 2 ^ 64) : sha384 m = .ok (Spec.Sha.sha384 m) := by
  unfold sha384 Spec.Sha.sha384
  rw [init_eq, sha512Compute_spec m _ h, ok_bind]
  dsimp only
  generalize Spec.Sha.chain (Spec.Sha.pad m) _ _ = v
  obtain ⟨a, b, c, d, e, f, g, i⟩ := v
  have hl : ((lst (a, b, c, d, e, f, g, i)).map writeU64).flatten =
      (Spec.Sha.be 8 a.toNat ++ Spec.Sha.be 8 b.toNat ++ Spec.Sha.be 8 c.toNat ++ Spec.Sha.be 8 d.toNat ++ Spec.Sha.be 8 e.toNat ++
        Spec.Sha.be 8 f.toNat) ++ (Spec.Sha.be 8 g.toNat ++ Spec.Sha.be 8 i.toNat) := by
    simp only [lst, List.map_cons, List.map_nil, List.flatten_cons, List.flatten_nil, List.append_assoc, List.append_nil, writeU64_eq]
  rw [hl, if_neg (by simp only [List.length_append, be_length]; omega), List.take_left' (by simp only [List.length_append, be_length])]

end Ack.Sha
