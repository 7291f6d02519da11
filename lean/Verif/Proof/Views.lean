import Verif.Spec.Views
import Verif.Proof.Utils
/-!
# Byte vectors and views in memory: proofs
-/
namespace Ack.View
open Big (Byte)
open Ack.Spec.View (Env part bytes sees xorAt new tell grown step run means Alloc.Ok)

abbrev SVec := Ack.Spec.View.Vec
abbrev SView := Ack.Spec.View.View

/-! ## Memory -/

/-- The bytes `l` are at `a`. -/
def At (m : Mem) (a : Nat) (l : List Byte) : Prop := ∀ k (h : k < l.length), m (a + k) = some l[k]

theorem rd_at {m : Mem} {l : List Byte} : ∀ {a : Nat}, At m a l → rd m a l.length = .ok l := by
  induction l with
  | nil => intro a _; rfl
  | cons b t ih =>
    intro a h
    have h0 := h 0 (by simp)
    have ht : At m (a + 1) t := fun k hk => by
      have := h (k + 1) (by simpa using hk)
      rw [show a + 1 + k = a + (k + 1) by omega, this]; rfl
    rw [Nat.add_zero] at h0
    rw [List.length_cons, rd, h0]
    dsimp only
    rw [ih ht, ok_bind]; rfl

theorem At.sub {m : Mem} {a : Nat} {l : List Byte} (h : At m a l) (o n : Nat) : At m (a + o) ((l.drop o).take n) := by
  intro k hk
  rw [List.length_take, List.length_drop] at hk
  rw [show a + o + k = a + (o + k) by omega, h (o + k) (by omega), List.getElem_take, List.getElem_drop]

theorem At.congr {m m' : Mem} {a : Nat} {l : List Byte} (h : At m a l) (e : ∀ k < l.length, m' (a + k) = m (a + k)) : At m' a l :=
  fun k hk => by rw [e k hk, h k hk]

theorem create_in {m : Mem} {a : Nat} {l : List Byte} : At (create m a l) a l := by
  intro k hk
  unfold create
  rw [if_pos ⟨by omega, by omega⟩, show a + k - a = k by omega, List.getElem?_eq_getElem hk]

theorem create_out {m : Mem} {a : Nat} {l : List Byte} {x : Nat} (h : x < a ∨ a + l.length ≤ x) : create m a l x = m x := by
  unfold create; rw [if_neg (by omega)]

theorem wipe_out {m : Mem} {a n x : Nat} (h : x < a ∨ a + n ≤ x) : wipe m a n x = m x := by
  unfold wipe; rw [if_neg (by omega)]

theorem At.append {m : Mem} {a : Nat} {l l' : List Byte} (h : At m a l) (h' : At m (a + l.length) l') : At m a (l ++ l') := by
  intro k hk
  rw [List.length_append] at hk
  by_cases c : k < l.length
  · rw [h k c, List.getElem_append_left c]
  · have := h' (k - l.length) (by omega)
    rw [show a + l.length + (k - l.length) = a + k by omega] at this
    rw [this, List.getElem_append_right (by omega)]

/-! ## The invariant -/

/-- A vector in memory that has the bytes `d`. -/
structure Rel (m : Mem) (v : Vec) (d : List Byte) : Prop where
  size : v.size = d.length
  cap : v.size ≤ v.cap
  cells : At m v.addr d

/-- Apart from each other. -/
def Disj (u v : Vec) : Prop := u.addr + u.cap ≤ v.addr ∨ v.addr + v.cap ≤ u.addr

structure Inv (s : St) (e : Env) : Prop where
  len : s.vecs.length = e.vecs.length
  vecs : ∀ {i : Nat} {w : SVec}, e.vecs[i]? = some (some w) → ∃ v, s.vecs[i]? = some (some v) ∧ Rel s.mem v w.data
  dead : ∀ {i : Nat}, e.vecs[i]? = some none → s.vecs[i]? = some none
  disj : ∀ {i j : Nat} {u v : Vec}, i ≠ j → s.vecs[i]? = some (some u) → s.vecs[j]? = some (some v) → Disj u v
  views : ∀ {j : Nat} {w : SView}, e.views[j]? = some w → w.vec < e.vecs.length ∧ ∃ p, s.views[j]? = some p ∧
    ∀ (x : SVec) (v : Vec), e.vecs[w.vec]? = some (some x) → s.vecs[w.vec]? = some (some v) → w.age ≤ x.age ∧
      (x.age = w.age → w.off + w.len ≤ x.data.length ∧ p = ⟨v.addr + w.off, w.len⟩)
  vlen : s.views.length = e.views.length
  outs : s.outs = e.outs

theorem Inv.alive {s : St} {e : Env} (I : Inv s e) {i : Nat} {v : Vec} (h : s.vecs[i]? = some (some v)) :
    ∃ w, e.vecs[i]? = some (some w) ∧ Rel s.mem v w.data := by
  obtain ⟨hl, -⟩ := List.getElem?_eq_some_iff.1 h
  have hl' : i < e.vecs.length := I.len ▸ hl
  cases hw : e.vecs[i] with
  | none =>
    have := I.dead (List.getElem?_eq_some_iff.2 ⟨hl', hw⟩)
    rw [this] at h; cases h
  | some w =>
    have hw' := List.getElem?_eq_some_iff.2 ⟨hl', hw⟩
    obtain ⟨v', hv', r⟩ := I.vecs hw'
    rw [hv'] at h; cases h
    exact ⟨w, hw', r⟩

theorem Inv.empty : Inv St.empty ⟨[], [], []⟩ :=
  ⟨rfl, fun h => by simp at h, fun h => by simp at h, fun _ h => by simp [St.empty] at h, fun h => by simp at h, rfl, rfl⟩

/-- A vector is replaced, moved or written. -/
theorem Inv.replace {s : St} {e : Env} (I : Inv s e) {i : Nat} {w : SVec} {v : Vec} (hw : e.vecs[i]? = some (some w))
    (hv : s.vecs[i]? = some (some v)) {m : Mem} {v' : Vec} {w' : SVec} (r : Rel m v' w'.data)
    (hd : ∀ (j : Nat) (u : Vec), j ≠ i → s.vecs[j]? = some (some u) → Disj v' u)
    (hm : ∀ (j : Nat) (u : Vec), j ≠ i → s.vecs[j]? = some (some u) → ∀ k < u.size, m (u.addr + k) = s.mem (u.addr + k))
    (ha : w.age ≤ w'.age) (hs : w'.age = w.age → (w.data.length ≤ w'.data.length ∧ v'.addr = v.addr) ∨ ∀ x ∈ e.views, x.vec = i → x.age < w.age) :
    Inv { s with mem := m, vecs := s.vecs.set i (some v') } { e with vecs := e.vecs.set i (some w') } := by
  obtain ⟨hi, -⟩ := List.getElem?_eq_some_iff.1 hv
  have hi' : i < e.vecs.length := I.len ▸ hi
  refine ⟨by simp [I.len], ?_, ?_, ?_, ?_, I.vlen, I.outs⟩
  · intro j x hx
    dsimp only at hx ⊢
    rw [List.getElem?_set] at hx ⊢
    by_cases c : i = j
    · rw [if_pos c, if_pos (c ▸ hi')] at hx
      cases hx
      rw [if_pos c, if_pos (c ▸ hi)]
      exact ⟨v', rfl, r⟩
    · rw [if_neg c] at hx ⊢
      obtain ⟨u, hu, ru⟩ := I.vecs hx
      exact ⟨u, hu, ru.size, ru.cap, ru.cells.congr fun k hk => hm j u (Ne.symm c) hu k (ru.size ▸ hk)⟩
  · intro j hx
    dsimp only at hx ⊢
    rw [List.getElem?_set] at hx ⊢
    by_cases c : i = j
    · rw [if_pos c, if_pos (c ▸ hi')] at hx; cases hx
    · rw [if_neg c] at hx ⊢; exact I.dead hx
  · intro j k a b jk ha hb
    dsimp only at ha hb
    rw [List.getElem?_set] at ha hb
    by_cases c : i = j
    · rw [if_pos c, if_pos (c ▸ hi)] at ha; cases ha
      rw [if_neg (by omega)] at hb
      exact hd k b (by omega) hb
    · rw [if_neg c] at ha
      by_cases c' : i = k
      · rw [if_pos c', if_pos (c' ▸ hi)] at hb; cases hb
        exact (hd j a (by omega) ha).symm
      · rw [if_neg c'] at hb; exact I.disj jk ha hb
  · intro j x hx
    dsimp only at hx ⊢
    obtain ⟨hl, p, hp, h⟩ := I.views hx
    refine ⟨by simpa using hl, p, hp, ?_⟩
    intro y u hy hu
    rw [List.getElem?_set] at hy hu
    by_cases c : i = x.vec
    · rw [if_pos c, if_pos (c ▸ hi')] at hy; cases hy
      rw [if_pos c, if_pos (c ▸ hi)] at hu; cases hu
      obtain ⟨h1, h2⟩ := h w v (c ▸ hw) (c ▸ hv)
      refine ⟨le_trans h1 ha, fun ea => ?_⟩
      have ew : w.age = x.age := by omega
      rcases hs (by omega) with ⟨hl', hv'⟩ | hn
      · obtain ⟨h3, h4⟩ := h2 ew
        exact ⟨by omega, by rw [hv', h4]⟩
      · have := hn x (List.mem_of_getElem? hx) c.symm; omega
    · rw [if_neg c] at hy hu
      exact h y u hy hu

/-- A new vector. -/
theorem Inv.new {s : St} {e : Env} (I : Inv s e) {m : Mem} {v : Vec} {l : List Byte} (r : Rel m v l)
    (hd : ∀ (j : Nat) (u : Vec), s.vecs[j]? = some (some u) → Disj v u)
    (hm : ∀ (j : Nat) (u : Vec), s.vecs[j]? = some (some u) → ∀ k < u.size, m (u.addr + k) = s.mem (u.addr + k)) :
    Inv { s with mem := m, vecs := s.vecs ++ [some v] } (Ack.Spec.View.new e l) := by
  unfold Ack.Spec.View.new
  refine ⟨by simp [I.len], ?_, ?_, ?_, ?_, I.vlen, I.outs⟩
  · intro j x hx
    dsimp only at hx ⊢
    by_cases c : j < e.vecs.length
    · rw [List.getElem?_append_left c] at hx
      rw [List.getElem?_append_left (I.len ▸ c)]
      obtain ⟨u, hu, ru⟩ := I.vecs hx
      exact ⟨u, hu, ru.size, ru.cap, ru.cells.congr fun k hk => hm j u hu k (ru.size ▸ hk)⟩
    · rw [List.getElem?_append_right (by omega), List.getElem?_singleton] at hx
      rw [List.getElem?_append_right (by rw [I.len]; omega), List.getElem?_singleton, I.len]
      by_cases z : j - e.vecs.length = 0
      · rw [if_pos z] at hx ⊢; cases hx; exact ⟨v, rfl, r⟩
      · rw [if_neg z] at hx; cases hx
  · intro j hx
    dsimp only at hx ⊢
    by_cases c : j < e.vecs.length
    · rw [List.getElem?_append_left c] at hx
      rw [List.getElem?_append_left (I.len ▸ c)]
      exact I.dead hx
    · rw [List.getElem?_append_right (by omega), List.getElem?_singleton] at hx
      split at hx <;> cases hx
  · intro j k a b jk ha hb
    dsimp only at ha hb
    have key : ∀ {j : Nat} {a : Vec}, (s.vecs ++ [some v])[j]? = some (some a) → s.vecs[j]? = some (some a) ∨ (j = s.vecs.length ∧ a = v) := by
      intro j a ha
      by_cases c : j < s.vecs.length
      · rw [List.getElem?_append_left c] at ha; exact Or.inl ha
      · rw [List.getElem?_append_right (by omega), List.getElem?_singleton] at ha
        split at ha
        · cases ha; exact Or.inr ⟨by omega, rfl⟩
        · cases ha
    rcases key ha with h1 | ⟨h1, rfl⟩ <;> rcases key hb with h2 | ⟨h2, rfl⟩
    · exact I.disj jk h1 h2
    · exact (hd j a h1).symm
    · exact hd k b h2
    · omega
  · intro j x hx
    dsimp only at hx ⊢
    obtain ⟨hl, p, hp, h⟩ := I.views hx
    refine ⟨by simp; omega, p, hp, ?_⟩
    intro y u hy hu
    rw [List.getElem?_append_left hl] at hy
    rw [List.getElem?_append_left (I.len ▸ hl)] at hu
    exact h y u hy hu

theorem Inv.tell {s : St} {e : Env} (I : Inv s e) (b : Bool) : Inv { s with outs := s.outs ++ [b] } (Ack.Spec.View.tell e b) :=
  ⟨I.len, I.vecs, I.dead, I.disj, I.views, I.vlen, by unfold Ack.Spec.View.tell; dsimp only; rw [I.outs]⟩

theorem vec_ok {s : St} {i : Nat} {v : Vec} (h : s.vecs[i]? = some (some v)) : s.vec i = .ok v := by
  unfold St.vec; rw [h]

theorem bytes_some {e : Env} {i : Nat} {l : List Byte} (h : bytes e i = some l) : ∃ w, e.vecs[i]? = some (some w) ∧ w.data = l := by
  unfold bytes at h
  split at h
  · rename_i w hw; cases h; exact ⟨w, hw, rfl⟩
  · cases h

/-- An operand that may be used is a view of the part. -/
theorem Inv.span {s : St} {e : Env} (I : Inv s e) {o : Opd} {i off n : Nat} (h : part e o = some (i, off, n)) :
    ∃ w v, e.vecs[i]? = some (some w) ∧ s.vecs[i]? = some (some v) ∧ Rel s.mem v w.data ∧ off + n ≤ w.data.length ∧
      s.span o = .ok ⟨v.addr + off, n⟩ := by
  cases o with
  | vec j =>
    unfold part at h
    dsimp only at h
    split at h
    · rename_i w hw
      cases h
      obtain ⟨v, hv, r⟩ := I.vecs hw
      refine ⟨w, v, hw, hv, r, by omega, ?_⟩
      unfold St.span
      dsimp only
      rw [vec_ok hv, ok_bind, r.size]; rfl
    · cases h
  | view j =>
    unfold part at h
    dsimp only at h
    split at h
    · rename_i w hw
      split at h
      · rename_i x hx
        split at h
        · rename_i ha
          cases h
          obtain ⟨-, p, hp, hh⟩ := I.views hw
          obtain ⟨v, hv, r⟩ := I.vecs hx
          obtain ⟨-, h2⟩ := hh x v hx hv
          obtain ⟨h3, h4⟩ := h2 ha
          refine ⟨x, v, hx, hv, r, h3, ?_⟩
          unfold St.span
          dsimp only
          rw [hp, h4]
        · cases h
      · cases h
    · cases h

/-- What an operand shows is in memory. -/
theorem Inv.sees {s : St} {e : Env} (I : Inv s e) {o : Opd} {l : List Byte} (h : sees e o = some l) :
    ∃ a, s.span o = .ok ⟨a, l.length⟩ ∧ At s.mem a l := by
  unfold Ack.Spec.View.sees at h
  cases hp : part e o with
  | none => rw [hp] at h; cases h
  | some t =>
    obtain ⟨i, off, n⟩ := t
    rw [hp] at h
    obtain ⟨w, v, hw, hv, r, hle, hs⟩ := I.span hp
    have hb : bytes e i = some w.data := by unfold bytes; rw [hw]
    change (do let l ← bytes e i; some ((l.drop off).take n)) = some l at h
    rw [hb] at h
    cases h
    refine ⟨v.addr + off, ?_, r.cells.sub off n⟩
    rw [hs]; congr 2
    rw [List.length_take, List.length_drop]; omega

/-! ## Comparison -/

theorem eqLoop_at {m : Mem} : ∀ {l l' : List Byte} {a b : Nat}, At m a l → At m b l' → l.length = l'.length →
    eqLoop m l.length a b = .ok (decide (l = l')) := by
  intro l
  induction l with
  | nil => intro l' a b _ _ h; cases l' with
    | nil => rfl
    | cons _ _ => cases h
  | cons x t ih =>
    intro l' a b ha hb h
    cases l' with
    | nil => cases h
    | cons y t' =>
      have h0 := ha 0 (by simp)
      have h0' := hb 0 (by simp)
      rw [Nat.add_zero] at h0 h0'
      rw [List.length_cons, eqLoop, h0, h0']
      dsimp only [List.getElem_cons_zero]
      by_cases c : x = y
      · rw [if_pos c, ih (l' := t') (fun k hk => ?_) (fun k hk => ?_) (by simpa using h)]
        · simp [c]
        · have := ha (k + 1) (by simpa using hk)
          rw [show a + 1 + k = a + (k + 1) by omega, this]; rfl
        · have := hb (k + 1) (by simpa using hk)
          rw [show b + 1 + k = b + (k + 1) by omega, this]; rfl
      · rw [if_neg c]; simp [c]

theorem spanEq_at {m : Mem} {l l' : List Byte} {a b : Nat} (ha : At m a l) (hb : At m b l') :
    Spn.eq m ⟨a, l.length⟩ ⟨b, l'.length⟩ = .ok (decide (l = l')) := by
  unfold Spn.eq
  dsimp only
  by_cases c : a = b
  · subst c
    rw [if_pos rfl]
    congr 1
    by_cases hl : l.length = l'.length
    · have : l = l' := List.ext_getElem hl fun k h1 h2 => Option.some.inj ((ha k h1).symm.trans (hb k h2))
      simp [this]
    · rw [beq_false_of_ne hl, decide_eq_false (fun h : l = l' => hl (congrArg _ h))]
  · rw [if_neg c]
    by_cases hl : l.length = l'.length
    · rw [if_pos hl, eqLoop_at ha hb hl]
    · rw [if_neg hl, decide_eq_false (fun h : l = l' => hl (congrArg _ h))]

/-! ## memxor -/

/-- Memory after the first `i` bytes. -/
def partly (m : Mem) (d s i : Nat) : Mem := fun x => if d ≤ x ∧ x < d + i then
  (match m x, m (s + (x - d)) with | some a, some b => some (a ^^^ b) | _, _ => none) else m x

theorem partly_at {m : Mem} {d s i n j : Nat} {x y : List Byte} (hx : At m d x) (hy : At m s y) (lx : x.length = n) (ly : y.length = n)
    (hd : d ≤ s ∨ s + n ≤ d) (hj : i + j ≤ n) : At (partly m d s i) (d + i) ((x.drop i).take j) ∧
      At (partly m d s i) (s + i) ((y.drop i).take j) := by
  constructor <;> intro k hk <;> rw [List.length_take, List.length_drop] at hk
  · unfold partly
    rw [if_neg (by omega), List.getElem_take, List.getElem_drop, show d + i + k = d + (i + k) by omega, hx _ (by omega)]
  · unfold partly
    rw [if_neg (by omega), List.getElem_take, List.getElem_drop, show s + i + k = s + (i + k) by omega, hy _ (by omega)]

theorem partly_step {m : Mem} {d s i n j : Nat} {x y : List Byte} (hx : At m d x) (hy : At m s y) (lx : x.length = n) (ly : y.length = n)
    (hj : i + j ≤ n) : create (partly m d s i) (d + i) (List.zipWith (· ^^^ ·) ((x.drop i).take j) ((y.drop i).take j)) =
      partly m d s (i + j) := by
  have hl : (List.zipWith (· ^^^ ·) ((x.drop i).take j) ((y.drop i).take j)).length = j := by
    simp only [List.length_zipWith, List.length_take, List.length_drop]; omega
  funext a
  unfold create
  by_cases c : d + i ≤ a ∧ a < d + i + (List.zipWith (· ^^^ ·) ((x.drop i).take j) ((y.drop i).take j)).length
  · rw [if_pos c]
    rw [hl] at c
    unfold partly
    rw [if_pos (by omega)]
    obtain ⟨k, rfl⟩ : ∃ k, a = d + (i + k) := ⟨a - d - i, by omega⟩
    rw [show d + (i + k) - (d + i) = k by omega, show d + (i + k) - d = i + k by omega, hx _ (by omega), hy _ (by omega)]
    rw [List.getElem?_eq_getElem (by rw [hl]; omega), List.getElem_zipWith, List.getElem_take, List.getElem_take, List.getElem_drop,
      List.getElem_drop]
  · rw [if_neg c]
    rw [hl] at c
    unfold partly
    by_cases c' : d ≤ a ∧ a < d + i
    · rw [if_pos c', if_pos (by omega)]
    · rw [if_neg c', if_neg (by omega)]

theorem xor_move {m : Mem} {d s i n j : Nat} {x y : List Byte} (hx : At m d x) (hy : At m s y) (lx : x.length = n) (ly : y.length = n)
    (hd : d ≤ s ∨ s + n ≤ d) (hj : i + j ≤ n) : rd (partly m d s i) (d + i) j = .ok ((x.drop i).take j) ∧
      rd (partly m d s i) (s + i) j = .ok ((y.drop i).take j) ∧
      store (partly m d s i) (d + i) (List.zipWith (· ^^^ ·) ((x.drop i).take j) ((y.drop i).take j)) = .ok (partly m d s (i + j)) := by
  obtain ⟨h1, h2⟩ := partly_at hx hy lx ly hd hj
  have r1 := rd_at h1
  have r2 := rd_at h2
  rw [List.length_take, List.length_drop, show min j (x.length - i) = j by omega] at r1
  rw [List.length_take, List.length_drop, show min j (y.length - i) = j by omega] at r2
  refine ⟨r1, r2, ?_⟩
  unfold store
  have hl : (List.zipWith (· ^^^ ·) ((x.drop i).take j) ((y.drop i).take j)).length = j := by
    simp only [List.length_zipWith, List.length_take, List.length_drop]; omega
  rw [hl, r1, ok_bind, partly_step hx hy lx ly hj]

theorem xorBlocks_at {m : Mem} {d s n : Nat} {x y : List Byte} (hx : At m d x) (hy : At m s y) (lx : x.length = n) (ly : y.length = n)
    (hd : d ≤ s ∨ s + n ≤ d) (nb : Nat) (hn : nb ≤ n) : ∀ (f i : Nat), i ≤ nb → 16 ∣ nb - i → nb - i < f →
      xorBlocks d s nb f i (partly m d s i) = .ok (partly m d s nb) := by
  intro f
  induction f with
  | zero => intro i _ _ h; omega
  | succ f ih =>
    intro i hi hdv hf
    rw [xorBlocks]
    by_cases c : i = nb
    · rw [if_pos c, c]
    · have hge : i + 16 ≤ nb := by obtain ⟨q, hq⟩ := hdv; omega
      obtain ⟨e1, e2, e3⟩ := xor_move (i := i) (j := 16) hx hy lx ly hd (by omega)
      rw [if_neg c, e1, ok_bind, e2, ok_bind, xorBlock_spec _ _ (by simp; omega) (by simp; omega), ok_bind, e3, ok_bind]
      exact ih (i + 16) hge (by obtain ⟨q, hq⟩ := hdv; exact ⟨q - 1, by omega⟩) (by omega)

theorem xorTail_at {m : Mem} {d s n : Nat} {x y : List Byte} (hx : At m d x) (hy : At m s y) (lx : x.length = n) (ly : y.length = n)
    (hd : d ≤ s ∨ s + n ≤ d) : ∀ (f i : Nat), i ≤ n → n - i < f → xorTail d s n f i (partly m d s i) = .ok (partly m d s n) := by
  intro f
  induction f with
  | zero => intro i _ h; omega
  | succ f ih =>
    intro i hi hf
    rw [xorTail]
    by_cases c : i = n
    · rw [if_pos c, c]
    · obtain ⟨e1, e2, e3⟩ := xor_move (i := i) (j := 1) hx hy lx ly hd (by omega)
      rw [if_neg c, e1, ok_bind, e2, ok_bind, e3, ok_bind]
      exact ih (i + 1) (by omega) (by omega)

/-- `memxor` on views that do not overlap the wrong way. -/
theorem memxor_at {m : Mem} {dst src : Spn} {x y : List Byte} (hx : At m dst.addr x) (hy : At m src.addr y) (lx : x.length = dst.len)
    (ly : y.length = src.len) (num : Nat)
    (hd : dst.addr ≤ src.addr ∨ src.addr + min (min num dst.len) src.len ≤ dst.addr) :
    memxor m dst src num = .ok (partly m dst.addr src.addr (min (min num dst.len) src.len)) := by
  unfold memxor
  dsimp only
  generalize hn : min (min num dst.len) src.len = n at *
  have hx' := hx.sub 0 n
  have hy' := hy.sub 0 n
  rw [Nat.add_zero] at hx' hy'
  have e := xorBlocks_at (n := n) hx' hy' (by simp; omega) (by simp; omega) hd (n - n % 16) (by omega) (n + 1) 0 (by omega)
    (by rw [Nat.sub_zero]; exact Nat.dvd_sub_mod n) (by omega)
  rw [show partly m dst.addr src.addr 0 = m from funext fun a => if_neg (by omega)] at e
  rw [e, ok_bind]
  exact xorTail_at (n := n) hx' hy' (by simp; omega) (by simp; omega) hd (n + 1) _ (by omega) (by omega)

/-! ## Statements -/

theorem fresh {A : Alloc} (hA : Alloc.Ok A) (s : St) (n : Nat) {j : Nat} {u : Vec} (h : s.vecs[j]? = some (some u)) (k : Nat) :
    Disj ⟨(A s n).1, k, (A s n).2⟩ u := (hA s n).2 u (List.mem_of_getElem? h)

theorem Inv.make {A : Alloc} (hA : Alloc.Ok A) {s : St} {e : Env} (I : Inv s e) (l : List Byte) :
    Inv (s.make A l) (Ack.Spec.View.new e l) := by
  unfold St.make
  have hc := (hA s l.length).1
  refine I.new ⟨rfl, hc, create_in⟩ (fun j u hu => fresh hA s _ hu _) fun j u hu k hk => create_out ?_
  obtain ⟨w, -, r⟩ := I.alive hu
  have h := fresh hA s l.length hu 0
  have := r.cap
  unfold Disj at h
  dsimp only at h ⊢
  omega

/-- Bytes are put behind the end of a vector with room. -/
theorem Inv.extend {s : St} {e : Env} (I : Inv s e) {i : Nat} {w : SVec} {v : Vec} (hw : e.vecs[i]? = some (some w))
    (hv : s.vecs[i]? = some (some v)) (l : List Byte) (hc : v.size + l.length ≤ v.cap) {a : Nat} (ha : w.age ≤ a)
    (hs : a = w.age → ∀ x ∈ e.views, x.vec = i → x.age < w.age) :
    Inv (s.extend i v l) { e with vecs := e.vecs.set i (some ⟨w.data ++ l, a⟩) } := by
  obtain ⟨v', hv', r⟩ := I.vecs hw
  rw [hv] at hv'; cases hv'
  unfold St.extend
  refine I.replace hw hv ⟨by simp [r.size], hc, ?_⟩ (fun j u hj hu => ?_) (fun j u hj hu k hk => create_out ?_) ha
    fun h => Or.inr (hs h)
  · refine At.append (r.cells.congr fun k hk => create_out (Or.inl ?_)) ?_
    · have := r.size; omega
    · rw [← r.size]; exact create_in
  · exact (show Disj v u from I.disj (Ne.symm hj) hv hu)
  · obtain ⟨x, -, ru⟩ := I.alive hu
    have := I.disj (Ne.symm hj) hv hu
    have := ru.cap
    unfold Disj at *
    omega

/-- A vector moves to another block. -/
theorem Inv.grow {A : Alloc} (hA : Alloc.Ok A) {s : St} {e : Env} (I : Inv s e) {i : Nat} {w : SVec} {v : Vec}
    (hw : e.vecs[i]? = some (some w)) (hv : s.vecs[i]? = some (some v)) {n : Nat} (hn : v.size ≤ n) {a : Nat} (ha : w.age ≤ a)
    (hs : a = w.age → ∀ x ∈ e.views, x.vec = i → x.age < w.age) :
    ∃ s' v', s.grow A i v n = .ok (s', v') ∧ Inv s' { e with vecs := e.vecs.set i (some ⟨w.data, a⟩) } ∧
      s'.vecs = s.vecs.set i (some v') ∧ v'.size = v.size ∧ n ≤ v'.cap := by
  obtain ⟨v', hv', r⟩ := I.vecs hw
  rw [hv] at hv'; cases hv'
  have hc := (hA s n).1
  refine ⟨⟨create (wipe s.mem v.addr v.size) (A s n).1 w.data, s.vecs.set i (some ⟨(A s n).1, v.size, (A s n).2⟩), s.views, s.outs⟩, ⟨(A s n).1, v.size, (A s n).2⟩, ?_, ?_, rfl, rfl, hc⟩
  · unfold St.grow
    rw [show rd s.mem v.addr v.size = .ok w.data by rw [r.size, rd_at r.cells], ok_bind]
  · refine I.replace hw hv ⟨r.size, by dsimp only; omega, create_in⟩ (fun j u _ hu => fresh hA s n hu _) (fun j u hj hu k hk => ?_)
      ha fun h => Or.inr (hs h)
    obtain ⟨x, -, ru⟩ := I.alive hu
    have h1 := fresh hA s n hu 0
    have h2 := I.disj (Ne.symm hj) hv hu
    have h3 := ru.cap
    have h4 := r.size
    have h5 := r.cap
    unfold Disj at h1 h2
    dsimp only at h1
    rw [create_out (by omega), wipe_out (by omega)]

theorem Inv.pushBack {A : Alloc} (hA : Alloc.Ok A) {s : St} {e : Env} {d : List Byte} (I : Inv s (Ack.Spec.View.new e d))
    (hl : ∀ x ∈ e.views, x.vec ≠ e.vecs.length) (b : Byte) :
    ∃ s', s.pushBack A e.vecs.length b = .ok s' ∧ Inv s' (Ack.Spec.View.new e (d ++ [b])) ∧
      ∀ i, i ≠ e.vecs.length → s'.vecs[i]? = s.vecs[i]? := by
  have hw : (Ack.Spec.View.new e d).vecs[e.vecs.length]? = some (some ⟨d, 0⟩) := by
    unfold Ack.Spec.View.new; simp
  obtain ⟨v, hv, r⟩ := I.vecs hw
  have set_new : ∀ d', (Ack.Spec.View.new e d).vecs.set e.vecs.length (some ⟨d', 0⟩) = (Ack.Spec.View.new e d').vecs := by
    intro d'; unfold Ack.Spec.View.new; simp
  unfold St.pushBack
  rw [vec_ok hv, ok_bind]
  by_cases c : v.size < v.cap
  · rw [if_pos c]
    refine ⟨_, rfl, ?_, fun i hi => ?_⟩
    · have := I.extend hw hv [b] (by simp; omega) (a := 0) (le_refl _) fun _ x hx h => absurd h (hl x hx)
      rw [set_new] at this
      exact this
    · unfold St.extend; dsimp only; rw [List.getElem?_set_ne (Ne.symm hi)]
  · rw [if_neg c]
    obtain ⟨s1, v1, e1, I1, h1, h2, h3⟩ := I.grow hA hw hv (n := v.size + 1) (by omega) (a := 0) (le_refl _) fun _ x hx h => absurd h (hl x hx)
    rw [set_new] at I1
    have hv1 : s1.vecs[e.vecs.length]? = some (some v1) := by
      rw [h1, List.getElem?_set_self (List.getElem?_eq_some_iff.1 hv).1]
    rw [e1, ok_bind]
    refine ⟨_, rfl, ?_, fun i hi => ?_⟩
    · have := I1.extend (s := s1) (w := ⟨d, 0⟩) (by unfold Ack.Spec.View.new; simp) hv1 [b] (by simp; omega) (a := 0) (le_refl _) fun _ x hx h => absurd h (hl x hx)
      have h := set_new (d ++ [b])
      unfold Ack.Spec.View.new at this h ⊢
      dsimp only at this h ⊢
      rw [h] at this
      exact this
    · unfold St.extend; dsimp only; rw [List.getElem?_set_ne (Ne.symm hi), h1, List.getElem?_set_ne (Ne.symm hi)]

theorem Inv.copyBack {A : Alloc} (hA : Alloc.Ok A) {e : Env} (hl : ∀ x ∈ e.views, x.vec ≠ e.vecs.length) {i : Nat} (hi : i ≠ e.vecs.length)
    {v : Vec} {w : SVec} (hw : e.vecs[i]? = some (some w)) : ∀ (l : List Byte) (o : Nat) (d : List Byte) (s : St),
      w.data.drop o = l → s.vecs[i]? = some (some v) → Inv s (Ack.Spec.View.new e d) →
      ∃ s', St.copyBack A e.vecs.length l.length (v.addr + o) s = .ok s' ∧ Inv s' (Ack.Spec.View.new e (d ++ l)) ∧
        ∀ i, i ≠ e.vecs.length → s'.vecs[i]? = s.vecs[i]? := by
  intro l
  induction l with
  | nil => intro o d s _ _ I; exact ⟨s, rfl, by rwa [List.append_nil], fun _ _ => rfl⟩
  | cons b t ih =>
    intro o d s hd hv I
    have ho : o < w.data.length := by
      by_contra c
      rw [List.drop_eq_nil_of_le (by omega)] at hd; cases hd
    have hb : w.data[o] = b := by
      rw [List.drop_eq_getElem_cons ho] at hd; injection hd
    have ht : w.data.drop (o + 1) = t := by
      rw [List.drop_eq_getElem_cons ho] at hd; injection hd
    have hw' : (Ack.Spec.View.new e d).vecs[i]? = some (some w) := by
      unfold Ack.Spec.View.new
      rw [List.getElem?_append_left (List.getElem?_eq_some_iff.1 hw).1]; exact hw
    obtain ⟨v', hv', r⟩ := I.vecs hw'
    rw [hv] at hv'; cases hv'
    obtain ⟨s1, e1, I1, h1⟩ := I.pushBack hA hl b
    obtain ⟨s2, e2, I2, h2⟩ := ih (o + 1) (d ++ [b]) s1 ht (by rw [h1 i hi, hv]) I1
    refine ⟨s2, ?_, by rwa [List.append_assoc] at I2, fun j hj => by rw [h2 j hj, h1 j hj]⟩
    rw [List.length_cons, St.copyBack, r.cells o ho, hb]
    dsimp only
    rw [e1, ok_bind]
    exact e2

theorem Inv.cat {A : Alloc} (hA : Alloc.Ok A) {s : St} {e : Env} (I : Inv s e) {i j : Nat} {x y : List Byte} (hx : bytes e i = some x)
    (hy : bytes e j = some y) : ∃ s', s.cat A i j = .ok s' ∧ Inv s' (Ack.Spec.View.new e (x ++ y)) := by
  obtain ⟨w, hw, rfl⟩ := bytes_some hx
  obtain ⟨w', hw', rfl⟩ := bytes_some hy
  obtain ⟨v, hv, r⟩ := I.vecs hw
  obtain ⟨v', hv', r'⟩ := I.vecs hw'
  have hl : ∀ x ∈ e.views, x.vec ≠ e.vecs.length := fun x hx h => by
    obtain ⟨k, hk⟩ := List.getElem?_of_mem hx
    have := (I.views hk).1
    omega
  have hi : i ≠ e.vecs.length := by have := (List.getElem?_eq_some_iff.1 hw).1; omega
  have hj : j ≠ e.vecs.length := by have := (List.getElem?_eq_some_iff.1 hw').1; omega
  unfold St.cat
  rw [vec_ok hv, ok_bind, vec_ok hv', ok_bind]
  have I0 : Inv { s with vecs := s.vecs ++ [some ⟨(A s (v.size + v'.size)).1, 0, (A s (v.size + v'.size)).2⟩] } (Ack.Spec.View.new e []) :=
    I.new (m := s.mem) ⟨rfl, Nat.zero_le _, fun k hk => absurd hk (by simp)⟩ (fun j u hu => fresh hA s _ hu _) fun _ _ _ _ _ => rfl
  have hv0 : ∀ {k : Nat} {u : Vec}, s.vecs[k]? = some (some u) →
      (s.vecs ++ [some (⟨(A s (v.size + v'.size)).1, 0, (A s (v.size + v'.size)).2⟩ : Vec)])[k]? = some (some u) := fun h => by
    rw [List.getElem?_append_left (List.getElem?_eq_some_iff.1 h).1, h]
  obtain ⟨s1, e1, I1, h1⟩ := Inv.copyBack hA hl hi hw w.data 0 [] _ List.drop_zero (hv0 hv) I0
  obtain ⟨s2, e2, I2, h2⟩ := Inv.copyBack hA hl hj hw' w'.data 0 ([] ++ w.data) s1 List.drop_zero (by rw [h1 j hj]; exact hv0 hv') I1
  refine ⟨s2, ?_, by simpa using I2⟩
  dsimp only
  rw [Nat.add_zero, ← r.size] at e1
  rw [Nat.add_zero, ← r'.size] at e2
  rw [I.len, e1, ok_bind, e2]

theorem Inv.append {A : Alloc} (hA : Alloc.Ok A) {s : St} {e : Env} (I : Inv s e) {i j : Nat} (hij : i ≠ j) {w : SVec}
    (hw : e.vecs[i]? = some (some w)) {l : List Byte} (hl : bytes e j = some l) :
    ∃ s', s.append A i j = .ok s' ∧ Inv s' (grown e i w l) := by
  obtain ⟨w', hw', rfl⟩ := bytes_some hl
  obtain ⟨v, hv, r⟩ := I.vecs hw
  obtain ⟨v', hv', r'⟩ := I.vecs hw'
  unfold St.append
  rw [vec_ok hv, ok_bind, vec_ok hv', ok_bind, if_neg hij, r'.size, rd_at r'.cells, ok_bind]
  by_cases c : v.size + w'.data.length ≤ v.cap
  · rw [if_pos c]
    exact ⟨_, rfl, I.extend hw hv w'.data c (a := w.age + 1) (by omega) (by omega)⟩
  · rw [if_neg c]
    obtain ⟨s1, v1, e1, I1, h1, h2, h3⟩ := I.grow hA hw hv (n := v.size + w'.data.length) (by omega) (a := w.age + 1) (by omega) (by omega)
    rw [e1, ok_bind]
    refine ⟨_, rfl, ?_⟩
    have hv1 : s1.vecs[i]? = some (some v1) := by rw [h1, List.getElem?_set_self (List.getElem?_eq_some_iff.1 hv).1]
    have hi := (List.getElem?_eq_some_iff.1 hw).1
    have := I1.extend (s := s1) (w := ⟨w.data, w.age + 1⟩) (List.getElem?_set_self hi) hv1 w'.data (by omega) (a := w.age + 1) (le_refl _)
      fun _ x hx h => by
        obtain ⟨k, hk⟩ := List.getElem?_of_mem hx
        obtain ⟨-, p, -, hh⟩ := I.views hk
        have := (hh w v (h ▸ hw) (h ▸ hv)).1
        dsimp only; omega
    unfold grown
    dsimp only at this
    rw [List.set_set] at this
    exact this

theorem Inv.view {s : St} {e : Env} (I : Inv s e) {o : Opd} {i o' n : Nat} (h : part e o = some (i, o', n)) {w : SVec}
    (hw : e.vecs[i]? = some (some w)) {off len : Nat} (hle : off + len ≤ n) :
    ∃ p, s.span o = .ok p ∧ ∃ q, St.sub p off len = .ok q ∧
      Inv { s with views := s.views ++ [q] } { e with views := e.views ++ [⟨i, w.age, o' + off, len⟩] } := by
  obtain ⟨w', v, hw', hv, r, hl, hs⟩ := I.span h
  rw [hw] at hw'; cases hw'
  refine ⟨_, hs, ⟨v.addr + o' + off, len⟩, if_pos hle, I.len, I.vecs, I.dead, I.disj, ?_, by simp [I.vlen], I.outs⟩
  intro j x hx
  dsimp only at hx ⊢
  by_cases c : j < e.views.length
  · rw [List.getElem?_append_left c] at hx
    rw [List.getElem?_append_left (I.vlen ▸ c)]
    exact I.views hx
  · rw [List.getElem?_append_right (by omega), List.getElem?_singleton] at hx
    rw [List.getElem?_append_right (by rw [I.vlen]; omega), List.getElem?_singleton, I.vlen]
    by_cases z : j - e.views.length = 0
    · rw [if_pos z] at hx ⊢; cases hx
      refine ⟨(List.getElem?_eq_some_iff.1 hw).1, _, rfl, fun y u hy hu => ?_⟩
      dsimp only at hy hu ⊢
      rw [hw] at hy; cases hy
      rw [hv] at hu; cases hu
      exact ⟨le_refl _, fun _ => ⟨by omega, by rw [Nat.add_assoc]⟩⟩
    · rw [if_neg z] at hx; cases hx

theorem Inv.drop {s : St} {e : Env} (I : Inv s e) {i : Nat} {w : SVec} (hw : e.vecs[i]? = some (some w)) :
    ∃ s', s.drop i = .ok s' ∧ Inv s' { e with vecs := e.vecs.set i none } := by
  obtain ⟨v, hv, r⟩ := I.vecs hw
  obtain ⟨hi, -⟩ := List.getElem?_eq_some_iff.1 hv
  have hi' : i < e.vecs.length := I.len ▸ hi
  unfold St.drop
  rw [vec_ok hv, ok_bind]
  refine ⟨_, rfl, by simp [I.len], ?_, ?_, ?_, ?_, I.vlen, I.outs⟩
  · intro j x hx
    dsimp only at hx ⊢
    rw [List.getElem?_set] at hx ⊢
    by_cases c : i = j
    · rw [if_pos c, if_pos (c ▸ hi')] at hx; cases hx
    · rw [if_neg c] at hx ⊢
      obtain ⟨u, hu, ru⟩ := I.vecs hx
      refine ⟨u, hu, ru.size, ru.cap, ru.cells.congr fun k hk => wipe_out ?_⟩
      have h2 := I.disj c hv hu
      have h3 := ru.cap
      have h4 := ru.size
      have h5 := r.cap
      unfold Disj at h2
      omega
  · intro j hx
    dsimp only at hx ⊢
    rw [List.getElem?_set] at hx ⊢
    by_cases c : i = j
    · rw [if_pos c, if_pos (c ▸ hi)]
    · rw [if_neg c] at hx ⊢; exact I.dead hx
  · intro j k a b jk ha hb
    dsimp only at ha hb
    rw [List.getElem?_set] at ha hb
    by_cases c : i = j
    · rw [if_pos c, if_pos (c ▸ hi)] at ha; cases ha
    · rw [if_neg c] at ha
      by_cases c' : i = k
      · rw [if_pos c', if_pos (c' ▸ hi)] at hb; cases hb
      · rw [if_neg c'] at hb; exact I.disj jk ha hb
  · intro j x hx
    dsimp only at hx ⊢
    obtain ⟨hl, p, hp, h⟩ := I.views hx
    refine ⟨by simpa using hl, p, hp, ?_⟩
    intro y u hy hu
    rw [List.getElem?_set] at hy hu
    by_cases c : i = x.vec
    · rw [if_pos c, if_pos (c ▸ hi')] at hy; cases hy
    · rw [if_neg c] at hy hu
      exact h y u hy hu

theorem xorAt_at {m : Mem} {a : Nat} {l : List Byte} (h : At m a l) {d sa n : Nat} {y : List Byte} (hy : At m sa y) (ly : y.length = n)
    (hd : d + n ≤ l.length) : At (partly m (a + d) sa n) a (xorAt l d y) := by
  intro k hk
  unfold xorAt at hk ⊢
  rw [List.length_mapIdx] at hk
  rw [List.getElem_mapIdx]
  unfold partly
  by_cases c : d ≤ k ∧ k < d + y.length
  · rw [if_pos (by omega), if_pos c, h k hk, show a + k - (a + d) = k - d by omega, hy (k - d) (by omega)]
    dsimp only
    rw [List.getD_eq_getElem?_getD, List.getElem?_eq_getElem (by omega)]; rfl
  · rw [if_neg (by omega), if_neg c, h k hk]

theorem Inv.memxor {s : St} {e : Env} (I : Inv s e) {d o : Opd} {i a n1 j b n2 num : Nat} (hd : part e d = some (i, a, n1))
    (ho : part e o = some (j, b, n2)) {w : SVec} (hw : e.vecs[i]? = some (some w)) {src : List Byte} (hsrc : bytes e j = some src)
    (hn : ¬(i = j ∧ b < a ∧ a < b + min (min num n1) n2)) :
    ∃ p q m, s.span d = .ok p ∧ s.span o = .ok q ∧ View.memxor s.mem p q num = .ok m ∧ Inv { s with mem := m }
      { e with vecs := e.vecs.set i (some ⟨xorAt w.data a ((src.drop b).take (min (min num n1) n2)), w.age⟩) } := by
  obtain ⟨w1, v1, hw1, hv1, r1, l1, s1⟩ := I.span hd
  obtain ⟨w2, v2, hw2, hv2, r2, l2, s2⟩ := I.span ho
  rw [hw] at hw1; cases hw1
  obtain ⟨w2', hw2', rfl⟩ := bytes_some hsrc
  rw [hw2] at hw2'; cases hw2'
  have hx := r1.cells.sub a n1
  have hy := r2.cells.sub b n2
  have h1 := r1.size
  have h2 := r1.cap
  have h3 := r2.size
  have h4 := r2.cap
  have apart : v1.addr + a ≤ v2.addr + b ∨ v2.addr + b + min (min num n1) n2 ≤ v1.addr + a := by
    by_cases c : i = j
    · subst c
      rw [hv1] at hv2; cases hv2
      have : ¬(b < a ∧ a < b + min (min num n1) n2) := fun h => hn ⟨rfl, h⟩
      omega
    · have := I.disj c hv1 hv2
      unfold Disj at this
      omega
  have hmx := memxor_at (m := s.mem) (dst := ⟨v1.addr + a, n1⟩) (src := ⟨v2.addr + b, n2⟩) hx hy
    (by simp only [List.length_take, List.length_drop]; omega) (by simp only [List.length_take, List.length_drop]; omega) num apart
  refine ⟨_, _, _, s1, s2, hmx, ?_⟩
  dsimp only
  have hlen : ∀ y, (xorAt w.data a y).length = w.data.length := fun y => by unfold xorAt; rw [List.length_mapIdx]
  have hset : s.vecs.set i (some v1) = s.vecs := by
    obtain ⟨hl, he⟩ := List.getElem?_eq_some_iff.1 hv1
    rw [← he, List.set_getElem_self]
  have := I.replace hw hv1 (m := partly s.mem (v1.addr + a) (v2.addr + b) (min (min num n1) n2)) (v' := v1)
    (w' := ⟨xorAt w.data a ((w2.data.drop b).take (min (min num n1) n2)), w.age⟩) ⟨by rw [hlen]; exact h1, h2, ?_⟩
    (fun k u hk hu => I.disj (Ne.symm hk) hv1 hu) (fun k u hk hu t ht => ?_) (le_refl _) fun _ => Or.inl ⟨by rw [hlen], rfl⟩
  · rw [hset] at this; exact this
  · refine xorAt_at r1.cells (r2.cells.sub b _) ?_ (by omega)
    simp only [List.length_take, List.length_drop]; omega
  · have h5 := I.disj (Ne.symm hk) hv1 hu
    obtain ⟨_, -, ru⟩ := I.alive hu
    have h6 := ru.cap
    unfold Disj at h5
    unfold partly
    rw [if_neg (by omega)]

theorem keyEq_at {m : Mem} {m1 m2 e1 e2 : List Byte} {a b c d : Nat} (h1 : At m a m1) (h2 : At m b e1) (h3 : At m c m2) (h4 : At m d e2) :
    keyEq m ⟨a, m1.length⟩ ⟨b, e1.length⟩ ⟨c, m2.length⟩ ⟨d, e2.length⟩ = .ok (decide (m1 = m2) && decide (e1 = e2)) := by
  unfold keyEq
  rw [spanEq_at h2 h4, ok_bind]
  by_cases hc : e1 = e2
  · rw [decide_eq_true hc, if_pos rfl, spanEq_at h1 h3, Bool.and_true]
  · rw [decide_eq_false hc, if_neg (by decide), Bool.and_false]

theorem pssEq_at {m : Mem} {m1 m2 e1 e2 : List Byte} {a b c d : Nat} (h1 : At m a m1) (h2 : At m b e1) (h3 : At m c m2) (h4 : At m d e2)
    (s1 s2 : Option (BitVec 32)) : pssEq m ⟨a, m1.length⟩ ⟨b, e1.length⟩ s1 ⟨c, m2.length⟩ ⟨d, e2.length⟩ s2 =
      .ok (decide (m1 = m2) && decide (e1 = e2) && decide (s1 = s2)) := by
  unfold pssEq
  rw [spanEq_at h2 h4, ok_bind]
  by_cases hc : e1 = e2
  · rw [decide_eq_true hc, if_pos rfl, spanEq_at h1 h3, ok_bind, Bool.and_true, Bool.beq_eq_decide_eq]
  · rw [decide_eq_false hc, if_neg (by decide), Bool.and_false, Bool.false_and]

theorem bind_some {α β : Type} {x : Option α} {f : α → Option β} {b : β} (h : (x >>= f) = some b) : ∃ a, x = some a ∧ f a = some b := by
  cases x with
  | none => cases h
  | some a => exact ⟨a, rfl, h⟩

/-- One statement. -/
theorem step_exec {A : Alloc} (hA : Alloc.Ok A) {s : St} {e e' : Env} (I : Inv s e) (c : Stmt) (h : step e c = some e') :
    ∃ s', c.exec A s = .ok s' ∧ Inv s' e' := by
  cases c with
  | make l => cases h; exact ⟨_, rfl, I.make hA l⟩
  | copy o =>
    obtain ⟨l, hl, h⟩ := bind_some h
    cases h
    obtain ⟨a, hs, ha⟩ := I.sees hl
    refine ⟨_, ?_, I.make hA l⟩
    unfold Stmt.exec St.makeBytes
    dsimp only
    rw [hs, ok_bind, rd_at ha, ok_bind]
  | cat i j =>
    obtain ⟨x, hx, h⟩ := bind_some h
    obtain ⟨y, hy, h⟩ := bind_some h
    cases h
    exact I.cat hA hx hy
  | append i j =>
    unfold step at h
    dsimp only at h
    split at h
    · cases h
    · rename_i hij
      split at h
      · rename_i w hw
        obtain ⟨l, hl, h⟩ := bind_some h
        cases h
        exact I.append hA hij hw hl
      · cases h
  | view o off len =>
    obtain ⟨⟨i, o', n⟩, hp, h⟩ := bind_some h
    dsimp only at h
    split at h
    · rename_i w hw
      split at h
      · rename_i hle
        cases h
        obtain ⟨p, hs, q, hq, J⟩ := I.view hp hw hle
        refine ⟨_, ?_, J⟩
        unfold Stmt.exec
        dsimp only
        rw [hs, ok_bind, hq, ok_bind]
      · cases h
    · cases h
  | memxor d o num =>
    obtain ⟨⟨i, a, n1⟩, hd, h⟩ := bind_some h
    obtain ⟨⟨j, b, n2⟩, ho, h⟩ := bind_some h
    obtain ⟨src, hsrc, h⟩ := bind_some h
    dsimp only at h
    split at h
    · rename_i w hw
      split at h
      · cases h
      · rename_i hn
        cases h
        obtain ⟨p, q, m, h1, h2, h3, J⟩ := I.memxor hd ho hw hsrc hn
        refine ⟨_, ?_, J⟩
        unfold Stmt.exec
        dsimp only
        rw [h1, ok_bind, h2, ok_bind, h3, ok_bind]
    · cases h
  | drop i =>
    obtain ⟨l, hl, h⟩ := bind_some h
    cases h
    obtain ⟨w, hw, -⟩ := bytes_some hl
    exact I.drop hw
  | eq a b =>
    obtain ⟨x, hx, h⟩ := bind_some h
    obtain ⟨y, hy, h⟩ := bind_some h
    cases h
    obtain ⟨p, hp, ap⟩ := I.sees hx
    obtain ⟨q, hq, aq⟩ := I.sees hy
    refine ⟨_, ?_, I.tell _⟩
    unfold Stmt.exec
    dsimp only
    rw [hp, ok_bind, hq, ok_bind, spanEq_at ap aq, ok_bind]
  | ne a b =>
    obtain ⟨x, hx, h⟩ := bind_some h
    obtain ⟨y, hy, h⟩ := bind_some h
    cases h
    obtain ⟨p, hp, ap⟩ := I.sees hx
    obtain ⟨q, hq, aq⟩ := I.sees hy
    refine ⟨_, ?_, I.tell _⟩
    unfold Stmt.exec
    dsimp only
    rw [hp, ok_bind, hq, ok_bind, spanEq_at ap aq, ok_bind, decide_not]
  | keyEq m1 e1 m2 e2 =>
    obtain ⟨x1, hx1, h⟩ := bind_some h
    obtain ⟨x2, hx2, h⟩ := bind_some h
    obtain ⟨x3, hx3, h⟩ := bind_some h
    obtain ⟨x4, hx4, h⟩ := bind_some h
    cases h
    obtain ⟨p1, hp1, a1⟩ := I.sees hx1
    obtain ⟨p2, hp2, a2⟩ := I.sees hx2
    obtain ⟨p3, hp3, a3⟩ := I.sees hx3
    obtain ⟨p4, hp4, a4⟩ := I.sees hx4
    refine ⟨_, ?_, I.tell _⟩
    unfold Stmt.exec
    dsimp only
    rw [hp1, ok_bind, hp3, ok_bind, hp2, ok_bind, hp4, ok_bind, keyEq_at a1 a3 a2 a4, ok_bind]
  | keyNe m1 e1 m2 e2 =>
    obtain ⟨x1, hx1, h⟩ := bind_some h
    obtain ⟨x2, hx2, h⟩ := bind_some h
    obtain ⟨x3, hx3, h⟩ := bind_some h
    obtain ⟨x4, hx4, h⟩ := bind_some h
    cases h
    obtain ⟨p1, hp1, a1⟩ := I.sees hx1
    obtain ⟨p2, hp2, a2⟩ := I.sees hx2
    obtain ⟨p3, hp3, a3⟩ := I.sees hx3
    obtain ⟨p4, hp4, a4⟩ := I.sees hx4
    refine ⟨_, ?_, I.tell _⟩
    unfold Stmt.exec
    dsimp only
    rw [hp1, ok_bind, hp3, ok_bind, hp2, ok_bind, hp4, ok_bind, keyEq_at a1 a3 a2 a4, ok_bind]
  | pssEq m1 e1 s1 m2 e2 s2 =>
    obtain ⟨x1, hx1, h⟩ := bind_some h
    obtain ⟨x2, hx2, h⟩ := bind_some h
    obtain ⟨x3, hx3, h⟩ := bind_some h
    obtain ⟨x4, hx4, h⟩ := bind_some h
    cases h
    obtain ⟨p1, hp1, a1⟩ := I.sees hx1
    obtain ⟨p2, hp2, a2⟩ := I.sees hx2
    obtain ⟨p3, hp3, a3⟩ := I.sees hx3
    obtain ⟨p4, hp4, a4⟩ := I.sees hx4
    refine ⟨_, ?_, I.tell _⟩
    unfold Stmt.exec
    dsimp only
    rw [hp1, ok_bind, hp3, ok_bind, hp2, ok_bind, hp4, ok_bind, pssEq_at a1 a3 a2 a4, ok_bind]
  | pssNe m1 e1 s1 m2 e2 s2 =>
    obtain ⟨x1, hx1, h⟩ := bind_some h
    obtain ⟨x2, hx2, h⟩ := bind_some h
    obtain ⟨x3, hx3, h⟩ := bind_some h
    obtain ⟨x4, hx4, h⟩ := bind_some h
    cases h
    obtain ⟨p1, hp1, a1⟩ := I.sees hx1
    obtain ⟨p2, hp2, a2⟩ := I.sees hx2
    obtain ⟨p3, hp3, a3⟩ := I.sees hx3
    obtain ⟨p4, hp4, a4⟩ := I.sees hx4
    refine ⟨_, ?_, I.tell _⟩
    unfold Stmt.exec
    dsimp only
    rw [hp1, ok_bind, hp3, ok_bind, hp2, ok_bind, hp4, ok_bind, pssEq_at a1 a3 a2 a4, ok_bind]

theorem run_exec {A : Alloc} (hA : Alloc.Ok A) (p : List Stmt) : ∀ {s : St} {e e' : Env}, Inv s e → run p e = some e' →
    ∃ s', exec A p s = .ok s' ∧ Inv s' e' := by
  induction p with
  | nil => intro s e e' I h; cases h; exact ⟨s, rfl, I⟩
  | cons c p ih =>
    intro s e e' I h
    obtain ⟨e1, h1, h2⟩ := bind_some h
    obtain ⟨s1, x1, I1⟩ := step_exec hA I c h1
    obtain ⟨s2, x2, I2⟩ := ih I1 h2
    exact ⟨s2, by rw [exec, x1, ok_bind, x2], I2⟩

theorem Inv.contents {s : St} {e : Env} (I : Inv s e) : s.contents = .ok (e.vecs.map (Option.map Ack.Spec.View.Vec.data), e.outs) := by
  have key : ∀ (l : List (Option Vec)) (l' : List (Option SVec)), l.length = l'.length →
      (∀ (i : Nat) (w : SVec), l'[i]? = some (some w) → ∃ v, l[i]? = some (some v) ∧ Rel s.mem v w.data) → (∀ (i : Nat), l'[i]? = some none → l[i]? = some none) →
      l.mapM s.read = .ok (l'.map (Option.map Ack.Spec.View.Vec.data)) := by
    intro l
    induction l with
    | nil => intro l' hl _ _; cases l' with
      | nil => rfl
      | cons _ _ => cases hl
    | cons a t ih =>
      intro l' hl h1 h2
      cases l' with
      | nil => cases hl
      | cons a' t' =>
        have ht := ih t' (by simpa using hl) (fun i w hw => by have := h1 (i + 1) w (by simpa using hw); simpa using this)
          (fun i hw => by have := h2 (i + 1) (by simpa using hw); simpa using this)
        rw [List.mapM_cons, ht, List.map_cons]
        cases a' with
        | none =>
          have := h2 0 rfl
          simp only [List.getElem?_cons_zero, Option.some.injEq] at this
          subst this; rfl
        | some w =>
          obtain ⟨v, hv, r⟩ := h1 0 w rfl
          simp only [List.getElem?_cons_zero, Option.some.injEq] at hv
          subst hv
          rw [St.read, r.size, rd_at r.cells]; rfl
  unfold St.contents
  rw [key _ _ I.len (fun i w h => I.vecs h) (fun i h => I.dead h), ok_bind, I.outs]

end Ack.View
