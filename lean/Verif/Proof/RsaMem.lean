import Verif.Model.RsaMem
import Verif.Proof.Views
import Verif.Proof.RsaPss
import Verif.Proof.RsaApi
import Verif.Proof.PowmApi
import Verif.Spec.RsaMem
/-!
# MGF1 and RSA verification in memory: proofs
-/
namespace Ack.View
open Big (Byte)

/-! ## Memory as a value -/

/-- Only finitely many bytes exist. -/
def Fin (m : Mem) : Prop := ∃ b, ∀ x, b ≤ x → m x = none

/-- New objects are placed where there is nothing. -/
def Place.Ok (A : Place) : Prop := ∀ m, Fin m → ∀ n k, k < n → m ((A m n).1 + k) = none

/-- There is nothing at `a`. -/
def Free (m : Mem) (a n : Nat) : Prop := ∀ k < n, m (a + k) = none

theorem Fin.create {m : Mem} (h : Fin m) (a : Nat) (l : List Byte) : Fin (create m a l) := by
  obtain ⟨b, h⟩ := h
  refine ⟨b + a + l.length, fun x hx => ?_⟩
  rw [create_out (by omega), h x (by omega)]

theorem create_at {m : Mem} {a : Nat} {l : List Byte} {x : Nat} (h : a ≤ x) (h' : x < a + l.length) : create m a l x = l[x - a]? := by
  unfold View.create; rw [if_pos ⟨h, h'⟩]

theorem create_same {m : Mem} {a : Nat} {l l' : List Byte} (h : l'.length = l.length) : create (create m a l) a l' = create m a l' := by
  funext x
  unfold create
  by_cases c : a ≤ x ∧ x < a + l'.length
  · rw [if_pos c, if_pos c]
  · rw [if_neg c, if_neg c, if_neg (h ▸ c)]

/-- A part of a list is replaced. -/
def over (l : List Byte) (o : Nat) (x : List Byte) : List Byte := l.take o ++ x ++ l.drop (o + x.length)

theorem over_length {l x : List Byte} {o : Nat} (h : o + x.length ≤ l.length) : (over l o x).length = l.length := by
  unfold over; simp only [List.length_append, List.length_take, List.length_drop]; omega

theorem create_over {m : Mem} {a o : Nat} {l x : List Byte} (h : o + x.length ≤ l.length) :
    create (create m a l) (a + o) x = create m a (over l o x) := by
  funext y
  by_cases c : a ≤ y ∧ y < a + l.length
  · rw [create_at (l := over l o x) c.1 (by rw [over_length h]; exact c.2)]
    unfold over
    by_cases c1 : y < a + o
    · rw [create_out (.inl c1), create_at c.1 c.2, List.append_assoc, List.getElem?_append_left (by rw [List.length_take]; omega), List.getElem?_take,
        if_pos (by omega)]
    · by_cases c2 : y < a + o + x.length
      · rw [create_at (by omega) c2, List.getElem?_append_left (by simp only [List.length_append, List.length_take]; omega),
          List.getElem?_append_right (by rw [List.length_take]; omega)]
        congr 1
        rw [List.length_take]; omega
      · rw [create_out (.inr (by omega)), create_at c.1 c.2, List.getElem?_append_right (by simp only [List.length_append, List.length_take]; omega),
          List.getElem?_drop]
        congr 1
        simp only [List.length_append, List.length_take]; omega
  · rw [create_out (a := a + o) (by omega), create_out (a := a) (by omega), create_out (a := a) (by rw [over_length h]; omega)]

theorem create_comm {m : Mem} {a b : Nat} {l x : List Byte} (h : a + l.length ≤ b ∨ b + x.length ≤ a) :
    create (create m a l) b x = create (create m b x) a l := by
  funext y
  unfold create
  by_cases c : a ≤ y ∧ y < a + l.length
  · rw [if_pos c, if_neg (by omega), if_pos c]
  · rw [if_neg c, if_neg c]

theorem wipe_create {m : Mem} {a : Nat} {l : List Byte} (h : Free m a l.length) : wipe (create m a l) a l.length = m := by
  funext y
  unfold wipe
  by_cases c : a ≤ y ∧ y < a + l.length
  · rw [if_pos c]
    have := h (y - a) (by omega)
    rw [show a + (y - a) = y by omega] at this
    exact this.symm
  · rw [if_neg c, create_out (by omega)]

theorem Free.out {m : Mem} {a n : Nat} (h : Free m a n) {x : Nat} {b : Byte} (hx : m x = some b) : x < a ∨ a + n ≤ x := by
  by_contra c
  have := h (x - a) (by omega)
  rw [show a + (x - a) = x by omega, hx] at this
  cases this

theorem Free.disj {m : Mem} {a b n : Nat} {l : List Byte} (h : Free m a n) (hl : At m b l) : l = [] ∨ n = 0 ∨ a + n ≤ b ∨ b + l.length ≤ a := by
  by_contra c
  push_neg at c
  obtain ⟨c1, c2, c3, c4⟩ := c
  have hp : 0 < l.length := List.length_pos_iff.2 c1
  by_cases d : b ≤ a
  · have := h.out (hl (a - b) (by omega))
    omega
  · have := h.out (hl 0 hp)
    omega

theorem At.keep {m : Mem} {a b : Nat} {l x : List Byte} (h : At m a l) (hd : l = [] ∨ x = [] ∨ b + x.length ≤ a ∨ a + l.length ≤ b) :
    At (create m b x) a l := by
  refine h.congr fun k hk => create_out ?_
  rcases hd with rfl | rfl | h | h
  · cases hk
  · simp; omega
  · omega
  · omega

theorem At.fresh {m : Mem} {a b : Nat} {l x : List Byte} (h : At m a l) (hf : Free m b x.length) : At (create m b x) a l :=
  h.keep (by
    rcases hf.disj h with h | h | h | h
    · exact .inl h
    · exact .inr (.inl (List.length_eq_zero_iff.1 h))
    · exact .inr (.inr (.inl h))
    · exact .inr (.inr (.inr h)))

theorem rd_eq {m : Mem} {a n : Nat} {l : List Byte} (h : At m a l) (hl : l.length = n) : rd m a n = .ok l := hl ▸ rd_at h

theorem store_eq {m : Mem} {a : Nat} {l x : List Byte} (h : At m a l) (hl : x.length ≤ l.length) : store m a x = .ok (create m a x) := by
  unfold store
  have h0 := h.sub 0 x.length
  rw [Nat.add_zero, List.drop_zero] at h0
  rw [rd_eq h0 (by rw [List.length_take]; omega)]
  rfl

/-! ## Steps -/

variable {α β : Type}

/-- The step does what the value model says, and leaves memory as `Q` says. -/
def Fol (x : MM α) (m : Mem) (v : Res α) (Q : Mem → Prop) : Prop :=
  match v with
  | .error e => x m = .error e
  | .ok a => ∃ m', x m = .ok (a, m') ∧ Q m'

theorem run_bind {x : MM α} {f : α → MM β} {m m' : Mem} {a : α} (h : x m = .ok (a, m')) : (x >>= f) m = f a m' := by
  show (x m >>= fun r => f r.1 r.2) = _
  rw [h]; rfl

theorem run_fail {x : MM α} {f : α → MM β} {m : Mem} {e : Err} (h : x m = .error e) : (x >>= f) m = .error e := by
  show (x m >>= fun r => f r.1 r.2) = _
  rw [h]; rfl

/-- A step that only memory makes. -/
theorem Fol.mem {x : MM α} {f : α → MM β} {m m' : Mem} {a : α} {v : Res β} {Q : Mem → Prop} (h : x m = .ok (a, m')) (k : Fol (f a) m' v Q) :
    Fol (x >>= f) m v Q := by
  unfold Fol at *
  rw [run_bind h]
  exact k

/-- A step that both make. -/
theorem Fol.both {x : MM α} {f : α → MM β} {m : Mem} {v : Res α} {g : α → Res β} {Q : Mem → Prop} (h : x m = v.map (·, m))
    (k : ∀ a, v = .ok a → Fol (f a) m (g a) Q) : Fol (x >>= f) m (v >>= g) Q := by
  cases v with
  | error e => exact run_fail h
  | ok a => exact Fol.mem h (k a rfl)

theorem Fol.bind {x : MM α} {f : α → MM β} {m : Mem} {v : Res α} {g : α → Res β} {Q R : Mem → Prop} (h : Fol x m v Q)
    (k : ∀ a m', v = .ok a → Q m' → Fol (f a) m' (g a) R) : Fol (x >>= f) m (v >>= g) R := by
  cases v with
  | error e => exact run_fail h
  | ok a =>
    obtain ⟨m', e, q⟩ := h
    exact Fol.mem e (k a m' rfl q)

theorem Fol.ite {c : Prop} [Decidable c] {x y : MM α} {m : Mem} {v w : Res α} {Q : Mem → Prop} (h : c → Fol x m v Q) (k : ¬c → Fol y m w Q) :
    Fol (if c then x else y) m (if c then v else w) Q := by
  by_cases hc : c
  · rw [if_pos hc, if_pos hc]; exact h hc
  · rw [if_neg hc, if_neg hc]; exact k hc

theorem Fol.pure {m : Mem} {Q : Mem → Prop} (a : α) (q : Q m) : Fol (Pure.pure a) m (.ok a) Q := ⟨m, rfl, q⟩

theorem fresh_run {A : Place} (hA : A.Ok) {m : Mem} (hm : Fin m) (l : List Byte) :
    ∃ a, fresh' A l m = .ok (⟨a, l.length⟩, create m a l) ∧ Free m a l.length := ⟨_, rfl, fun k hk => hA m hm _ k hk⟩

theorem raw_run {A : Place} (hA : A.Ok) {m : Mem} (hm : Fin m) (n : Nat) :
    ∃ a l, l.length = n ∧ rawObj A n m = .ok (⟨a, n⟩, create m a l) ∧ Free m a n :=
  ⟨_, _, by simp, rfl, fun k hk => hA m hm _ k hk⟩

theorem free_run {m : Mem} {a n : Nat} {l : List Byte} (h : Free m a n) (hl : l.length = n) : free ⟨a, n⟩ (create m a l) = .ok ((), m) := by
  subst hl
  unfold free
  rw [wipe_create h]

theorem read_run {p : Spn} {m : Mem} {l : List Byte} (h : At m p.addr l) (hl : l.length = p.len) : p.read m = .ok (l, m) := by
  unfold Spn.read; rw [rd_eq h hl]; rfl

theorem get_run {p : Spn} {m : Mem} {l : List Byte} (h : At m p.addr l) (hl : l.length = p.len) (i : Nat) : p.get i m = (rdByte l i).map (·, m) := by
  unfold Spn.get rdByte
  by_cases c : i < p.len
  · rw [if_pos c, h i (by omega), List.getElem?_eq_getElem (by omega)]; rfl
  · rw [if_neg c, List.getElem?_eq_none (by omega)]; rfl

theorem put_run {p : Spn} {m : Mem} {l : List Byte} (h : At m p.addr l) (hl : l.length = p.len) {i : Nat} (hi : i < p.len) (b : Byte) :
    p.put i b m = .ok ((), create m (p.addr + i) [b]) := by
  unfold Spn.put
  have := h.sub i 1
  rw [if_pos hi, store_eq this (by simp only [List.length_take, List.length_drop, List.length_singleton]; omega)]
  rfl

theorem sub_run {p : Spn} {m : Mem} {off len : Nat} (h : off + len ≤ p.len) : p.sub off len m = .ok (⟨p.addr + off, len⟩, m) := by
  unfold Spn.sub St.sub; rw [if_pos h]; rfl

theorem memcpy_run {d s : Spn} {m : Mem} {l t : List Byte} (ht : At m d.addr t) (tl : t.length = d.len) (h : At m s.addr l) (hl : l.length = s.len)
    {n : Nat} (h1 : n ≤ d.len) (h2 : n ≤ s.len) (hd : n = 0 ∨ d.addr + n ≤ s.addr ∨ s.addr + n ≤ d.addr) :
    memcpy d s n m = .ok ((), create m d.addr (l.take n)) := by
  unfold memcpy
  have h0 := h.sub 0 n
  rw [Nat.add_zero, List.drop_zero] at h0
  rw [if_pos ⟨h1, h2⟩, if_pos hd, rd_eq h0 (by rw [List.length_take]; omega)]
  show (store m d.addr (l.take n)).map _ = _
  rw [store_eq ht (by rw [List.length_take]; omega)]
  rfl

theorem memcmp_run {a b : Spn} {m : Mem} {l t : List Byte} (h : At m a.addr l) (hl : l.length = a.len) (ht : At m b.addr t) (tl : t.length = b.len)
    (n : Nat) : memcmpEq a b n m = (if n ≤ l.length ∧ n ≤ t.length then .ok (l.take n == t.take n) else .error .ub : Res Bool).map (·, m) := by
  unfold memcmpEq
  by_cases c : n ≤ a.len ∧ n ≤ b.len
  · have h0 := h.sub 0 n
    have t0 := ht.sub 0 n
    rw [Nat.add_zero, List.drop_zero] at h0 t0
    rw [if_pos c, if_pos (by omega), rd_eq h0 (by rw [List.length_take]; omega), rd_eq t0 (by rw [List.length_take]; omega)]
    rfl
  · rw [if_neg c, if_neg (by omega)]; rfl

/-! ## MGF1 -/

/-- Two parts of memory do not overlap. -/
def Sep (a n b k : Nat) : Prop := n = 0 ∨ k = 0 ∨ a + n ≤ b ∨ b + k ≤ a

theorem Sep.symm {a n b k : Nat} (h : Sep a n b k) : Sep b k a n := by unfold Sep at *; omega

theorem Sep.sub {a n b k o n' : Nat} (h : Sep a n b k) (ho : o + n' ≤ n) : Sep (a + o) n' b k := by unfold Sep at *; omega

theorem Free.sep {m : Mem} {a b n : Nat} {l : List Byte} (h : Free m a n) (hl : At m b l) : Sep a n b l.length := by
  rcases h.disj hl with rfl | h | h | h
  · exact .inr (.inl rfl)
  · exact .inl h
  · exact .inr (.inr (.inl h))
  · exact .inr (.inr (.inr h))

theorem create_nil {m : Mem} {a : Nat} : create m a [] = m := by
  funext x; exact create_out (by simp; omega)

theorem create_self {m : Mem} {a : Nat} {l : List Byte} (h : At m a l) : create m a l = m := by
  funext x
  by_cases c : a ≤ x ∧ x < a + l.length
  · have := h (x - a) (by omega)
    rw [show a + (x - a) = x by omega] at this
    rw [create_at c.1 c.2, this, List.getElem?_eq_getElem]
  · exact create_out (by omega)

theorem create_swap {m : Mem} {a b : Nat} {l x : List Byte} (h : Sep a l.length b x.length) :
    create (create m a l) b x = create (create m b x) a l := by
  rcases h with h | h | h | h
  · rw [List.length_eq_zero_iff.1 h, create_nil, create_nil]
  · rw [List.length_eq_zero_iff.1 h, create_nil, create_nil]
  · exact create_comm (.inl h)
  · exact create_comm (.inr h)

theorem create_append {m : Mem} {a : Nat} {x y : List Byte} : create (create m a x) (a + x.length) y = create m a (x ++ y) := by
  funext z
  by_cases c : a + x.length ≤ z ∧ z < a + x.length + y.length
  · rw [create_at c.1 c.2, create_at (by omega) (by rw [List.length_append]; omega), List.getElem?_append_right (by omega)]
    congr 1; omega
  · rw [create_out (by omega)]
    by_cases d : a ≤ z ∧ z < a + x.length
    · rw [create_at d.1 d.2, create_at (by omega) (by rw [List.length_append]; omega), List.getElem?_append_left (by omega)]
    · rw [create_out (by omega), create_out (by rw [List.length_append]; omega)]

theorem At.stay {m : Mem} {a b : Nat} {l x : List Byte} (h : At m a l) (hd : Sep b x.length a l.length) : At (create m b x) a l :=
  h.keep (by
    rcases hd with h | h | h | h
    · exact .inr (.inl (List.length_eq_zero_iff.1 h))
    · exact .inl (List.length_eq_zero_iff.1 h)
    · exact .inr (.inr (.inl h))
    · exact .inr (.inr (.inr h)))

theorem Free.stay {m : Mem} {a n b : Nat} {x : List Byte} (h : Free m a n) (hd : Sep a n b x.length) : Free (create m b x) a n := by
  intro k hk
  rw [create_out (by unfold Sep at hd; omega), h k hk]

theorem over_mid {x t : List Byte} {c b : Byte} : over (x ++ c :: t) x.length [b] = x ++ [b] ++ t := by
  unfold over
  rw [List.take_left', List.drop_append]
  · simp
  · rfl

/-- A copy function in memory. -/
def CopyM (cp : Spn → Spn → Nat → MM Unit) (f : Byte → Byte → Byte) : Prop :=
  ∀ (m : Mem) (dst src : Spn) (x y : List Byte) (len : Nat), At m dst.addr x → x.length = dst.len → At m src.addr y → y.length = src.len →
    len ≤ dst.len → len ≤ src.len → Sep dst.addr dst.len src.addr src.len →
    cp dst src len m = .ok ((), create m dst.addr (List.zipWith f (x.take len) (y.take len)))

theorem memcpy_copy : CopyM memcpy (fun _ s => s) := by
  intro m dst src x y len hx lx hy ly h1 h2 hd
  rw [memcpy_run hx lx hy ly h1 h2 (by unfold Sep at hd; omega)]
  congr 3
  apply List.ext_getElem
  · simp; omega
  · intro i h3 h4; simp

theorem xor_copy : CopyM xorM (· ^^^ ·) := by
  intro m dst src x y len hx lx hy ly h1 h2 hd
  unfold xorM
  have hn : min (min len dst.len) src.len = len := by omega
  have hx0 := hx.sub 0 len
  have hy0 := hy.sub 0 len
  rw [Nat.add_zero, List.drop_zero] at hx0 hy0
  by_cases hl : len = 0
  · subst hl
    have : memxor m dst src 0 = .ok m := by unfold memxor; simp [xorBlocks, xorTail]; rfl
    rw [this]
    simp [create_nil, Except.map]
  rw [memxor_at hx hy lx ly len (by rw [hn]; unfold Sep at hd; omega), hn]
  have h := partly_step (i := 0) (j := len) (n := len) hx0 hy0 (by simp; omega) (by simp; omega) (by omega)
  have z : partly m dst.addr src.addr 0 = m := by
    funext a; unfold partly; rw [if_neg (by omega)]
  rw [z, Nat.add_zero, Nat.zero_add] at h
  rw [← h]
  simp [Except.map, List.take_take]

section
variable {A : Place} (hA : A.Ok) {H : Hash} {f : Byte → Byte → Byte} {cpM : Spn → Spn → Nat → MM Unit} (hM : CopyM cpM f)
  {cp : List Byte → List Byte → Nat → Res (List Byte)} (hV : CopyIs cp f)
include hA hM hV

theorem mgf1Loop_mem {seed buf : Spn} {sd : List Byte} (ls : sd.length = seed.len) (lb : buf.len = seed.len + 4)
    (sb : Sep seed.addr seed.len buf.addr buf.len) : ∀ (fuel : Nat) (m : Mem) (mask : Spn) (mk bf : List Byte) (counter : BitVec 32), Fin m →
    At m seed.addr sd → At m buf.addr bf → bf.length = buf.len → At m mask.addr mk → mk.length = mask.len →
    Sep seed.addr seed.len mask.addr mask.len → Sep buf.addr buf.len mask.addr mask.len →
    match mgf1Loop H cp sd fuel mk mk.length counter with
    | .error e => mgf1LoopM A H cpM seed buf fuel mask mask.len counter m = .error e
    | .ok mk' => mk'.length = mk.length ∧ ∃ bf', bf'.length = bf.length ∧
        mgf1LoopM A H cpM seed buf fuel mask mask.len counter m = .ok ((), create (create m mask.addr mk') buf.addr bf')
  | 0, m, mask, mk, bf, counter, _, _, _, _, _, _, _, _ => rfl
  | fuel + 1, m, mask, mk, bf, counter, hm, hs, hb, lbf, hk, lk, sm, bm => by
    unfold mgf1Loop mgf1LoopM
    by_cases h0 : mask.len = 0
    · rw [if_pos (by omega), if_pos h0]
      exact ⟨rfl, bf, rfl, by rw [create_self hk, create_self hb]; rfl⟩
    rw [if_neg (by omega), if_neg h0]
    dsimp only
    obtain ⟨d, hd⟩ : ∃ d, H (sd ++ be32 counter) = d := ⟨_, rfl⟩
    rw [hd]
    -- the buffer
    have e1 := memcpy_run hb lbf hs ls (n := seed.len) (by omega) (by omega) (by have := sb; unfold Sep at this; omega)
    rw [List.take_of_length_le (by omega)] at e1
    obtain ⟨c, t, et⟩ : ∃ c t, bf = c ++ t ∧ c.length = seed.len ∧ t.length = 4 := ⟨bf.take seed.len, bf.drop seed.len, by simp, by simp; omega, by simp; omega⟩
    obtain ⟨rfl, lc, lt⟩ := et
    match t, lt with
    | [c0, c1, c2, c3], _ =>
    have E1 : create m buf.addr sd = create m buf.addr (sd ++ c0 :: [c1, c2, c3]) := by
      have : create (create m buf.addr (c ++ [c0, c1, c2, c3])) (buf.addr + 0) sd = create m buf.addr (over (c ++ [c0, c1, c2, c3]) 0 sd) :=
        create_over (by simp; omega)
      rw [create_self hb, Nat.add_zero] at this
      rw [this]
      congr 1
      unfold over
      simp only [List.take_zero, List.nil_append, Nat.zero_add, ls, ← lc, List.drop_left']
    rw [E1] at e1
    have put : ∀ (x : List Byte) (c b : Byte) (t : List Byte), x.length + (t.length + 1) = buf.len →
        buf.put x.length b (create m buf.addr (x ++ c :: t)) = .ok ((), create m buf.addr (x ++ [b] ++ t)) := by
      intro x c b t h
      rw [put_run create_in (by simp; omega) (by omega), create_over (by simp), over_mid]
    have p0 := put sd c0 ((counter >>> 24 &&& 0xff).setWidth 8) [c1, c2, c3] (by simp; omega)
    have p1 := put (sd ++ [(counter >>> 24 &&& 0xff).setWidth 8]) c1 ((counter >>> 16 &&& 0xff).setWidth 8) [c2, c3] (by simp; omega)
    have p2 := put (sd ++ [(counter >>> 24 &&& 0xff).setWidth 8] ++ [(counter >>> 16 &&& 0xff).setWidth 8]) c2 ((counter >>> 8 &&& 0xff).setWidth 8) [c3] (by simp; omega)
    have p3 := put (sd ++ [(counter >>> 24 &&& 0xff).setWidth 8] ++ [(counter >>> 16 &&& 0xff).setWidth 8] ++ [(counter >>> 8 &&& 0xff).setWidth 8]) c3
      ((counter &&& 0xff).setWidth 8) [] (by simp; omega)
    have E2 : sd ++ [(counter >>> 24 &&& 0xff).setWidth 8] ++ [(counter >>> 16 &&& 0xff).setWidth 8] ++ [(counter >>> 8 &&& 0xff).setWidth 8] ++
        [(counter &&& 0xff).setWidth 8] ++ [] = sd ++ be32 counter := by simp [be32]
    rw [E2] at p3
    simp only [List.length_append, List.length_singleton, ls, Nat.add_assoc, Nat.reduceAdd] at p0 p1 p2 p3
    have lX : (sd ++ be32 counter).length = buf.len := by simp [be32]; omega
    have bX : Sep buf.addr (sd ++ be32 counter).length mask.addr mask.len := by rw [lX]; exact bm
    obtain ⟨X, hX⟩ : ∃ X, sd ++ be32 counter = X := ⟨_, rfl⟩
    have F1 : Fin (create m buf.addr X) := hm.create _ _
    have r1 : buf.read (create m buf.addr X) = .ok (X, create m buf.addr X) := read_run create_in (by rw [← hX]; exact lX)
    obtain ⟨q, eq, fq⟩ := fresh_run hA F1 d
    have K1 : At (create m buf.addr X) mask.addr mk := hk.stay (by rw [lk, ← hX]; exact bX)
    have S1 : At (create m buf.addr X) seed.addr sd := hs.stay (by rw [ls, ← hX, lX]; exact sb.symm)
    have sq : Sep q d.length mask.addr mask.len := by rw [← lk]; exact fq.sep K1
    obtain ⟨n, hn⟩ : ∃ n, min d.length mask.len = n := ⟨_, rfl⟩
    have c1 := hM (create (create m buf.addr X) q d) mask ⟨q, d.length⟩ mk d n (K1.fresh fq) lk create_in rfl (by omega) (by show n ≤ d.length; omega) sq.symm
    obtain ⟨z, hz⟩ : ∃ z, List.zipWith f (mk.take n) (d.take n) = z := ⟨_, rfl⟩
    have lz : z.length = n := by rw [← hz]; simp; omega
    have sz : Sep q d.length mask.addr z.length := by have := sq; unfold Sep at *; omega
    rw [hz, create_swap (m := create m buf.addr X) sz] at c1
    have w1 : free ⟨q, d.length⟩ (create (create (create m buf.addr X) mask.addr z) q d) = .ok ((), create (create m buf.addr X) mask.addr z) :=
      free_run (fq.stay sz) rfl
    have g1 : mask.sub n (mask.len - n) (create (create m buf.addr X) mask.addr z) = .ok (⟨mask.addr + n, mask.len - n⟩, _) := sub_run (by omega)
    have v1 : cp mk d n = .ok (z ++ mk.drop n) := by
      rw [hV mk d n (by omega) (by omega), hz]
    rw [show min d.length mk.length = n by omega, v1, ok_bind]
    rw [if_pos (by simp; omega), List.drop_left' lz, List.take_left' lz]
    have K2 : At (create (create m buf.addr X) mask.addr z) (mask.addr + n) (mk.drop n) := by
      have := K1.sub n (mk.length - n)
      rw [List.take_of_length_le (by simp)] at this
      exact this.stay (by unfold Sep; omega)
    have ih := mgf1Loop_mem ls lb sb fuel (create (create m buf.addr X) mask.addr z) ⟨mask.addr + n, mask.len - n⟩ (mk.drop n) X (counter + 1)
      (F1.create _ _) (S1.stay (by rw [ls]; have := sm; unfold Sep at *; omega)) (create_in.stay (by rw [← hX, lX]; have := bm; unfold Sep at *; omega))
      (by rw [← hX]; exact lX) K2 (by simp; omega) ((sm.symm.sub (by show n + (mask.len - n) ≤ mask.len; omega)).symm)
      ((bm.symm.sub (by show n + (mask.len - n) ≤ mask.len; omega)).symm)
    have M : ∀ r, mgf1LoopM A H cpM seed buf fuel ⟨mask.addr + n, mask.len - n⟩ (mask.len - n) (counter + 1) (create (create m buf.addr X) mask.addr z) = r →
        mgf1LoopM A H cpM seed buf (fuel + 1) mask mask.len counter m = r := by
      intro r hr
      rw [mgf1LoopM, if_neg h0, run_bind e1, run_bind p0, run_bind p1, run_bind p2, run_bind p3, hX, run_bind r1, ← hX, hd, hX, run_bind eq]
      dsimp only
      rw [hn, run_bind c1, run_bind w1, run_bind g1]
      exact hr
    rw [mgf1LoopM, if_neg h0] at M
    dsimp only at ih
    rw [show (mk.drop n).length = mk.length - n by simp] at ih
    cases hv : mgf1Loop H cp sd fuel (mk.drop n) (mk.length - n) (counter + 1) with
    | error e =>
      rw [hv] at ih
      exact M _ ih
    | ok rest =>
      rw [hv] at ih
      obtain ⟨lr, bf', lf, er⟩ := ih
      refine ⟨by simp only [List.length_append]; omega, bf', by rw [lf, ← hX, lX, lbf], ?_⟩
      rw [M _ er]
      congr 2
      rw [← lz, create_append, create_swap (m := m) (by rw [← hX, lX]; have := bm; unfold Sep at *; simp only [List.length_append]; omega), create_same (by rw [lf])]

/-- `mgf1` in memory. -/
theorem mgf1_mem {seed mask : Spn} {sd mk : List Byte} {m : Mem} (hm : Fin m) (hs : At m seed.addr sd) (ls : sd.length = seed.len)
    (hk : At m mask.addr mk) (lk : mk.length = mask.len) (sm : Sep seed.addr seed.len mask.addr mask.len) :
    match mgf1 H cp sd mk with
    | .error e => mgf1M A H cpM seed mask m = .error e
    | .ok mk' => mk'.length = mk.length ∧ mgf1M A H cpM seed mask m = .ok ((), create m mask.addr mk') := by
  obtain ⟨b, l, ll, eb, fb⟩ := raw_run hA hm (seed.len + 4)
  rw [← ll] at fb
  have sk := fb.sep hk
  have L := mgf1Loop_mem hA hM hV (H := H) (buf := ⟨b, seed.len + 4⟩) ls rfl (by have := fb.sep hs; rw [ll, ls] at this; exact this.symm) (mask.len + 1) (create m b l) mask mk l 0 (hm.create _ _)
    (hs.fresh fb) create_in ll (hk.fresh fb) lk sm (by rw [← lk, ← ll]; exact sk)
  unfold mgf1 mgf1M
  rw [lk] at L ⊢
  rw [run_bind eb]
  cases hv : mgf1Loop H cp sd (mask.len + 1) mk mask.len 0 with
  | error e =>
    rw [hv] at L
    exact run_fail L
  | ok mk' =>
    rw [hv] at L
    obtain ⟨l1, bf', l2, e⟩ := L
    refine ⟨l1, ?_⟩
    rw [run_bind e, create_swap (m := m) (by rw [l1, ← lk]; exact sk), create_same (by omega)]
    have fr := fb.stay (x := mk') (by rw [l1, ← lk]; exact sk)
    rw [ll] at fr
    exact free_run fr (by omega)

end

/-! ## RSA primitives -/

theorem At.tail {m : Mem} {a : Nat} {b : Byte} {l : List Byte} (h : At m a (b :: l)) : m a = some b ∧ At m (a + 1) l := by
  constructor
  · have := h 0 (by simp); simpa using this
  · intro k hk
    have := h (k + 1) (by simp; omega)
    rw [show a + (k + 1) = a + 1 + k by omega] at this
    simpa using this

theorem leadZeros_mem {m : Mem} : ∀ {l : List Byte} {a : Nat}, At m a l → leadZerosM m l.length a = .ok (leadZeros l)
  | [], _, _ => rfl
  | b :: l, a, h => by
    rw [List.length_cons, leadZerosM, h.tail.1, leadZeros]
    dsimp only
    by_cases c : b = 0
    · rw [if_pos c, if_pos c, leadZeros_mem h.tail.2]; rfl
    · rw [if_neg c, if_neg c]

theorem sLess_mem {m : Mem} : ∀ {s n : List Byte} {a b : Nat}, At m a s → At m b n → sLessM m s.length n.length a b = sLess s n
  | [], _, _, _, _, _ => by unfold sLessM sLess; rfl
  | _ :: _, [], _, _, _, _ => rfl
  | x :: s, y :: n, a, b, hs, hn => by
    rw [List.length_cons, List.length_cons, sLessM, hs.tail.1, hn.tail.1, sLess]
    dsimp only
    rw [sLess_mem hs.tail.2 hn.tail.2]

theorem leadZeros_le : ∀ l : List Byte, leadZeros l ≤ l.length
  | [] => Nat.le_refl _
  | b :: l => by
    unfold leadZeros
    have := leadZeros_le l
    split <;> simp <;> omega

theorem At.from {m : Mem} {a : Nat} {l : List Byte} (h : At m a l) (k : Nat) : At m (a + k) (l.drop k) := by
  have := h.sub k (l.length - k)
  rwa [List.take_of_length_le (by simp)] at this

theorem isSValid_mem {s n : Spn} {sl nl : List Byte} {m : Mem} (hs : At m s.addr sl) (ls : sl.length = s.len) (hn : At m n.addr nl) (ln : nl.length = n.len) :
    isSValidM s n m = (isSValid sl nl).map (·, m) := by
  unfold isSValidM isSValid
  have e1 := leadZeros_mem hs
  have e2 := leadZeros_mem hn
  rw [ls] at e1
  rw [ln] at e2
  rw [e1, ok_bind]
  simp only [ls, ln, e2, ok_bind]
  have e3 := sLess_mem (hs.from (leadZeros sl)) (hn.from (leadZeros nl))
  simp only [List.length_drop, ls, ln] at e3
  rw [e3]
  repeat' split
  all_goals rfl

/-- The exponentiation gives as many bytes as the modulus has. -/
def Sized (me : ModExp) : Prop := ∀ b e n r, b.length = n.length → me b e n = .ok (some r) → r.length = n.length

theorem check_run {b : Bool} {m : Mem} : (liftM (check b) : MM Unit) m = (check b).map (·, m) := by
  cases b <;> rfl

theorem lift_run {α : Type} {v : Res α} {m : Mem} : (liftM v : MM α) m = v.map (·, m) := by
  cases v <;> rfl

/-- What a step leaves when it gives a new vector. -/
def Gives (x : MM Spn) (m : Mem) (v : Res (List Byte)) : Prop :=
  match v with
  | .error e => x m = .error e
  | .ok l => ∃ a, x m = .ok (⟨a, l.length⟩, create m a l) ∧ Free m a l.length

theorem powmC_mem {me : ModExp} (hme : Sized me) {b e n : Spn} {bl el nl : List Byte} {m : Mem} {a : Nat} {z : List Byte}
    (hb : At (create m a z) b.addr bl) (lb : bl.length = b.len) (he : At (create m a z) e.addr el) (le : el.length = e.len)
    (hn : At (create m a z) n.addr nl) (ln : nl.length = n.len) (lz : z.length = n.len) :
    match powmC me bl el nl z with
    | .error er => powmCM me b e n ⟨a, z.length⟩ (create m a z) = .error er
    | .ok r => powmCM me b e n ⟨a, z.length⟩ (create m a z) = .ok (r.1, create m a r.2) ∧ r.2.length = n.len := by
  unfold powmCM powmC
  simp only [lb, le, ln, lz]
  cases c1 : (b.len != 0 && n.len != 0 && e.len != 0 && n.len != 0)
  · rfl
  cases c2 : (b.len == n.len)
  · rfl
  have lbn : b.len = n.len := by simpa using c2
  have hn0 : n.len ≠ 0 := by
    intro h; rw [h] at c1; simp at c1
  have c3 : decide (n.len ≥ b.len) = true := by simp; omega
  simp only [if_neg hn0, c3]
  have e0 : ∀ {β : Type} (k : Unit → MM β) (M : Mem), ((liftM (check true) : MM Unit) >>= k) M = k () M := fun _ _ => rfl
  have e1 : ∀ {β : Type} (k : Unit → Res β), (check true >>= k) = k () := fun _ => rfl
  rw [e0, e0, e0, run_bind (read_run hb lb), run_bind (read_run he le), run_bind (read_run hn ln), e1, e1, e1]
  cases hv : me bl el nl with
  | error er => rfl
  | ok r =>
    cases r with
    | none => exact ⟨rfl, lz⟩
    | some r =>
      have lr := hme bl el nl r (by omega) hv
      have st : (fun m => (store m a r).map ((), ·) : MM Unit) (create m a z) = .ok ((), create m a r) := by
        show (store (create m a z) a r).map _ = _
        rw [store_eq create_in (by omega), create_same (by omega)]
        rfl
      show _ = Except.ok (b.len, create m a (r ++ z.drop r.length)) ∧ (r ++ z.drop r.length).length = n.len
      rw [List.drop_eq_nil_of_le (by omega), List.append_nil]
      refine ⟨?_, by rw [lr, ln]⟩
      show ((if r.length ≤ n.len then _ else _ : MM Nat)) _ = _
      rw [if_pos (by omega), run_bind st]
      rfl

theorem powm_mem {A : Place} (hA : A.Ok) {me : ModExp} (hme : Sized me) {b e n : Spn} {bl el nl : List Byte} {m : Mem} (hm : Fin m) (hb : At m b.addr bl)
    (lb : bl.length = b.len) (he : At m e.addr el) (le : el.length = e.len) (hn : At m n.addr nl) (ln : nl.length = n.len) :
    Gives (powmM A me b e n) m (powm me bl el nl) := by
  have T : Gives (do let result ← fresh' A (List.replicate n.len 0); let _ ← powmCM me b e n result; pure result) m
      (do let (_, result) ← powmC me bl el nl (List.replicate nl.length 0); .ok result) := by
    obtain ⟨a, ea, fa⟩ := fresh_run hA hm (List.replicate n.len 0)
    unfold Gives
    rw [run_bind ea]
    have P := powmC_mem hme (hb.fresh fa) lb (he.fresh fa) le (hn.fresh fa) ln (a := a) (z := List.replicate n.len 0) (by simp)
    rw [ln]
    rw [List.length_replicate] at *
    cases hv : powmC me bl el nl (List.replicate n.len 0) with
    | error er => rw [hv] at P; exact run_fail P
    | ok r =>
      rw [hv] at P
      obtain ⟨P, lr⟩ := P
      refine ⟨a, ?_, by rw [lr]; exact fa⟩
      rw [run_bind P, lr]; rfl
  unfold powmM powm
  rw [le]
  by_cases c : e.len > 8
  · rw [if_pos c, if_pos c]
    have hr := he.sub 0 (e.len - 8)
    rw [Nat.add_zero, List.drop_zero] at hr
    have e1 : (⟨e.addr, e.len - 8⟩ : Spn).read m = .ok (el.take (e.len - 8), m) := read_run hr (by simp; omega)
    unfold Gives
    rw [run_bind e1]
    cases (el.take (e.len - 8)).all (· == 0)
    · rfl
    · exact T
  · rw [if_neg c, if_neg c]
    exact T

theorem rsavp1_mem {A : Place} (hA : A.Ok) {me : ModExp} (hme : Sized me) {n e s : Spn} {nl el sl : List Byte} {m : Mem} (hm : Fin m) (hs : At m s.addr sl)
    (ls : sl.length = s.len) (he : At m e.addr el) (le : el.length = e.len) (hn : At m n.addr nl) (ln : nl.length = n.len) :
    Gives (rsavp1M A me n e s) m (rsavp1 me nl el sl) := by
  unfold rsavp1M rsavp1
  have e1 := isSValid_mem hs ls hn ln
  cases h : isSValid sl nl with
  | error er =>
    rw [h] at e1
    exact run_fail e1
  | ok b =>
    rw [h] at e1
    unfold Gives
    rw [run_bind e1, ok_bind]
    cases b
    · exact fresh_run hA hm []
    · exact powm_mem hA hme hm hs ls he le hn ln

/-! ## PKCS #1 v1.5 -/

theorem memEq_run {p q : Spn} {m : Mem} {l r : List Byte} (hp : At m p.addr l) (lp : l.length = p.len) (hq : At m q.addr r) (lq : r.length = q.len)
    {i j : Nat} (hi : i ≤ p.len) (hj : j ≤ q.len) (k : Nat) :
    memcmpEq ⟨p.addr + i, p.len - i⟩ ⟨q.addr + j, q.len - j⟩ k m = (memEq l i r j k).map (·, m) := by
  rw [memcmp_run (hp.from i) (by simp [lp]) (hq.from j) (by simp [lq])]
  unfold memEq
  by_cases c : i + k ≤ l.length ∧ j + k ≤ r.length
  · rw [if_pos (by simp only [List.length_drop]; omega), if_pos c]
  · rw [if_neg (by simp only [List.length_drop]; omega), if_neg c]

/-- The value of `pkcs1Body`. -/
def pkcs1V (tLen : Nat) (em : List Byte) (gen : Res (List Byte)) : Res Bool := do
  if em.length < tLen + 11 then return false
  if (← rdByte em 0) ≠ 0x00 ∨ (← rdByte em 1) ≠ 0x01 then return false
  let psLen := em.length - tLen - 3
  if (← rdByte em 2) ≠ 0xff ∨ (← rdByte em (2 + psLen)) ≠ 0x00 then return false
  if !(← memEq em 3 em 2 (psLen - 1)) then return false
  let t ← gen
  memEq em (3 + psLen) t 0 t.length

theorem pkcs1Verify_split (me : ModExp) (tLen : Nat) (n e sig : List Byte) (gen : Res (List Byte)) :
    pkcs1Verify me tLen n e sig gen = if sig.length ≠ n.length then .ok false else rsavp1 me n e sig >>= fun em => pkcs1V tLen em gen := by
  unfold pkcs1Verify pkcs1V
  rfl

/-- What the callback of `rsassa_pkcs1_v1_5_verify` does in memory `m`. -/
def GenOk (gen : Spn → MM Unit) (m : Mem) (tLen : Nat) (v : List Byte) : Prop :=
  v.length = tLen ∧ ∀ b j, Free m b tLen → j.length = tLen → gen ⟨b, tLen⟩ (create m b j) = .ok ((), create m b v)

theorem pkcs1Body_mem {A : Place} (hA : A.Ok) {tLen : Nat} {em : Spn} {l : List Byte} {gen : Spn → MM Unit} {v : List Byte} {m : Mem} (hm : Fin m)
    (he : At m em.addr l) (le : l.length = em.len) (hg : GenOk gen m tLen v) : Fol (pkcs1Body A tLen em gen) m (pkcs1V tLen l (.ok v)) (· = m) := by
  unfold pkcs1Body pkcs1V
  rw [le]
  refine .ite (fun _ => .pure _ rfl) fun c => ?_
  refine .both (get_run he le 0) fun a _ => ?_
  refine .both (get_run he le 1) fun b _ => ?_
  refine .ite (fun _ => .pure _ rfl) fun _ => ?_
  dsimp only
  refine .both (get_run he le 2) fun a _ => ?_
  refine .both (get_run he le _) fun b _ => ?_
  refine .ite (fun _ => .pure _ rfl) fun _ => ?_
  refine .mem (sub_run (by omega)) ?_
  refine .mem (sub_run (by omega)) ?_
  refine .both (memEq_run he le he le (by omega) (by omega) _) fun a _ => ?_
  refine .ite (fun _ => .pure _ rfl) fun _ => ?_
  obtain ⟨b, j, lj, eb, fb⟩ := raw_run hA hm tLen
  refine .mem eb ?_
  refine .mem (hg.2 b j fb lj) ?_
  refine .mem (sub_run (by omega)) ?_
  have fv : Free m b v.length := by rw [hg.1]; exact fb
  have E := memEq_run (m := create m b v) (p := em) (q := ⟨b, tLen⟩) (he.fresh fv) le create_in hg.1 (i := 3 + (em.len - tLen - 3)) (j := 0) (by omega) (by simp) tLen
  show Fol _ _ (memEq l _ v 0 v.length) _
  rw [hg.1]
  have E' : memcmpEq ⟨em.addr + (3 + (em.len - tLen - 3)), em.len - (3 + (em.len - tLen - 3))⟩ ⟨b, tLen⟩ tLen (create m b v) = _ := E
  cases hv : memEq l (3 + (em.len - tLen - 3)) v 0 tLen with
  | error er => rw [hv] at E'; exact run_fail E'
  | ok r =>
    rw [hv] at E'
    refine .mem E' ?_
    refine .mem (free_run fb hg.1) ?_
    exact .pure _ rfl

theorem gives_then {A : Place} {x : MM Spn} {body : Spn → MM Bool} {m : Mem} {v : Res (List Byte)} {w : List Byte → Res Bool} (hx : Gives x m v)
    (hb : ∀ a l, Free m a l.length → Fol (body ⟨a, l.length⟩) (create m a l) (w l) (fun m' => ∃ l', l'.length = l.length ∧ m' = create m a l')) :
    (do let em ← x; let r ← body em; free em; return r : MM Bool) m = (v >>= w).map (·, m) := by
  unfold Gives at hx
  cases v with
  | error e => exact run_fail hx
  | ok l =>
    obtain ⟨a, e, f⟩ := hx
    rw [run_bind e, ok_bind]
    have h := hb a l f
    unfold Fol at h
    cases hw : w l with
    | error e => rw [hw] at h; exact run_fail h
    | ok r =>
      rw [hw] at h
      obtain ⟨m', e', l', ll, rfl⟩ := h
      rw [run_bind e', run_bind (free_run f ll)]
      rfl

theorem pkcs1Verify_mem {A : Place} (hA : A.Ok) {me : ModExp} (hme : Sized me) {tLen : Nat} {n e s : Spn} {nl el sl v : List Byte} {gen : Spn → MM Unit}
    {m : Mem} (hm : Fin m) (hs : At m s.addr sl) (ls : sl.length = s.len) (he : At m e.addr el) (le : el.length = e.len) (hn : At m n.addr nl)
    (ln : nl.length = n.len) (hg : ∀ a em, Free m a em.length → GenOk gen (create m a em) tLen v) :
    pkcs1VerifyM A me tLen n e s gen m = (pkcs1Verify me tLen nl el sl (.ok v)).map (·, m) := by
  rw [pkcs1Verify_split]
  unfold pkcs1VerifyM
  rw [ls, ln]
  by_cases c : s.len ≠ n.len
  · rw [if_pos c, if_pos c]; rfl
  · rw [if_neg c, if_neg c]
    refine gives_then (A := A) (rsavp1_mem hA hme hm hs ls he le hn ln) fun a l f => ?_
    have := pkcs1Body_mem hA (hm.create a l) (em := ⟨a, l.length⟩) create_in rfl (hg a l f)
    unfold Fol at *
    cases hv : pkcs1V tLen l (.ok v) with
    | error e => rw [hv] at this; exact this
    | ok r =>
      rw [hv] at this
      obtain ⟨m', e, rfl⟩ := this
      exact ⟨_, e, l, rfl, rfl⟩

theorem gen_mem {A : Place} (hA : A.Ok) {pfx : List Byte} {digest : Spn} {dig : List Byte} {m : Mem} (hm : Fin m) (hd : At m digest.addr dig)
    (ld : dig.length = digest.len) {tLen : Nat} (ht : tLen = pfx.length + dig.length) :
    GenOk (fun t => do let p ← fresh' A pfx; genTM A p digest t; free p) m tLen (pfx ++ dig) := by
  refine ⟨by simp [ht], fun b j fb lj => ?_⟩
  rw [← lj] at fb
  obtain ⟨q, eq, fq⟩ := fresh_run hA (hm.create b j) pfx
  dsimp only
  rw [run_bind eq]
  have sq := fq.sep (b := b) (l := j) create_in
  have hb1 : At (create (create m b j) q pfx) b j := create_in.fresh fq
  have c1 := memcpy_run (d := ⟨b, tLen⟩) (s := ⟨q, pfx.length⟩) hb1 lj create_in rfl (n := pfx.length) (by show _ ≤ tLen; omega) (by show pfx.length ≤ pfx.length; omega)
    (by show pfx.length = 0 ∨ b + pfx.length ≤ q ∨ q + pfx.length ≤ b; have := sq; unfold Sep at this; omega)
  dsimp only at c1
  rw [List.take_of_length_le (by omega), create_swap (m := create m b j) (by have := sq; unfold Sep at *; omega)] at c1
  obtain ⟨M, hM⟩ : ∃ M, create (create m b j) b pfx = M := ⟨_, rfl⟩
  rw [hM] at c1
  have fqM : Free M q pfx.length := by rw [← hM]; exact fq.stay (by have := sq; unfold Sep at *; omega)
  have finM : Fin M := by rw [← hM]; exact (hm.create _ _).create _ _
  have dM : At M digest.addr dig := by
    rw [← hM]
    have s := fb.sep hd
    exact (hd.fresh fb).stay (by unfold Sep at *; omega)
  have r1 := read_run (dM.fresh fqM) ld
  obtain ⟨h, eh, fh⟩ := fresh_run hA (finM.create q pfx) dig
  have jM : At M b (pfx ++ j.drop pfx.length) := by
    rw [← hM]
    have e := create_over (m := m) (a := b) (l := j) (o := 0) (x := pfx) (by omega)
    rw [Nat.add_zero] at e
    rw [e]
    have : over j 0 pfx = pfx ++ j.drop pfx.length := by unfold over; simp
    rw [this]
    exact create_in
  have jM2 := (jM.fresh fqM)
  have sh := fh.sep jM2
  have jM3 := (jM2.fresh fh).from pfx.length
  rw [List.drop_left' rfl] at jM3
  have g1 : (⟨b, tLen⟩ : Spn).sub pfx.length (tLen - pfx.length) (create (create M q pfx) h dig) = .ok (⟨b + pfx.length, tLen - pfx.length⟩, _) :=
    sub_run (by show pfx.length + (tLen - pfx.length) ≤ tLen; omega)
  have lsh : (pfx ++ j.drop pfx.length).length = tLen := by simp; omega
  rw [lsh] at sh
  have c2 := memcpy_run (d := ⟨b + pfx.length, tLen - pfx.length⟩) (s := ⟨h, dig.length⟩) (m := create (create M q pfx) h dig) jM3 (by simp; omega) create_in rfl
    (n := dig.length) (by show _ ≤ tLen - pfx.length; omega) (by show dig.length ≤ dig.length; omega)
    (by show dig.length = 0 ∨ b + pfx.length + dig.length ≤ h ∨ h + dig.length ≤ b + pfx.length; have := sh; unfold Sep at this; omega)
  dsimp only at c2
  rw [List.take_of_length_le (by omega), create_swap (m := create M q pfx) (by have := sh; unfold Sep at *; omega)] at c2
  have w1 : free ⟨h, dig.length⟩ _ = _ := free_run (fh.stay (b := b + pfx.length) (x := dig) (by have := sh; unfold Sep at *; omega)) rfl
  have w2 : free ⟨q, pfx.length⟩ _ = _ := free_run (fqM.stay (b := b + pfx.length) (x := dig) (by have := sq; unfold Sep at *; omega)) rfl
  have G : genTM A ⟨q, pfx.length⟩ digest ⟨b, tLen⟩ (create (create m b j) q pfx) = .ok ((), create (create M q pfx) (b + pfx.length) dig) := by
    unfold genTM
    rw [run_bind c1, run_bind r1, run_bind eh, run_bind g1, run_bind c2]
    exact w1
  rw [run_bind G, create_swap (m := M) (by have := sq; unfold Sep at *; omega), w2, ← hM, create_append, create_same (by simp; omega)]

/-- The four `verify_rsa_sha…` functions in memory. -/
theorem verifyRsa_mem {A : Place} (hA : A.Ok) {me : ModExp} (hme : Sized me) {pfx : List Byte} {hLen : Nat} {n e digest s : Spn} {nl el dig sl : List Byte}
    {m : Mem} (hm : Fin m) (hs : At m s.addr sl) (ls : sl.length = s.len) (he : At m e.addr el) (le : el.length = e.len) (hn : At m n.addr nl)
    (ln : nl.length = n.len) (hd : At m digest.addr dig) (ld : dig.length = digest.len) (hl : digest.len = hLen) :
    verifyRsaM A me pfx hLen n e digest s m = (pkcs1Verify me (pfx.length + hLen) nl el sl (.ok (pfx ++ dig))).map (·, m) :=
  pkcs1Verify_mem hA hme hm hs ls he le hn ln fun a em f => gen_mem hA (hm.create a em) (hd.fresh f) ld (by omega)

/-! ## PSS -/

/-- The value of `pssEnd`. -/
def pssEndV (H : Hash) (hLen slen : Nat) (db h digest : List Byte) : Res Bool :=
  if digest.length ≠ hLen then .error .ub else memEq h 0 (H (List.replicate 8 0 ++ digest ++ db.drop (db.length - slen))) 0 hLen

/-- The value of `pssOpen`. -/
def pssOpenV (W : Nat) (H : Hash) (hLen slen need : Nat) (em digest : List Byte) : Res Bool := do
  let h := (em.drop (em.length - hLen - 1)).take hLen
  let db ← mgf1 H Ack.memxor h (em.take (em.length - hLen - 1))
  let db ← andHead ((0xff : Byte) >>> 1) db
  let em' := db ++ em.drop (em.length - hLen - 1)
  if !(← zerosThenOne em' (em'.length - need) 0) then return false
  else if db.length < slen ∨ (8 + hLen + slen) % 2 ^ W < 8 + hLen + slen then .error .ub
  else pssEndV H hLen slen db h digest

/-- The value of `pssBody`. -/
def pssBodyV (W : Nat) (H : Hash) (hLen : Nat) (em : List Byte) (saltLen : Option (BitVec 32)) (digest : List Byte) : Res Bool := do
  let slen := (saltLen.map BitVec.toNat).getD hLen
  let need := (hLen + slen + 2) % 2 ^ W
  if em.length < need then return false
  if (← rdByte em (em.length - 1)) ≠ 0xbc then return false
  let mask := (0xff : Byte) >>> 1
  let e0 ← rdByte em 0
  if e0 &&& 0xff ≠ e0 &&& mask then return false
  if em.length < hLen + 1 then .error .ub else pssOpenV W H hLen slen need em digest

theorem pssVerify_split (W : Nat) (me : ModExp) (H : Hash) (hLen : Nat) (n e : List Byte) (saltLen : Option (BitVec 32)) (digest sig : List Byte) :
    pssVerify W me H hLen n e saltLen digest sig =
      if sig.length ≠ n.length then .ok false else rsavp1 me n e sig >>= fun em => pssBodyV W H hLen em saltLen digest := by
  unfold pssVerify pssBodyV pssOpenV pssEndV
  rfl

theorem zerosThenOne_mem {em : Spn} {l : List Byte} {m : Mem} (he : At m em.addr l) (le : l.length = em.len) : ∀ c i,
    zerosThenOneM em c i m = (zerosThenOne l c i).map (·, m)
  | 0, i => by
    unfold zerosThenOneM zerosThenOne
    have g := get_run he le i
    cases h : rdByte l i with
    | error e => rw [h] at g; exact run_fail g
    | ok b => rw [h] at g; rw [run_bind g]; rfl
  | c + 1, i => by
    unfold zerosThenOneM zerosThenOne
    have g := get_run he le i
    cases h : rdByte l i with
    | error e => rw [h] at g; exact run_fail g
    | ok b =>
      rw [h] at g
      rw [run_bind g, ok_bind]
      by_cases hb : b ≠ 0
      · rw [if_pos hb, if_pos hb]; rfl
      · rw [if_neg hb, if_neg hb]; exact zerosThenOne_mem he le c (i + 1)

theorem over_at {x w t y : List Byte} {i : Nat} (h : w.length = y.length) (hi : i = x.length) : over (x ++ w ++ t) i y = x ++ y ++ t := by
  unfold over
  subst hi
  have e : x ++ w ++ t = x ++ (w ++ t) := List.append_assoc ..
  rw [e, List.take_left' rfl, ← List.drop_drop, List.drop_left' rfl, List.drop_left' h, List.append_assoc]

theorem pssEnd_mem {A : Place} (hA : A.Ok) {W : Nat} {H : Hash} {hLen slen : Nat} {db h digest : Spn} {dbl hl dig : List Byte} {m : Mem} (hm : Fin m)
    (hdb : At m db.addr dbl) (ldb : dbl.length = db.len) (hh : At m h.addr hl) (lh : hl.length = h.len) (hd : At m digest.addr dig)
    (ld : dig.length = digest.len) (hlen : digest.len = hLen) (c : ¬ (dbl.length < slen ∨ (8 + hLen + slen) % 2 ^ W < 8 + hLen + slen)) :
    pssEnd A W H hLen slen db h digest m = (pssEndV H hLen slen dbl hl dig).map (·, m) := by
  have hW : (8 + hLen + slen) % 2 ^ W = 8 + hLen + slen := by have := Nat.mod_le (8 + hLen + slen) (2 ^ W); omega
  unfold pssEnd pssEndV
  rw [hW, if_neg (by omega)]
  obtain ⟨z, hz⟩ : ∃ z, List.replicate (8 + hLen + slen) (0 : Byte) = z := ⟨_, rfl⟩
  have lz : z.length = 8 + hLen + slen := by rw [← hz]; simp
  rw [hz]
  obtain ⟨a, ea, fa⟩ := fresh_run hA hm z
  rw [run_bind ea]
  dsimp only
  have g1 : db.sub (db.len - slen) slen (create m a z) = .ok (⟨db.addr + (db.len - slen), slen⟩, _) := sub_run (by omega)
  rw [run_bind g1, run_bind (read_run (hd.fresh fa) ld)]
  obtain ⟨q, eq, fq⟩ := fresh_run hA (hm.create a z) dig
  rw [run_bind eq]
  have sq := fq.sep (b := a) (l := z) create_in
  have g2 : (⟨a, z.length⟩ : Spn).sub 8 (z.length - 8) (create (create m a z) q dig) = .ok (⟨a + 8, z.length - 8⟩, _) :=
    sub_run (by show 8 + (z.length - 8) ≤ z.length; omega)
  rw [run_bind g2]
  have z1 : At (create (create m a z) q dig) a z := create_in.fresh fq
  have c1 := memcpy_run (d := ⟨a + 8, z.length - 8⟩) (s := ⟨q, dig.length⟩) (m := create (create m a z) q dig) (z1.from 8) (by simp) create_in rfl
    (n := hLen) (by show hLen ≤ z.length - 8; omega) (by show hLen ≤ dig.length; omega)
    (by show hLen = 0 ∨ a + 8 + hLen ≤ q ∨ q + hLen ≤ a + 8; have := sq; unfold Sep at this; omega)
  dsimp only at c1
  rw [List.take_of_length_le (by omega), create_swap (m := create m a z) (by have := sq; unfold Sep at *; omega)] at c1
  have w1 : free ⟨q, dig.length⟩ _ = _ := free_run (fq.stay (b := a + 8) (x := dig) (by have := sq; unfold Sep at *; omega)) rfl
  rw [run_bind c1, run_bind w1, create_over (by omega)]
  have l1 : (over z 8 dig).length = z.length := over_length (by omega)
  obtain ⟨y, hy⟩ : ∃ y, over z 8 dig = y := ⟨_, rfl⟩
  rw [hy] at l1 ⊢
  have g3 : (⟨a, z.length⟩ : Spn).sub (8 + hLen) (z.length - (8 + hLen)) (create m a y) = .ok (⟨a + (8 + hLen), z.length - (8 + hLen)⟩, _) :=
    sub_run (by show 8 + hLen + (z.length - (8 + hLen)) ≤ z.length; omega)
  rw [run_bind g3]
  have fy : Free m a y.length := by rw [l1]; exact fa
  have sdb := fa.sep hdb
  have c2 := memcpy_run (d := ⟨a + (8 + hLen), z.length - (8 + hLen)⟩) (s := ⟨db.addr + (db.len - slen), slen⟩) (m := create m a y)
    (create_in.from (8 + hLen)) (by show (y.drop _).length = _; simp [l1]) ((hdb.fresh fy).from (db.len - slen)) (by show (dbl.drop _).length = slen; simp; omega)
    (n := slen) (by show slen ≤ z.length - (8 + hLen); omega) (by show slen ≤ slen; omega)
    (by show slen = 0 ∨ a + (8 + hLen) + slen ≤ db.addr + (db.len - slen) ∨ db.addr + (db.len - slen) + slen ≤ a + (8 + hLen)
        have := sdb; unfold Sep at this; omega)
  dsimp only at c2
  rw [List.take_of_length_le (by simp; omega), create_over (by simp; omega)] at c2
  have X : over y (8 + hLen) (dbl.drop (db.len - slen)) = List.replicate 8 0 ++ dig ++ dbl.drop (dbl.length - slen) := by
    have e : z = List.replicate 8 0 ++ List.replicate hLen 0 ++ List.replicate slen 0 := by
      rw [← hz, List.replicate_append_replicate, List.replicate_append_replicate]
    rw [← hy, e, ldb, over_at (by simp; omega) (by simp)]
    have := over_at (x := List.replicate 8 0 ++ dig) (w := List.replicate slen 0) (t := []) (y := dbl.drop (db.len - slen)) (i := 8 + hLen) (by simp; omega) (by simp; omega)
    simpa using this
  rw [X] at c2
  rw [run_bind c2]
  obtain ⟨x, hx⟩ : ∃ x, List.replicate 8 (0 : Byte) ++ dig ++ dbl.drop (dbl.length - slen) = x := ⟨_, rfl⟩
  have lx : x.length = z.length := by rw [← hx]; simp; omega
  rw [hx]
  have fx : Free m a x.length := by rw [lx]; exact fa
  rw [run_bind (read_run (p := ⟨a, z.length⟩) create_in lx)]
  obtain ⟨r, er, fr⟩ := fresh_run hA (hm.create a x) (H x)
  rw [run_bind er]
  have E := memEq_run (p := h) (q := ⟨r, (H x).length⟩) ((hh.fresh fx).fresh fr) lh create_in rfl (i := 0) (j := 0) (by omega) (by simp) hLen
  have E' : memcmpEq h ⟨r, (H x).length⟩ hLen (create (create m a x) r (H x)) = _ := E
  cases hv : memEq hl 0 (H x) 0 hLen with
  | error e => rw [hv] at E'; exact run_fail E'
  | ok b =>
    rw [hv] at E'
    rw [run_bind E', run_bind (free_run fr rfl), run_bind (free_run fa lx)]
    rfl

theorem pssOpen_mem {A : Place} (hA : A.Ok) {W : Nat} {H : Hash} {hLen slen need : Nat} {digest : Spn} {l dig : List Byte} {m : Mem} {a : Nat} (hm : Fin m)
    (f : Free m a l.length) (hd : At m digest.addr dig) (ld : dig.length = digest.len) (hlen : digest.len = hLen) (hl : hLen + 1 ≤ l.length) :
    Fol (pssOpen A W H hLen slen need ⟨a, l.length⟩ digest) (create m a l) (pssOpenV W H hLen slen need l dig)
      (fun m' => ∃ l', l'.length = l.length ∧ m' = create m a l') := by
  unfold pssOpen pssOpenV
  generalize (0xff : Byte) >>> 1 = tb
  obtain ⟨dn, hdn⟩ : ∃ dn, l.length - hLen - 1 = dn := ⟨_, rfl⟩
  dsimp only
  rw [hdn]
  refine .mem (sub_run (by show 0 + dn ≤ l.length; omega)) ?_
  refine .mem (sub_run (by show dn + hLen ≤ l.length; omega)) ?_
  have L : At (create m a l) a l := create_in
  have hk : At (create m a l) (a + 0) (l.take dn) := L.sub 0 dn
  have hs : At (create m a l) (a + dn) ((l.drop dn).take hLen) := L.sub dn hLen
  have G := mgf1_mem hA xor_copy memxor_is (H := H) (seed := ⟨a + dn, hLen⟩) (mask := ⟨a + 0, dn⟩) (hm.create a l) hs (by simp; omega) hk (by simp; omega)
    (by show Sep (a + dn) hLen (a + 0) dn; unfold Sep; omega)
  cases hv : mgf1 H Ack.memxor ((l.drop dn).take hLen) (l.take dn) with
  | error e => rw [hv] at G; exact run_fail G
  | ok db =>
    rw [hv] at G
    obtain ⟨ldb, G⟩ := G
    rw [List.length_take] at ldb
    dsimp only at G
    rw [create_over (by omega), show over l 0 db = db ++ l.drop dn by unfold over; simp; omega] at G
    refine .mem G ?_
    rw [ok_bind]
    have D : At (create m a (db ++ l.drop dn)) (a + 0) db := by
      have := (create_in (m := m) (a := a) (l := db ++ l.drop dn)).sub 0 db.length
      simpa using this
    have g0 := get_run (p := ⟨a + 0, dn⟩) D (by show db.length = dn; omega) 0
    cases db with
    | nil => exact run_fail g0
    | cons b t =>
    refine .mem g0 ?_
    show Fol _ _ (do if !(← zerosThenOne ((b &&& tb) :: t ++ l.drop dn) _ 0) then return false else _) _
    have p0 := put_run (p := ⟨a + 0, dn⟩) D (by show (b :: t).length = dn; omega) (i := 0) (by show 0 < dn; simp at ldb; omega) (b &&& tb)
    dsimp only at p0
    simp only [Nat.add_zero] at p0
    have ov := create_over (m := m) (a := a) (l := b :: t ++ l.drop dn) (o := 0) (x := [b &&& tb]) (by simp)
    rw [Nat.add_zero] at ov
    rw [ov, show over (b :: t ++ l.drop dn) 0 [b &&& tb] = (b &&& tb) :: t ++ l.drop dn by unfold over; simp] at p0
    refine .mem p0 ?_
    obtain ⟨d, hd'⟩ : ∃ d, (b &&& tb) :: t = d := ⟨_, rfl⟩
    have ldd : d.length = dn := by rw [← hd']; simp at ldb ⊢; omega
    rw [hd']
    have lE : (d ++ l.drop dn).length = l.length := by simp; omega
    have fE : Free m a (d ++ l.drop dn).length := by rw [lE]; exact f
    have E : At (create m a (d ++ l.drop dn)) a (d ++ l.drop dn) := create_in
    have Z := zerosThenOne_mem (em := ⟨a, l.length⟩) E lE (l.length - need) 0
    rw [lE]
    refine .both Z fun z _ => ?_
    refine .ite (fun _ => .pure _ ⟨_, lE, rfl⟩) fun _ => ?_
    rw [ldd]
    refine .ite (fun _ => rfl) fun c => ?_
    have P := pssEnd_mem hA (W := W) (H := H) (slen := slen) (db := ⟨a + 0, dn⟩) (h := ⟨a + dn, hLen⟩) (dbl := d) (hl := (l.drop dn).take hLen) (hm.create a _)
      (by have := E.sub 0 d.length; simpa using this) ldd
      (by have := E.sub dn hLen; rwa [List.drop_left' ldd] at this) (by simp; omega) (hd.fresh fE) ld hlen (by rw [ldd]; exact c)
    unfold Fol
    cases hw : pssEndV H hLen slen d ((l.drop dn).take hLen) dig with
    | error e => rw [hw] at P; exact P
    | ok r => rw [hw] at P; exact ⟨_, P, _, lE, rfl⟩

theorem pssBody_mem {A : Place} (hA : A.Ok) {W : Nat} {H : Hash} {hLen : Nat} {sl : Option (BitVec 32)} {digest : Spn} {l dig : List Byte} {m : Mem} {a : Nat}
    (hm : Fin m) (f : Free m a l.length) (hd : At m digest.addr dig) (ld : dig.length = digest.len) (hlen : digest.len = hLen) :
    Fol (pssBody A W H hLen ⟨a, l.length⟩ sl digest) (create m a l) (pssBodyV W H hLen l sl dig) (fun m' => ∃ l', l'.length = l.length ∧ m' = create m a l') := by
  unfold pssBody pssBodyV
  have E : At (create m a l) a l := create_in
  dsimp only
  refine .ite (fun _ => .pure _ ⟨l, rfl, rfl⟩) fun _ => ?_
  refine .both (get_run (p := ⟨a, l.length⟩) E rfl _) fun b _ => ?_
  refine .ite (fun _ => .pure _ ⟨l, rfl, rfl⟩) fun _ => ?_
  refine .both (get_run (p := ⟨a, l.length⟩) E rfl _) fun b _ => ?_
  refine .ite (fun _ => .pure _ ⟨l, rfl, rfl⟩) fun _ => ?_
  refine .ite (fun _ => rfl) fun c => ?_
  exact pssOpen_mem hA hm f hd ld hlen (by omega)

theorem pssVerify_mem {A : Place} (hA : A.Ok) {W : Nat} {me : ModExp} (hme : Sized me) {H : Hash} {hLen : Nat} {salt : Option (BitVec 32)}
    {n e digest s : Spn} {nl el dig sl : List Byte}
    {m : Mem} (hm : Fin m) (hs : At m s.addr sl) (ls : sl.length = s.len) (he : At m e.addr el) (le : el.length = e.len) (hn : At m n.addr nl)
    (ln : nl.length = n.len) (hd : At m digest.addr dig) (ld : dig.length = digest.len) (hl : digest.len = hLen) :
    pssVerifyM A W me H hLen n e salt digest s m = (pssVerify W me H hLen nl el salt dig sl).map (·, m) := by
  rw [pssVerify_split]
  unfold pssVerifyM
  rw [ls, ln]
  by_cases c : s.len ≠ n.len
  · rw [if_pos c, if_pos c]; rfl
  · rw [if_neg c, if_neg c]
    exact gives_then (A := A) (rsavp1_mem hA hme hm hs ls he le hn ln) fun a l f => pssBody_mem hA hm f hd ld hl

/-! ## The exponentiations, and the terms of the specification -/

theorem host_sized : Sized hostModExp := by
  intro b e n r _ h
  unfold hostModExp at h
  split at h
  · cases h
  · cases h; exact encodeBE_length _ _

theorem sw_sized : Sized Powm.swModExp := by
  intro b e n r hl h
  by_cases hs : Powm.SafeSizes b e n
  · by_cases hb : beVal e < 2 ∨ beVal e % 2 = 0
    · rw [(Powm.swModExp_spec b e n hs).1 hb] at h; cases h
    · obtain ⟨front, h1, h2, -⟩ := (Powm.swModExp_spec b e n hs).2 hb
      rw [h1] at h; cases h
      rw [List.length_append, h2, List.length_drop, List.length_drop]
      omega
  · rw [Powm.swModExp_ub b e n hs] at h; cases h

theorem at_of {m : Mem} {a : Nat} {l : List Byte} (h : Spec.Bytes.Holds m a l) : At m a l := fun k hk => h k _ (List.getElem?_eq_getElem hk)

theorem holds_of {m : Mem} {a : Nat} {l : List Byte} (h : At m a l) : Spec.Bytes.Holds m a l := by
  intro k b hb
  obtain ⟨hk, rfl⟩ := List.getElem?_eq_some_iff.1 hb
  exact h k hk

theorem place_of {A : Place} (h : Spec.Bytes.Allocates fun m n => (A m n).1) : A.Ok := fun m hm n k hk => h m n hm k hk

theorem sep_of {a n b k : Nat} (h : Spec.Bytes.Disjoint a n b k) : Sep a n b k := by
  have h1 := h a
  have h2 := h b
  unfold Sep
  omega

theorem written_of {m : Mem} {a : Nat} {l : List Byte} : Spec.Bytes.Written m a l (create m a l) :=
  ⟨holds_of create_in, fun x hx => create_out (by omega)⟩

end Ack.View
