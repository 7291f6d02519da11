import Verif.Spec.Buffer
import Verif.Proof.Words
/-! # Invariant of the buffer objects and refinement of the history specification -/
namespace Ack.Mem
open Spec (Buf Good Bad Runs Fails)

/-- The elements of an object. -/
def contents (h : Heap) (o : Flex) : Buf := (List.range o.size).map (h.cell o.data.b)

/-- The user's view of a state. -/
def abs (s : State) : List Buf := s.objs.map (contents s.heap)

structure Obj (K : Kind) (h : Heap) (o : Flex) : Prop where
  hs : h.len o.sb = some K.N
  ns : h.dyn o.sb = false
  hn : o.db = none → o.size ≤ K.N ∧ o.dsize = 0
  hd : ∀ b, o.db = some b → K.dyn = true ∧ h.len b = some o.dsize ∧ h.dyn b = true ∧ o.size ≤ o.dsize ∧ K.N < o.dsize

structure Inv (K : Kind) (s : State) : Prop where
  obj : ∀ (i : Nat) o, s.objs[i]? = some o → Obj K s.heap o
  fresh : ∀ b, s.heap.next ≤ b → s.heap.len b = none
  sdist : ∀ (i j : Nat) o r, s.objs[i]? = some o → s.objs[j]? = some r → i ≠ j → o.sb ≠ r.sb
  ddist : ∀ (i j : Nat) o r b, s.objs[i]? = some o → s.objs[j]? = some r → i ≠ j → o.db = some b → r.db ≠ some b

/-- The block is the same in both memories. -/
def Agree (h h' : Heap) (b : Nat) : Prop :=
  h'.len b = h.len b ∧ h'.dyn b = h.dyn b ∧ ∀ k, h'.cell b k = h.cell b k

theorem Agree.rfl' (h : Heap) (b : Nat) : Agree h h b := ⟨rfl, rfl, fun _ => rfl⟩

theorem Agree.trans {h h' h'' : Heap} {b : Nat} (a : Agree h h' b) (c : Agree h' h'' b) : Agree h h'' b :=
  ⟨c.1.trans a.1, c.2.1.trans a.2.1, fun k => (c.2.2 k).trans (a.2.2 k)⟩

/-- The memories agree on the blocks of an object. -/
def AgreeO (h h' : Heap) (o : Flex) : Prop := Agree h h' o.sb ∧ ∀ b, o.db = some b → Agree h h' b

theorem AgreeO.rfl' (h : Heap) (o : Flex) : AgreeO h h o := ⟨Agree.rfl' _ _, fun _ _ => Agree.rfl' _ _⟩

theorem AgreeO.trans {h h' h'' : Heap} {o : Flex} (a : AgreeO h h' o) (c : AgreeO h' h'' o) : AgreeO h h'' o :=
  ⟨a.1.trans c.1, fun b hb => (a.2 b hb).trans (c.2 b hb)⟩

theorem Obj.agree {K h h' o} (H : Obj K h o) (A : AgreeO h h' o) : Obj K h' o where
  hs := A.1.1.trans H.hs
  ns := A.1.2.1.trans H.ns
  hn := H.hn
  hd b hb := by
    obtain ⟨h1, h2, h3, h4⟩ := H.hd b hb
    obtain ⟨a1, a2, -⟩ := A.2 b hb
    exact ⟨h1, a1.trans h2, a2.trans h3, h4⟩

theorem contents_agree {h h' : Heap} {o : Flex} (A : AgreeO h h' o) : contents h' o = contents h o := by
  unfold contents
  apply List.map_congr_left
  intro k _
  cases hb : o.db with
  | none => simp only [Flex.data, hb, Option.getD_none]; exact A.1.2.2 k
  | some b => simp only [Flex.data, hb, Option.getD_some]; exact (A.2 b hb).2.2 k

theorem contents_congr {h h' : Heap} {o o' : Flex} (hs : o'.size = o.size)
    (hc : ∀ k, k < o.size → h'.cell o'.data.b k = h.cell o.data.b k) : contents h' o' = contents h o := by
  unfold contents
  rw [hs]
  apply List.map_congr_left
  intro k hk
  exact hc k (List.mem_range.1 hk)

theorem contents_length (h : Heap) (o : Flex) : (contents h o).length = o.size := by
  simp [contents]

theorem contents_get (h : Heap) (o : Flex) (k : Nat) (hk : k < o.size) :
    (contents h o)[k]? = some (h.cell o.data.b k) := by
  simp [contents, List.getElem?_range hk]

theorem abs_get (s : State) (i : Nat) : (abs s)[i]? = (s.objs[i]?).map (contents s.heap) := by
  simp [abs]

theorem abs_length (s : State) : (abs s).length = s.objs.length := by simp [abs]

theorem lt_of_get {α : Type} {l : List α} {i : Nat} {a : α} (h : l[i]? = some a) : i < l.length := by
  rcases Nat.lt_or_ge i l.length with h1 | h1
  · exact h1
  · rw [List.getElem?_eq_none h1] at h; cases h

/-- Replace one object and change memory outside the other objects. -/
theorem Inv.upd {K h objs i o h' o'} (I : Inv K ⟨h, objs⟩) (hi : objs[i]? = some o)
    (hf : ∀ b, h'.next ≤ b → h'.len b = none) (hsb : o'.sb = o.sb) (ho : Obj K h' o')
    (hag : ∀ (j : Nat) (r : Flex), objs[j]? = some r → j ≠ i → AgreeO h h' r)
    (hdb : ∀ (j : Nat) (r : Flex) b, objs[j]? = some r → j ≠ i → o'.db = some b → r.db ≠ some b) :
    Inv K ⟨h', objs.set i o'⟩ ∧ abs ⟨h', objs.set i o'⟩ = (abs ⟨h, objs⟩).set i (contents h' o') := by
  have hlt := lt_of_get hi
  have key : ∀ j r, (objs.set i o')[j]? = some r → (j = i ∧ r = o') ∨ (j ≠ i ∧ objs[j]? = some r) := by
    intro j r hj
    rw [List.getElem?_set] at hj
    by_cases hij : i = j
    · subst hij
      rw [if_pos rfl, if_pos hlt] at hj
      exact Or.inl ⟨rfl, (Option.some.inj hj).symm⟩
    · rw [if_neg hij] at hj
      exact Or.inr ⟨fun e => hij e.symm, hj⟩
  refine ⟨⟨?_, hf, ?_, ?_⟩, ?_⟩
  · intro j r hj
    rcases key j r hj with ⟨_, rfl⟩ | ⟨hji, hr⟩
    · exact ho
    · exact (I.obj j r hr).agree (hag j r hr hji)
  · intro j k r t hj hk hjk
    rcases key j r hj with ⟨rfl, rfl⟩ | ⟨hji, hr⟩ <;> rcases key k t hk with ⟨hk1, hk2⟩ | ⟨hki, ht⟩
    · exact absurd hk1.symm hjk
    · rw [hsb]; exact I.sdist _ _ _ _ hi ht hjk
    · subst hk1; subst hk2; rw [hsb]; exact I.sdist _ _ _ _ hr hi hjk
    · exact I.sdist _ _ _ _ hr ht hjk
  · intro j k r t b hj hk hjk hb
    rcases key j r hj with ⟨rfl, rfl⟩ | ⟨hji, hr⟩ <;> rcases key k t hk with ⟨hk1, hk2⟩ | ⟨hki, ht⟩
    · exact absurd hk1.symm hjk
    · exact hdb k t b ht hki hb
    · subst hk1; subst hk2; intro e; exact hdb j r b hr hji e hb
    · exact I.ddist _ _ _ _ b hr ht hjk hb
  · unfold abs
    apply List.ext_getElem?
    intro j
    simp only [List.getElem?_map, List.getElem?_set, List.length_map]
    by_cases hij : i = j
    · subst hij
      simp [hlt]
    · simp only [if_neg hij]
      cases hr : objs[j]? with
      | none => rfl
      | some r =>
        simp only [Option.map_some]
        rw [contents_agree (hag j r hr (fun e => hij e.symm))]

/-- Add an object. -/
theorem Inv.push {K h objs h' o'} (I : Inv K ⟨h, objs⟩)
    (hf : ∀ b, h'.next ≤ b → h'.len b = none) (ho : Obj K h' o')
    (hsb : ∀ (j : Nat) (r : Flex), objs[j]? = some r → r.sb ≠ o'.sb)
    (hag : ∀ (j : Nat) (r : Flex), objs[j]? = some r → AgreeO h h' r)
    (hdb : ∀ (j : Nat) (r : Flex) b, objs[j]? = some r → o'.db = some b → r.db ≠ some b) :
    Inv K ⟨h', objs ++ [o']⟩ ∧ abs ⟨h', objs ++ [o']⟩ = abs ⟨h, objs⟩ ++ [contents h' o'] := by
  have key : ∀ j r, (objs ++ [o'])[j]? = some r → (j = objs.length ∧ r = o') ∨ (objs[j]? = some r) := by
    intro j r hj
    rcases Nat.lt_trichotomy j objs.length with h1 | h1 | h1
    · rw [List.getElem?_append_left h1] at hj; exact Or.inr hj
    · subst h1; simp at hj; exact Or.inl ⟨rfl, hj.symm⟩
    · rw [List.getElem?_eq_none (by simp; omega)] at hj; cases hj
  refine ⟨⟨?_, hf, ?_, ?_⟩, ?_⟩
  · intro j r hj
    rcases key j r hj with ⟨_, rfl⟩ | hr
    · exact ho
    · exact (I.obj j r hr).agree (hag j r hr)
  · intro j k r t hj hk hjk
    rcases key j r hj with ⟨hj1, hj2⟩ | hr <;> rcases key k t hk with ⟨hk1, hk2⟩ | ht
    · omega
    · rw [hj2]; exact (hsb k t ht).symm
    · rw [hk2]; exact hsb j r hr
    · exact I.sdist _ _ _ _ hr ht hjk
  · intro j k r t b hj hk hjk hb
    rcases key j r hj with ⟨hj1, hj2⟩ | hr <;> rcases key k t hk with ⟨hk1, hk2⟩ | ht
    · omega
    · rw [hj2] at hb; exact hdb k t b ht hb
    · rw [hk2]; intro e; exact hdb j r b hr e hb
    · exact I.ddist _ _ _ _ b hr ht hjk hb
  · simp only [abs, List.map_append, List.map_cons, List.map_nil]
    congr 1
    apply List.map_congr_left
    intro r hr
    obtain ⟨j, hj⟩ := List.getElem?_of_mem hr
    exact contents_agree (hag j r hj)

/-! ### Memory operations -/

theorem upd_same {α : Type} (f : Nat → α) (i : Nat) (a : α) : upd f i a i = a := if_pos rfl
theorem upd_ne {α : Type} (f : Nat → α) (i j : Nat) (a : α) (h : j ≠ i) : upd f i a j = f j := if_neg h

theorem alloc_agree (h : Heap) (n : Nat) (d : Bool) (v : Option Word) (b : Nat) (hb : b ≠ h.next) :
    Agree h (h.alloc n d v).1 b :=
  ⟨upd_ne _ _ _ _ hb, upd_ne _ _ _ _ hb, fun k => by
    show upd h.cell h.next (fun _ => v) b k = _
    rw [upd_ne _ _ _ _ hb]⟩

theorem alloc_fresh {h : Heap} (hf : ∀ b, h.next ≤ b → h.len b = none) (n : Nat) (d : Bool) (v : Option Word) :
    ∀ b, (h.alloc n d v).1.next ≤ b → (h.alloc n d v).1.len b = none := by
  intro b hb
  have hb' : h.next + 1 ≤ b := hb
  show upd h.len h.next (some n) b = none
  rw [upd_ne _ _ _ _ (by omega)]
  exact hf b (by omega)

theorem lt_next {h : Heap} (hf : ∀ b, h.next ≤ b → h.len b = none) {b n : Nat} (hb : h.len b = some n) : b < h.next := by
  rcases Nat.lt_or_ge b h.next with h1 | h1
  · exact h1
  · rw [hf b h1] at hb; cases hb

/-- Effect of a permitted `memcpy`. -/
theorem copy_ok {h : Heap} {d s n Ld Ls : Nat} (hne : d ≠ s) (hd : h.len d = some Ld) (hs : h.len s = some Ls)
    (h1 : n ≤ Ld) (h2 : n ≤ Ls) :
    h.copy d s n = .ok { h with cell := upd h.cell d (fun k => if k < n then h.cell s k else h.cell d k) } := by
  unfold Heap.copy
  rw [if_pos]
  refine ⟨hne, ?_, ?_⟩
  · simp only [Heap.room, hd]; simpa using h1
  · simp only [Heap.room, hs]; simpa using h2

theorem copy_agree {h h' : Heap} {d s n : Nat} (e : h.copy d s n = .ok h') :
    h'.len = h.len ∧ h'.dyn = h.dyn ∧ h'.next = h.next ∧ (∀ b, b ≠ d → Agree h h' b) ∧
    (∀ k, h'.cell d k = if k < n then h.cell s k else h.cell d k) := by
  unfold Heap.copy at e
  split at e
  · cases e
    refine ⟨rfl, rfl, rfl, ?_, ?_⟩
    · intro b hb
      exact ⟨rfl, rfl, fun k => by show (upd h.cell d _) b k = _; rw [upd_ne _ _ _ _ hb]⟩
    · intro k
      show (upd h.cell d _) d k = _
      rw [upd_same]
  · cases e

theorem free_ok {h : Heap} {b n : Nat} (hb : h.len b = some n) (hd : h.dyn b = true) :
    h.free b = .ok { h with len := upd h.len b none } := by
  unfold Heap.free
  rw [if_pos ⟨by rw [hb]; simp, hd⟩]

theorem free_agree {h h' : Heap} {b : Nat} (e : h.free b = .ok h') :
    h'.dyn = h.dyn ∧ h'.next = h.next ∧ h'.cell = h.cell ∧ (∀ c, c ≠ b → Agree h h' c) ∧
    ((∀ c, h.next ≤ c → h.len c = none) → ∀ c, h'.next ≤ c → h'.len c = none) := by
  unfold Heap.free at e
  split at e
  · cases e
    refine ⟨rfl, rfl, rfl, ?_, ?_⟩
    · intro c hc
      exact ⟨by show upd _ _ _ _ = _; rw [upd_ne _ _ _ _ hc], rfl, fun _ => rfl⟩
    · intro hf c hc
      show upd _ _ _ _ = _
      unfold upd
      split
      · rfl
      · exact hf c hc
  · cases e

/-! ### The operations of one object -/

theorem clear_spec {K h objs i o} (I : Inv K ⟨h, objs⟩) (hi : objs[i]? = some o) :
    ∃ h', clear h o = .ok (h', ⟨o.sb, none, 0, 0⟩) ∧ h'.cell = h.cell ∧ h'.next = h.next ∧
      (∀ b, o.db ≠ some b → Agree h h' b) ∧
      Inv K ⟨h', objs.set i ⟨o.sb, none, 0, 0⟩⟩ ∧
      abs ⟨h', objs.set i ⟨o.sb, none, 0, 0⟩⟩ = (abs ⟨h, objs⟩).set i [] := by
  have ho := I.obj i o hi
  cases hb : o.db with
  | none =>
    refine ⟨h, by simp [clear, hb], rfl, rfl, fun b _ => Agree.rfl' _ _, ?_⟩
    refine I.upd hi I.fresh rfl ⟨ho.hs, ho.ns, fun _ => ⟨Nat.zero_le _, rfl⟩, fun b h => nomatch h⟩ ?_ ?_
    · intro j r _ _; exact AgreeO.rfl' _ _
    · intro j r b _ _ hh; cases hh
  | some b =>
    obtain ⟨_, h2, h3, _⟩ := ho.hd b hb
    have e := free_ok h2 h3
    obtain ⟨f1, f2, f3, f4, f5⟩ := free_agree e
    refine ⟨{ h with len := upd h.len b none }, by simp [clear, hb, e, ok_bind], rfl, rfl, ?_, ?_⟩
    · intro c hc; exact f4 c (fun e => hc (by rw [e]))
    · have hsb : o.sb ≠ b := by
        intro e; rw [← e] at h3; rw [ho.ns] at h3; cases h3
      refine I.upd hi (f5 I.fresh) rfl ?_ ?_ ?_
      · exact (Obj.agree (o := ⟨o.sb, none, 0, 0⟩) ⟨ho.hs, ho.ns, fun _ => ⟨Nat.zero_le _, rfl⟩, fun b h => nomatch h⟩
          ⟨f4 _ hsb, fun _ h => nomatch h⟩)
      · intro j r hr hji
        refine ⟨f4 _ ?_, fun c hc => f4 _ ?_⟩
        · intro e
          have := (I.obj j r hr).ns
          simp only at this
          rw [e, h3] at this; cases this
        · intro e
          exact I.ddist _ _ _ _ b hi hr hji.symm hb (by rw [hc, e])
      · intro j r c _ _ hh; cases hh

/-- The size limit of a kind. -/
def Kind.lim (K : Kind) : Option Nat := if K.dyn then none else some K.N

theorem fits_lim (K : Kind) (n : Nat) : Spec.fits K.lim n ↔ (K.dyn = true ∨ n ≤ K.N) := by
  unfold Spec.fits Kind.lim
  cases K.dyn <;> simp

/-- Number of words of the storage in use. -/
def Flex.cap (K : Kind) (o : Flex) : Nat := if o.db = none then K.N else o.dsize

theorem Obj.size_le {K h o} (H : Obj K h o) : o.size ≤ o.cap K := by
  unfold Flex.cap
  cases hb : o.db with
  | none => rw [if_pos rfl]; exact (H.hn hb).1
  | some b => rw [if_neg (by simp)]; exact (H.hd b hb).2.2.2.1

/-- `resize`: total, keeps the invariant and the common prefix, touches no other object. -/
theorem resize_spec {K h objs i o} (I : Inv K ⟨h, objs⟩) (hi : objs[i]? = some o) (n : Nat) :
    ∃ h' o' f, resize K h o n = .ok (h', o', f) ∧ (f = true ↔ (K.dyn = true ∨ n ≤ K.N)) ∧
      (f = false → h' = h ∧ o' = o) ∧ (f = true → o'.size = n) ∧ o'.sb = o.sb ∧
      Inv K ⟨h', objs.set i o'⟩ ∧
      abs ⟨h', objs.set i o'⟩ = (abs ⟨h, objs⟩).set i (contents h' o') ∧
      (∀ k, k < o.cap K → h'.cell o'.data.b k = h.cell o.data.b k) ∧
      (∀ (j : Nat) r, objs[j]? = some r → j ≠ i → AgreeO h h' r) ∧
      (∀ b, o.db ≠ some b → b < h.next → Agree h h' b) := by
  have ho := I.obj i o hi
  have hlt := lt_next I.fresh ho.hs
  simp only at hlt
  by_cases hdyn : K.dyn = true
  · by_cases hg : n > K.N ∧ n > o.dsize
    · -- a new block
      have hmax : max K.N n = n := by omega
      cases hb : o.db with
      | none =>
        obtain ⟨h1, h2⟩ := ho.hn hb
        have hne : h.next ≠ o.sb := by omega
        obtain ⟨ha, hha⟩ : ∃ ha, ha = (h.alloc (o.dsize + n) true none).1 := ⟨_, rfl⟩
        have hA : ∀ b, b ≠ h.next → Agree h ha b := by
          intro b hb; rw [hha]; exact alloc_agree _ _ _ _ _ hb
        have hal : ha.len h.next = some (o.dsize + n) := by rw [hha]; exact upd_same _ _ _
        have has : ha.len o.sb = some K.N := (hA _ (Ne.symm hne)).1.trans ho.hs
        have hf := alloc_fresh I.fresh (o.dsize + n) true none
        simp only at hf
        rw [← hha] at hf
        have e := copy_ok hne hal has (n := K.N) (by omega) (Nat.le_refl _)
        obtain ⟨hc, hhc⟩ : ∃ hc, Heap.copy ha h.next o.sb K.N = .ok hc := ⟨_, e⟩
        obtain ⟨c1, c2, c3, c4, c5⟩ := copy_agree hhc
        have hAg : ∀ b, b ≠ h.next → Agree h hc b := fun b hb => (hA b hb).trans (c4 b hb)
        have hob : Obj K hc ⟨o.sb, some h.next, n, o.dsize + n⟩ := by
          refine ⟨(hAg _ (Ne.symm hne)).1.trans ho.hs, (hAg _ (Ne.symm hne)).2.1.trans ho.ns, (fun h => nomatch h), ?_⟩
          intro b hb'
          cases hb'
          refine ⟨hdyn, by rw [c1]; exact hal, ?_, ?_, ?_⟩
          · rw [c2, hha]; exact upd_same _ _ _
          · show n ≤ o.dsize + n
            omega
          · show K.N < o.dsize + n
            omega
        have hother : ∀ j r, objs[j]? = some r → j ≠ i → AgreeO h hc r := by
          intro j r hr _
          have hR := I.obj j r hr
          refine ⟨hAg _ ?_, fun b hb => hAg _ ?_⟩
          · have := lt_next I.fresh hR.hs
            simp only at this; omega
          · have := lt_next I.fresh (hR.hd b hb).2.1
            simp only at this; omega
        have hupd := I.upd (h' := hc) (o' := ⟨o.sb, some h.next, n, o.dsize + n⟩) hi
          (by rw [c1, c3]; exact hf) rfl hob hother (by
            intro j r b hr _ hb' hrb
            cases hb'
            have := lt_next I.fresh ((I.obj j r hr).hd _ hrb).2.1
            simp only at this; omega)
        refine ⟨hc, ⟨o.sb, some h.next, n, o.dsize + n⟩, true, ?_, by simp [hdyn], by simp, fun _ => rfl, rfl,
          hupd.1, hupd.2, ?_, hother, ?_⟩
        · unfold resize
          rw [if_pos hdyn, if_pos hg]
          dsimp only
          rw [hmax]
          have : (h.alloc (o.dsize + n) true none) = (ha, h.next) := by rw [hha]; rfl
          rw [this]
          dsimp only
          rw [hb]
          dsimp only
          rw [hhc]; rfl
        · intro k hk
          rw [Flex.cap, if_pos hb] at hk
          simp only [Flex.data, Option.getD_some, hb, Option.getD_none]
          rw [c5, if_pos hk]
          exact (hA _ (Ne.symm hne)).2.2 k
        · intro b _ hbn
          exact hAg b (by omega)
      | some p =>
        obtain ⟨h1, h2, h3, h4, h5⟩ := ho.hd p hb
        have hpl := lt_next I.fresh h2
        simp only at hpl
        have hne : h.next ≠ p := by omega
        obtain ⟨ha, hha⟩ : ∃ ha, ha = (h.alloc (o.dsize + n) true none).1 := ⟨_, rfl⟩
        have hA : ∀ b, b ≠ h.next → Agree h ha b := by
          intro b hb; rw [hha]; exact alloc_agree _ _ _ _ _ hb
        have hal : ha.len h.next = some (o.dsize + n) := by rw [hha]; exact upd_same _ _ _
        have hap : ha.len p = some o.dsize := (hA _ (Ne.symm hne)).1.trans h2
        have hf := alloc_fresh I.fresh (o.dsize + n) true none
        simp only at hf
        rw [← hha] at hf
        have e := copy_ok hne hal hap (n := o.dsize) (by omega) (Nat.le_refl _)
        obtain ⟨hc, hhc⟩ : ∃ hc, Heap.copy ha h.next p o.dsize = .ok hc := ⟨_, e⟩
        obtain ⟨c1, c2, c3, c4, c5⟩ := copy_agree hhc
        have e2 := free_ok (h := hc) (b := p) (n := o.dsize) (by rw [c1]; exact hap)
          (by rw [c2]; exact (hA _ (Ne.symm hne)).2.1.trans h3)
        obtain ⟨hd, hhd⟩ : ∃ hd, Heap.free hc p = .ok hd := ⟨_, e2⟩
        obtain ⟨d1, d2, d3, d4, d5⟩ := free_agree hhd
        have hAg : ∀ b, b ≠ h.next → b ≠ p → Agree h hd b :=
          fun b hb hbp => ((hA b hb).trans (c4 b hb)).trans (d4 b hbp)
        have hsp : o.sb ≠ p := by
          intro e; rw [← e, ho.ns] at h3; cases h3
        have hsn : o.sb ≠ h.next := by omega
        have hob : Obj K hd ⟨o.sb, some h.next, n, o.dsize + n⟩ := by
          refine ⟨(hAg _ hsn hsp).1.trans ho.hs, (hAg _ hsn hsp).2.1.trans ho.ns, (fun h => nomatch h), ?_⟩
          intro b hb'
          cases hb'
          refine ⟨hdyn, ?_, ?_, ?_, ?_⟩
          · rw [(d4 _ hne).1, c1]; exact hal
          · rw [d1, c2, hha]; exact upd_same _ _ _
          · show n ≤ o.dsize + n
            omega
          · show K.N < o.dsize + n
            omega
        have hother : ∀ j r, objs[j]? = some r → j ≠ i → AgreeO h hd r := by
          intro j r hr hji
          have hR := I.obj j r hr
          refine ⟨hAg _ ?_ ?_, fun b hb' => hAg _ ?_ ?_⟩
          · have := lt_next I.fresh hR.hs
            simp only at this; omega
          · intro e
            have := hR.ns
            simp only at this
            rw [e, h3] at this; cases this
          · have := lt_next I.fresh (hR.hd b hb').2.1
            simp only at this; omega
          · intro e
            exact I.ddist _ _ _ _ p hi hr hji.symm hb (by rw [hb', e])
        have hupd := I.upd (h' := hd) (o' := ⟨o.sb, some h.next, n, o.dsize + n⟩) hi
          (d5 (by rw [c1, c3]; exact hf)) rfl hob hother (by
            intro j r b hr _ hb' hrb
            cases hb'
            have := lt_next I.fresh ((I.obj j r hr).hd _ hrb).2.1
            simp only at this; omega)
        refine ⟨hd, ⟨o.sb, some h.next, n, o.dsize + n⟩, true, ?_, by simp [hdyn], by simp, fun _ => rfl, rfl,
          hupd.1, hupd.2, ?_, hother, ?_⟩
        · unfold resize
          rw [if_pos hdyn, if_pos hg]
          dsimp only
          rw [hmax]
          have : (h.alloc (o.dsize + n) true none) = (ha, h.next) := by rw [hha]; rfl
          rw [this]
          dsimp only
          rw [hb]
          dsimp only
          rw [show o.dsize + n - n = o.dsize from by omega, hhc]
          show (Heap.free hc p >>= _) = _
          rw [hhd]; rfl
        · intro k hk
          rw [Flex.cap, if_neg (by rw [hb]; simp)] at hk
          simp only [Flex.data, Option.getD_some, hb]
          rw [d3, c5, if_pos hk]
          exact (hA _ (Ne.symm hne)).2.2 k
        · intro b hbd hbn
          exact hAg b (by omega) (fun e => hbd (by rw [e]))
    · -- the current storage is large enough
      have hob : Obj K h { o with size := n } := by
        refine ⟨ho.hs, ho.ns, ?_, ?_⟩
        · intro hb
          obtain ⟨h1, h2⟩ := ho.hn hb
          refine ⟨?_, h2⟩
          show n ≤ K.N
          omega
        · intro b hb
          obtain ⟨h1, h2, h3, h4, h5⟩ := ho.hd b hb
          refine ⟨h1, h2, h3, ?_, h5⟩
          show n ≤ o.dsize
          omega
      have hupd := I.upd (h' := h) (o' := { o with size := n }) hi I.fresh rfl hob
        (fun _ _ _ _ => AgreeO.rfl' _ _) (fun j r b hr hji hb => I.ddist _ _ _ _ b hi hr hji.symm hb)
      refine ⟨h, { o with size := n }, true, ?_, by simp [hdyn], by simp, fun _ => rfl, rfl, hupd.1, hupd.2, ?_, ?_, ?_⟩
      · unfold resize
        rw [if_pos hdyn, if_neg hg]
      · intro k _; rfl
      · intro _ _ _ _; exact AgreeO.rfl' _ _
      · intro _ _ _; exact Agree.rfl' _ _
  · by_cases hn : n > K.N
    · refine ⟨h, o, false, ?_, ?_, by simp, by simp, rfl, ?_, ?_, ?_, ?_, ?_⟩
      · unfold resize
        rw [if_neg hdyn, if_pos hn]
      · constructor
        · intro h; cases h
        · intro h
          rcases h with h | h
          · exact absurd h hdyn
          · omega
      · have := I.upd (h' := h) (o' := o) hi I.fresh rfl ho
          (fun _ _ _ _ => AgreeO.rfl' _ _) (fun j r b hr hji hb => I.ddist _ _ _ _ b hi hr hji.symm hb)
        exact this.1
      · have := I.upd (h' := h) (o' := o) hi I.fresh rfl ho
          (fun _ _ _ _ => AgreeO.rfl' _ _) (fun j r b hr hji hb => I.ddist _ _ _ _ b hi hr hji.symm hb)
        exact this.2
      · intro k _; rfl
      · intro _ _ _ _; exact AgreeO.rfl' _ _
      · intro _ _ _; exact Agree.rfl' _ _
    · have hob : Obj K h { o with size := n } := by
        refine ⟨ho.hs, ho.ns, ?_, ?_⟩
        · intro hb
          refine ⟨?_, (ho.hn hb).2⟩
          show n ≤ K.N
          omega
        · intro b hb
          exact absurd (ho.hd b hb).1 hdyn
      have hupd := I.upd (h' := h) (o' := { o with size := n }) hi I.fresh rfl hob
        (fun _ _ _ _ => AgreeO.rfl' _ _) (fun j r b hr hji hb => I.ddist _ _ _ _ b hi hr hji.symm hb)
      refine ⟨h, { o with size := n }, true, ?_, ?_, by simp, fun _ => rfl, rfl, hupd.1, hupd.2, ?_, ?_, ?_⟩
      · unfold resize
        rw [if_neg hdyn, if_neg hn]
      · simp only [true_iff]
        exact Or.inr (by omega)
      · intro k _; rfl
      · intro _ _ _ _; exact AgreeO.rfl' _ _
      · intro _ _ _; exact Agree.rfl' _ _

/-- Copying into the (emptied or new) object whose inline block is `sb`. -/
theorem copyInto_spec {K h sb} {r : Flex} (hf : ∀ b, h.next ≤ b → h.len b = none) (hr : Obj K h r)
    (hne : sb ≠ r.sb) (hsb : h.len sb = some K.N) (hns : h.dyn sb = false) :
    ∃ h' o', copyInto K h sb r = .ok (h', o') ∧ o'.sb = sb ∧ Obj K h' o' ∧ contents h' o' = contents h r ∧
      (∀ b, h'.next ≤ b → h'.len b = none) ∧ (∀ b, b ≠ sb → b < h.next → Agree h h' b) ∧
      (∀ b, o'.db = some b → h.next ≤ b) := by
  have e := copy_ok hne hsb hr.hs (Nat.le_refl _) (Nat.le_refl _)
  obtain ⟨h1, hh1⟩ : ∃ h1, Heap.copy h sb r.sb K.N = .ok h1 := ⟨_, e⟩
  obtain ⟨c1, c2, c3, c4, c5⟩ := copy_agree hh1
  have hf1 : ∀ b, h1.next ≤ b → h1.len b = none := by rw [c1, c3]; exact hf
  cases hb : r.db with
  | none =>
    obtain ⟨n1, n2⟩ := hr.hn hb
    refine ⟨h1, ⟨sb, none, r.size, r.dsize⟩, ?_, rfl, ?_, ?_, hf1, fun b hb _ => c4 b hb, by simp⟩
    · simp only [copyInto, hh1, ok_bind, hb]
    · exact ⟨by rw [c1]; exact hsb, by rw [c2]; exact hns, fun _ => ⟨n1, n2⟩, fun b h => nomatch h⟩
    · refine contents_congr (o := r) (by rfl) ?_
      intro k hk
      simp only [Flex.data, hb, Option.getD_none]
      rw [c5, if_pos (by omega)]
  | some p =>
    obtain ⟨d1, d2, d3, d4, d5⟩ := hr.hd p hb
    have hp := lt_next hf d2
    have hsp : p ≠ sb := by intro e; rw [e, hns] at d3; cases d3
    have hsl := lt_next hf hsb
    obtain ⟨ha, hha⟩ : ∃ ha, ha = (h1.alloc r.dsize true none).1 := ⟨_, rfl⟩
    have hA : ∀ b, b ≠ h1.next → Agree h1 ha b := by
      intro b hb; rw [hha]; exact alloc_agree _ _ _ _ _ hb
    have hal : ha.len h1.next = some r.dsize := by rw [hha]; exact upd_same _ _ _
    have hpn : p ≠ h1.next := by rw [c3]; omega
    have hap : ha.len p = some r.dsize := by rw [(hA p hpn).1, c1]; exact d2
    have hfa : ∀ b, ha.next ≤ b → ha.len b = none := by rw [hha]; exact alloc_fresh hf1 _ _ _
    have e2 := copy_ok (Ne.symm hpn) hal hap (Nat.le_refl _) (Nat.le_refl _)
    obtain ⟨h2, hh2⟩ : ∃ h2, Heap.copy ha h1.next p r.dsize = .ok h2 := ⟨_, e2⟩
    obtain ⟨g1, g2, g3, g4, g5⟩ := copy_agree hh2
    have hsn : sb ≠ h1.next := by rw [c3]; omega
    refine ⟨h2, ⟨sb, some h1.next, r.size, r.dsize⟩, ?_, rfl, ?_, ?_, ?_, ?_, ?_⟩
    · simp only [copyInto, hh1, ok_bind, hb]
      have : (h1.alloc r.dsize true none) = (ha, h1.next) := by rw [hha]; rfl
      rw [this]
      dsimp only
      rw [hh2]; rfl
    · refine ⟨?_, ?_, (fun h => nomatch h), ?_⟩
      · show h2.len sb = _
        rw [g1, (hA sb hsn).1, c1]; exact hsb
      · show h2.dyn sb = _
        rw [g2, (hA sb hsn).2.1, c2]; exact hns
      · intro b hb'
        cases hb'
        refine ⟨d1, by rw [g1]; exact hal, ?_, d4, d5⟩
        rw [g2, hha]; exact upd_same _ _ _
    · refine contents_congr (o := r) (by rfl) ?_
      intro k hk
      simp only [Flex.data, hb, Option.getD_some]
      rw [g5, if_pos (by omega), (hA p hpn).2.2, (c4 p hsp).2.2]
    · rw [g1, g3]; exact hfa
    · intro b hb1 hb2
      have hbn : b ≠ h1.next := by rw [c3]; omega
      exact ((c4 b hb1).trans (hA b hbn)).trans (g4 b hbn)
    · intro b hb'
      cases hb'
      rw [c3]

/-- Moving into the (emptied or new) object whose inline block is `sb`. -/
theorem moveInto_spec {K h sb} {r : Flex} (hf : ∀ b, h.next ≤ b → h.len b = none) (hr : Obj K h r)
    (hne : sb ≠ r.sb) (hsb : h.len sb = some K.N) (hns : h.dyn sb = false) :
    ∃ h' o', moveInto K h sb r = .ok (h', o', if K.dyn then ⟨r.sb, none, 0, 0⟩ else r) ∧ o'.sb = sb ∧ Obj K h' o' ∧
      contents h' o' = contents h r ∧
      (∀ b, h'.next ≤ b → h'.len b = none) ∧ (∀ b, b ≠ sb → Agree h h' b) ∧ o'.db = r.db := by
  have e := copy_ok hne hsb hr.hs (Nat.le_refl _) (Nat.le_refl _)
  obtain ⟨h1, hh1⟩ : ∃ h1, Heap.copy h sb r.sb K.N = .ok h1 := ⟨_, e⟩
  obtain ⟨c1, c2, c3, c4, c5⟩ := copy_agree hh1
  have hf1 : ∀ b, h1.next ≤ b → h1.len b = none := by rw [c1, c3]; exact hf
  refine ⟨h1, ⟨sb, r.db, r.size, r.dsize⟩, ?_, rfl, ?_, ?_, hf1, fun b hb => c4 b hb, rfl⟩
  · simp only [moveInto, hh1, ok_bind]
  · refine ⟨by rw [c1]; exact hsb, by rw [c2]; exact hns, hr.hn, ?_⟩
    intro b hb
    obtain ⟨d1, d2, d3, d4, d5⟩ := hr.hd b hb
    exact ⟨d1, by rw [c1]; exact d2, by rw [c2]; exact d3, d4, d5⟩
  · refine contents_congr (o := r) (by rfl) ?_
    intro k hk
    cases hb : r.db with
    | none =>
      simp only [Flex.data, hb, Option.getD_none]
      have := (hr.hn hb).1
      rw [c5, if_pos (by omega)]
    | some p =>
      simp only [Flex.data, hb, Option.getD_some]
      obtain ⟨d1, d2, d3, d4, d5⟩ := hr.hd p hb
      have hsp : p ≠ sb := by intro e; rw [e, hns] at d3; cases d3
      exact (c4 p hsp).2.2 k

theorem inline_spec {K : Kind} {h : Heap} (hf : ∀ b, h.next ≤ b → h.len b = none) :
    (newInline K h).2 = h.next ∧ (newInline K h).1.next = h.next + 1 ∧
    (newInline K h).1.len h.next = some K.N ∧ (newInline K h).1.dyn h.next = false ∧
    (∀ b, b ≠ h.next → Agree h (newInline K h).1 b) ∧
    (∀ b, (newInline K h).1.next ≤ b → (newInline K h).1.len b = none) :=
  ⟨rfl, rfl, upd_same _ _ _, upd_same _ _ _, fun b hb => alloc_agree _ _ _ _ _ hb, alloc_fresh hf _ _ _⟩

/-- The blocks of an object exist. -/
theorem Obj.lt {K h o} (H : Obj K h o) (hf : ∀ b, h.next ≤ b → h.len b = none) :
    o.sb < h.next ∧ ∀ b, o.db = some b → b < h.next :=
  ⟨lt_next hf H.hs, fun b hb => lt_next hf (H.hd b hb).2.1⟩

theorem set_set_ne {α : Type} (l : List α) (i j : Nat) (a b c : α) (h : i ≠ j) :
    ((l.set i a).set j b).set i c = (l.set i c).set j b := by
  rw [List.set_comm _ _ (Ne.symm h), List.set_set]

/-- `Inv` under a memory that agrees on all objects. -/
theorem Inv.mono {K h objs h'} (I : Inv K ⟨h, objs⟩) (hf : ∀ b, h'.next ≤ b → h'.len b = none)
    (hag : ∀ (j : Nat) r, objs[j]? = some r → AgreeO h h' r) :
    Inv K ⟨h', objs⟩ ∧ abs ⟨h', objs⟩ = abs ⟨h, objs⟩ := by
  refine ⟨⟨fun i o ho => (I.obj i o ho).agree (hag i o ho), hf, I.sdist, I.ddist⟩, ?_⟩
  unfold abs
  apply List.map_congr_left
  intro r hr
  obtain ⟨j, hj⟩ := List.getElem?_of_mem hr
  exact contents_agree (hag j r hj)

theorem empty_obj {K : Kind} {h : Heap} {o : Flex} (H : Obj K h o) : Obj K h ⟨o.sb, none, 0, 0⟩ :=
  ⟨H.hs, H.ns, fun _ => ⟨Nat.zero_le _, rfl⟩, fun b h => nomatch h⟩

theorem contents_empty (h : Heap) (sb : Nat) : contents h ⟨sb, none, 0, 0⟩ = [] := rfl

/-- Forget the storage of an object. -/
theorem Inv.drop {K h objs i o} (I : Inv K ⟨h, objs⟩) (hi : objs[i]? = some o) :
    Inv K ⟨h, objs.set i ⟨o.sb, none, 0, 0⟩⟩ ∧ abs ⟨h, objs.set i ⟨o.sb, none, 0, 0⟩⟩ = (abs ⟨h, objs⟩).set i [] :=
  I.upd hi I.fresh rfl (empty_obj (I.obj i o hi)) (fun _ _ _ _ => AgreeO.rfl' _ _) (fun _ _ _ _ _ h => nomatch h)

/-- One call: the invariant is kept and the call does what the specification says. -/
theorem step_spec {K : Kind} {s : State} (I : Inv K s) (op : Op) :
    (∃ s' out, step K s op = .ok (s', out) ∧ Inv K s' ∧ Good K.lim K.dyn (abs s) op (abs s') out) ∨
    (∃ e, step K s op = .error e ∧ Bad (abs s) op e) := by
  obtain ⟨h, objs⟩ := s
  have hget : ∀ i : Nat, (abs ⟨h, objs⟩)[i]? = (objs[i]?).map (contents h) := abs_get _
  cases op with
  | create =>
    left
    obtain ⟨i1, i2, i3, i4, i5, i6⟩ := inline_spec (K := K) (h := h) I.fresh
    have P := I.push (h' := (newInline K h).1) (o' := ⟨h.next, none, 0, 0⟩) i6
      ⟨i3, i4, fun _ => ⟨Nat.zero_le _, rfl⟩, fun b h => nomatch h⟩
      (fun j r hr => by have := (I.obj j r hr).lt I.fresh; exact Nat.ne_of_lt this.1)
      (fun j r hr => by
        have := (I.obj j r hr).lt I.fresh
        exact ⟨i5 _ (Nat.ne_of_lt this.1), fun b hb => i5 _ (Nat.ne_of_lt (this.2 b hb))⟩)
      (fun _ _ _ _ h => nomatch h)
    exact ⟨_, _, rfl, P.1, P.2, rfl⟩
  | copyNew i =>
    left
    cases hi : objs[i]? with
    | none =>
      refine ⟨⟨h, objs⟩, .none, by simp only [step, hi], I, ?_⟩
      refine ⟨?_, fun _ => rfl, rfl⟩
      intro x hx
      rw [hget, hi] at hx; cases hx
    | some r =>
      obtain ⟨i1, i2, i3, i4, i5, i6⟩ := inline_spec (K := K) (h := h) I.fresh
      have hR := I.obj i r hi
      have hlt := hR.lt I.fresh
      simp only at hlt
      have hag : AgreeO h (newInline K h).1 r :=
        ⟨i5 _ (Nat.ne_of_lt hlt.1), fun b hb => i5 _ (Nat.ne_of_lt (hlt.2 b hb))⟩
      obtain ⟨h', o', e1, e2, e3, e4, e5, e6, e7⟩ :=
        copyInto_spec (h := (newInline K h).1) (sb := h.next) i6 (hR.agree hag) (Ne.symm (Nat.ne_of_lt hlt.1)) i3 i4
      have P := I.push (h' := h') (o' := o') e5 e3
        (fun j t ht => by
          have := (I.obj j t ht).lt I.fresh
          simp only at this
          rw [e2]; omega)
        (fun j t ht => by
          have := (I.obj j t ht).lt I.fresh
          simp only at this
          refine ⟨(i5 _ (by omega)).trans (e6 _ (by omega) (by rw [i2]; omega)), fun b hb => ?_⟩
          have := this.2 b hb
          exact (i5 _ (by omega)).trans (e6 _ (by omega) (by rw [i2]; omega)))
        (fun j t b ht hb hb' => by
          have := ((I.obj j t ht).lt I.fresh).2 b hb'
          have h2 := e7 b hb
          rw [i2] at h2
          simp only at this h2
          omega)
      refine ⟨⟨h', objs ++ [o']⟩, .none, ?_, P.1, ?_⟩
      · simp only [step, hi]
        rw [show newInline K h = ((newInline K h).1, h.next) from rfl]
        dsimp only
        rw [e1]; rfl
      · refine ⟨?_, ?_, rfl⟩
        · intro x hx
          rw [hget, hi] at hx
          cases hx
          rw [P.2, e4, contents_agree hag]
        · intro hx; rw [hget, hi] at hx; cases hx
  | moveNew i =>
    left
    cases hi : objs[i]? with
    | none =>
      refine ⟨⟨h, objs⟩, .none, by simp only [step, hi], I, ?_⟩
      refine ⟨?_, fun _ => rfl, rfl⟩
      intro x hx
      rw [hget, hi] at hx; cases hx
    | some r =>
      obtain ⟨i1, i2, i3, i4, i5, i6⟩ := inline_spec (K := K) (h := h) I.fresh
      have hR := I.obj i r hi
      have hlt := hR.lt I.fresh
      simp only at hlt
      have hag : AgreeO h (newInline K h).1 r :=
        ⟨i5 _ (Nat.ne_of_lt hlt.1), fun b hb => i5 _ (Nat.ne_of_lt (hlt.2 b hb))⟩
      obtain ⟨h', o', e1, e2, e3, e4, e5, e6, e7⟩ :=
        moveInto_spec (h := (newInline K h).1) (sb := h.next) i6 (hR.agree hag) (Ne.symm (Nat.ne_of_lt hlt.1)) i3 i4
      -- the source after the move
      have hS : Inv K ⟨h, objs.set i (if K.dyn then ⟨r.sb, none, 0, 0⟩ else r)⟩ ∧
          abs ⟨h, objs.set i (if K.dyn then ⟨r.sb, none, 0, 0⟩ else r)⟩ =
            if K.dyn then (abs ⟨h, objs⟩).set i [] else abs ⟨h, objs⟩ := by
        cases hd : K.dyn with
        | true => exact I.drop hi
        | false =>
          have hset : objs.set i r = objs := by
            apply List.ext_getElem?
            intro j
            rw [List.getElem?_set]
            by_cases hij : i = j
            · subst hij; rw [if_pos rfl, if_pos (lt_of_get hi), hi]
            · rw [if_neg hij]
          simp only [Bool.false_eq_true, if_false]
          rw [hset]
          exact ⟨I, rfl⟩
      obtain ⟨I2, A2⟩ := hS
      have key : ∀ (j : Nat) t, (objs.set i (if K.dyn then (⟨r.sb, none, 0, 0⟩ : Flex) else r))[j]? = some t →
          (j = i ∧ t = if K.dyn then ⟨r.sb, none, 0, 0⟩ else r) ∨ (j ≠ i ∧ objs[j]? = some t) := by
        intro j t hj
        rw [List.getElem?_set] at hj
        by_cases hij : i = j
        · subst hij
          rw [if_pos rfl, if_pos (lt_of_get hi)] at hj
          exact Or.inl ⟨rfl, (Option.some.inj hj).symm⟩
        · rw [if_neg hij] at hj; exact Or.inr ⟨fun e => hij e.symm, hj⟩
      have P := I2.push (h' := h') (o' := o') e5 e3
        (fun j t ht => by
          have := (I2.obj j t ht).lt I.fresh
          simp only at this
          rw [e2]; omega)
        (fun j t ht => by
          have := (I2.obj j t ht).lt I.fresh
          simp only at this
          refine ⟨(i5 _ (by omega)).trans (e6 _ (by omega)), fun b hb => ?_⟩
          have := this.2 b hb
          exact (i5 _ (by omega)).trans (e6 _ (by omega)))
        (fun j t b ht hb hb' => by
          rw [e7] at hb
          rcases key j t ht with ⟨_, h2⟩ | ⟨hji, h2⟩
          · have hd := (hR.hd b hb).1
            rw [hd] at h2
            rw [h2] at hb'
            cases hb'
          · exact I.ddist _ _ _ _ b hi h2 hji.symm hb hb')
      refine ⟨⟨h', objs.set i (if K.dyn then ⟨r.sb, none, 0, 0⟩ else r) ++ [o']⟩, .none, ?_, P.1, ?_⟩
      · simp only [step, hi]
        rw [show newInline K h = ((newInline K h).1, h.next) from rfl]
        dsimp only
        rw [e1]; rfl
      · refine ⟨?_, ?_, rfl⟩
        · intro x hx
          rw [hget, hi] at hx
          cases hx
          rw [P.2, e4, contents_agree hag, A2]
        · intro hx; rw [hget, hi] at hx; cases hx
  | copyAssign i j =>
    left
    cases hi : objs[i]? with
    | none =>
      refine ⟨⟨h, objs⟩, .none, by simp only [step, hi], I, ?_⟩
      refine ⟨?_, fun _ => rfl, rfl⟩
      intro x _ hx
      have : objs.length ≤ i := List.getElem?_eq_none_iff.1 hi
      rw [List.set_eq_of_length_le (by rw [abs_length]; exact this)]
    | some o =>
      cases hj : objs[j]? with
      | none =>
        refine ⟨⟨h, objs⟩, .none, by simp only [step, hi, hj], I, ?_⟩
        refine ⟨?_, fun _ => rfl, rfl⟩
        intro x _ hx
        rw [hget, hj] at hx; cases hx
      | some r =>
        by_cases hij : i = j
        · subst hij
          refine ⟨⟨h, objs⟩, .none, by simp only [step, hi, if_true], I, ?_⟩
          refine ⟨?_, fun _ => rfl, rfl⟩
          intro x _ hx
          symm
          apply List.ext_getElem?
          intro k
          rw [List.getElem?_set]
          by_cases hik : i = k
          · subst hik; rw [if_pos rfl, if_pos (by rw [abs_length]; exact lt_of_get hi), hx]
          · rw [if_neg hik]
        · obtain ⟨h1, c1, c2, c3, c4, c5, c6⟩ := clear_spec I hi
          have hjr : (objs.set i ⟨o.sb, none, 0, 0⟩)[j]? = some r := by
            rw [List.getElem?_set, if_neg hij]; exact hj
          have hiz : (objs.set i ⟨o.sb, none, 0, 0⟩)[i]? = some ⟨o.sb, none, 0, 0⟩ := by
            rw [List.getElem?_set, if_pos rfl, if_pos (lt_of_get hi)]
          have hR := c5.obj j r hjr
          have hO := c5.obj i _ hiz
          obtain ⟨h', o', e1, e2, e3, e4, e5, e6, e7⟩ :=
            copyInto_spec (h := h1) (sb := o.sb) c5.fresh hR (I.sdist _ _ _ _ hi hj hij) hO.hs hO.ns
          have P := c5.upd (h' := h') (o' := o') hiz e5 e2 e3
            (fun k t ht hk => by
              have hl := (c5.obj k t ht).lt c5.fresh
              have hs := c5.sdist _ _ _ _ ht hiz hk
              simp only at hl hs
              refine ⟨e6 _ hs hl.1, fun b hb => e6 _ ?_ (hl.2 b hb)⟩
              intro e
              have h1 := ((c5.obj k t ht).hd b hb).2.2.1
              have h2 := hO.ns
              simp only at h1 h2
              rw [e, h2] at h1; cases h1)
            (fun k t b ht hk hb hb' => by
              have h1 := ((c5.obj k t ht).lt c5.fresh).2 b hb'
              have h2 := e7 b hb
              simp only at h1
              omega)
          refine ⟨⟨h', objs.set i o'⟩, .none, ?_, ?_, ?_⟩
          · simp only [step, hi, hj, if_neg hij, c1, ok_bind]
            rw [e1]; rfl
          · have := P.1
            rw [List.set_set] at this; exact this
          · refine ⟨?_, ?_, rfl⟩
            · intro x _ hx
              rw [hget, hj] at hx
              cases hx
              have := P.2
              rw [List.set_set, c6, List.set_set, e4] at this
              rw [this]
              congr 1
              apply contents_agree
              refine ⟨c4 _ ?_, fun b hb => c4 _ ?_⟩
              · intro e
                have h1 := ((I.obj i o hi).hd _ e).2.2.1
                have h2 := (I.obj j r hj).ns
                rw [h2] at h1; cases h1
              · intro e
                exact I.ddist _ _ _ _ b hi hj hij e hb
            · intro hx
              rw [abs_length] at hx
              have := lt_of_get hj
              simp only at hx
              omega
  | moveAssign i j =>
    left
    cases hi : objs[i]? with
    | none =>
      refine ⟨⟨h, objs⟩, .none, by simp only [step, hi], I, ?_⟩
      refine ⟨?_, fun _ => rfl, rfl⟩
      intro x hlt hx _
      have : objs.length ≤ i := List.getElem?_eq_none_iff.1 hi
      rw [abs_length] at hlt
      simp only at hlt
      omega
    | some o =>
      cases hj : objs[j]? with
      | none =>
        refine ⟨⟨h, objs⟩, .none, by simp only [step, hi, hj], I, ?_⟩
        refine ⟨?_, fun _ => rfl, rfl⟩
        intro x _ hx _
        rw [hget, hj] at hx; cases hx
      | some r =>
        by_cases hij : i = j
        · subst hij
          refine ⟨⟨h, objs⟩, .none, by simp only [step, hi, if_true], I, ?_⟩
          exact ⟨fun x _ _ h => absurd rfl h, fun _ => rfl, rfl⟩
        · obtain ⟨h1, c1, c2, c3, c4, c5, c6⟩ := clear_spec I hi
          obtain ⟨z, hz⟩ : ∃ z : Flex, z = ⟨o.sb, none, 0, 0⟩ := ⟨_, rfl⟩
          obtain ⟨r', hr'⟩ : ∃ r' : Flex, r' = if K.dyn then ⟨r.sb, none, 0, 0⟩ else r := ⟨_, rfl⟩
          rw [← hz] at c1 c5 c6
          have hjr : (objs.set i z)[j]? = some r := by
            rw [List.getElem?_set, if_neg hij]; exact hj
          have hiz : (objs.set i z)[i]? = some z := by
            rw [List.getElem?_set, if_pos rfl, if_pos (lt_of_get hi)]
          have hR := c5.obj j r hjr
          have hO := c5.obj i _ hiz
          have hzs : z.sb = o.sb := by rw [hz]
          have hsd := I.sdist _ _ _ _ hi hj hij
          obtain ⟨h', o', e1, e2, e3, e4, e5, e6, e7⟩ :=
            moveInto_spec (h := h1) (sb := z.sb) c5.fresh hR (by rw [hzs]; exact hsd) hO.hs hO.ns
          rw [← hr'] at e1
          -- the source after the move
          have hS : Inv K ⟨h1, (objs.set i z).set j r'⟩ ∧
              abs ⟨h1, (objs.set i z).set j r'⟩ =
                if K.dyn then (abs ⟨h1, objs.set i z⟩).set j [] else abs ⟨h1, objs.set i z⟩ := by
            rw [hr']
            cases hd : K.dyn with
            | true => exact c5.drop hjr
            | false =>
              have hset : (objs.set i z).set j r = objs.set i z := by
                apply List.ext_getElem?
                intro k
                rw [List.getElem?_set]
                by_cases hjk : j = k
                · subst hjk; rw [if_pos rfl, if_pos (lt_of_get hjr), hjr]
                · rw [if_neg hjk]
              simp only [Bool.false_eq_true, if_false]
              rw [hset]
              exact ⟨c5, rfl⟩
          obtain ⟨I2, A2⟩ := hS
          have key : ∀ (k : Nat) t, ((objs.set i z).set j r')[k]? = some t →
              (k = j ∧ t = r') ∨ (k ≠ j ∧ (objs.set i z)[k]? = some t) := by
            intro k t hk
            rw [List.getElem?_set] at hk
            by_cases hjk : j = k
            · subst hjk
              rw [if_pos rfl, if_pos (lt_of_get hjr)] at hk
              exact Or.inl ⟨rfl, (Option.some.inj hk).symm⟩
            · rw [if_neg hjk] at hk; exact Or.inr ⟨fun e => hjk e.symm, hk⟩
          have hiz2 : ((objs.set i z).set j r')[i]? = some z := by
            rw [List.getElem?_set, if_neg (Ne.symm hij)]; exact hiz
          have P := I2.upd (h' := h') (o' := o') hiz2 e5 e2 e3
            (fun k t ht hk => by
              have hl := (I2.obj k t ht).lt I2.fresh
              have hs := I2.sdist _ _ _ _ ht hiz2 hk
              simp only at hl hs
              refine ⟨e6 _ hs, fun b hb => e6 _ ?_⟩
              intro e
              have h1 := ((I2.obj k t ht).hd b hb).2.2.1
              have h2 := hO.ns
              simp only at h1 h2
              rw [e, h2] at h1; cases h1)
            (fun k t b ht hk hb hb' => by
              rw [e7] at hb
              rcases key k t ht with ⟨_, h2⟩ | ⟨hkj, h2⟩
              · have hd := (hR.hd b hb).1
                rw [hr', hd] at h2
                rw [h2] at hb'
                cases hb'
              · exact c5.ddist _ _ _ _ b hjr h2 hkj.symm hb hb')
          refine ⟨⟨h', (objs.set i o').set j r'⟩, .none, ?_, ?_, ?_⟩
          · simp only [step, hi, hj, if_neg hij, c1, ok_bind]
            rw [e1]; rfl
          · have := P.1
            rw [set_set_ne _ _ _ _ _ _ hij] at this; exact this
          · refine ⟨?_, ?_, rfl⟩
            · intro x _ hx _
              rw [hget, hj] at hx
              cases hx
              have hP := P.2
              rw [set_set_ne _ _ _ _ _ _ hij, A2, c6, e4] at hP
              rw [hP]
              have hce : contents h1 r = contents h r := by
                apply contents_agree
                refine ⟨c4 _ ?_, fun b hb => c4 _ ?_⟩
                · intro e
                  have h1 := ((I.obj i o hi).hd _ e).2.2.1
                  have h2 := (I.obj j r hj).ns
                  rw [h2] at h1; cases h1
                · intro e
                  exact I.ddist _ _ _ _ b hi hj hij e hb
              rw [hce]
              cases K.dyn with
              | true => exact set_set_ne _ _ _ _ _ _ hij
              | false =>
                simp only [Bool.false_eq_true, if_false]
                rw [List.set_set]
            · intro hx
              rw [abs_length] at hx
              have h1 := lt_of_get hj
              have h2 := lt_of_get hi
              simp only at hx
              omega
  | resize i n =>
    left
    cases hi : objs[i]? with
    | none =>
      refine ⟨⟨h, objs⟩, .none, by simp only [step, hi], I, ?_⟩
      refine ⟨?_, ?_, fun _ => ⟨rfl, rfl⟩⟩
      · intro x hx
        rw [hget, hi] at hx; cases hx
      · intro x hx
        rw [hget, hi] at hx; cases hx
    | some o =>
      obtain ⟨h', o', f, e1, e2, e3, e4, e5, e6, e7, e8, e9, e10⟩ := resize_spec I hi n
      refine ⟨⟨h', objs.set i o'⟩, .flag f, by simp only [step, hi, e1, ok_bind], e6, ?_⟩
      refine ⟨?_, ?_, ?_⟩
      · intro x hx hfit
        rw [hget, hi] at hx
        cases hx
        have hf := e2.2 ((fits_lim K n).1 hfit)
        refine ⟨by rw [hf], contents h' o', e7, by rw [contents_length, e4 hf], ?_⟩
        intro k hk hk2
        rw [contents_length] at hk2
        rw [contents_get _ _ _ (by rw [e4 hf]; exact hk), contents_get _ _ _ hk2, e8 k (Nat.lt_of_lt_of_le hk2 (I.obj i o hi).size_le)]
      · intro x hx hfit
        rw [hget, hi] at hx
        cases hx
        have hf : f = false := by
          cases hff : f with
          | false => rfl
          | true => exact absurd ((fits_lim K n).2 (e2.1 hff)) hfit
        refine ⟨by rw [hf], ?_⟩
        rw [e7, (e3 hf).1, (e3 hf).2]
        apply List.ext_getElem?
        intro k
        rw [List.getElem?_set]
        by_cases hik : i = k
        · subst hik; rw [if_pos rfl, if_pos (by rw [abs_length]; exact lt_of_get hi), hget, hi]; rfl
        · rw [if_neg hik]
      · intro hx; rw [hget, hi] at hx; cases hx
  | clear i =>
    left
    cases hi : objs[i]? with
    | none =>
      refine ⟨⟨h, objs⟩, .none, by simp only [step, hi], I, ?_, rfl⟩
      have : objs.length ≤ i := List.getElem?_eq_none_iff.1 hi
      rw [List.set_eq_of_length_le (by rw [abs_length]; exact this)]
    | some o =>
      obtain ⟨h1, c1, c2, c3, c4, c5, c6⟩ := clear_spec I hi
      exact ⟨⟨h1, objs.set i ⟨o.sb, none, 0, 0⟩⟩, .none, by simp only [step, hi, c1, ok_bind], c5, c6, rfl⟩
  | swap i j =>
    left
    cases hi : objs[i]? with
    | none =>
      refine ⟨⟨h, objs⟩, .none, by simp only [step, hi], I, ?_⟩
      refine ⟨?_, fun _ => rfl, rfl⟩
      intro x y hx
      rw [hget, hi] at hx; cases hx
    | some o =>
      cases hj : objs[j]? with
      | none =>
        refine ⟨⟨h, objs⟩, .none, by simp only [step, hi, hj], I, ?_⟩
        refine ⟨?_, fun _ => rfl, rfl⟩
        intro x y _ hx
        rw [hget, hj] at hx; cases hx
      | some r =>
        by_cases hij : i = j
        · subst hij
          refine ⟨⟨h, objs⟩, .none, by simp only [step, hi, if_true], I, ?_⟩
          refine ⟨?_, fun _ => rfl, rfl⟩
          intro x y hx hy
          rw [hx] at hy
          cases hy
          rw [List.set_set]
          symm
          apply List.ext_getElem?
          intro k
          rw [List.getElem?_set]
          by_cases hik : i = k
          · subst hik; rw [if_pos rfl, if_pos (by rw [abs_length]; exact lt_of_get hi), hx]
          · rw [if_neg hik]
        · obtain ⟨i1, i2, i3, i4, i5, i6⟩ := inline_spec (K := K) (h := h) I.fresh
          obtain ⟨ha, hha⟩ : ∃ ha, ha = (newInline K h).1 := ⟨_, rfl⟩
          rw [← hha] at i2 i3 i4 i5 i6
          have hO := I.obj i o hi
          have hR := I.obj j r hj
          have hlo := hO.lt I.fresh
          have hlr := hR.lt I.fresh
          simp only at hlo hlr
          have hsd := I.sdist _ _ _ _ hi hj hij
          have hall : ∀ (k : Nat) t, objs[k]? = some t → AgreeO h ha t := by
            intro k t ht
            have hl := (I.obj k t ht).lt I.fresh
            simp only at hl
            exact ⟨i5 _ (Nat.ne_of_lt hl.1), fun b hb => i5 _ (Nat.ne_of_lt (hl.2 b hb))⟩
          obtain ⟨J, AJ⟩ := I.mono (h' := ha) i6 hall
          have hOa := J.obj i o hi
          have hRa := J.obj j r hj
          simp only at hOa hRa
          -- copy 1
          obtain ⟨h1, hh1⟩ : ∃ h1, Heap.copy ha h.next o.sb K.N = .ok h1 :=
            ⟨_, copy_ok (by omega) i3 hOa.hs (Nat.le_refl _) (Nat.le_refl _)⟩
          obtain ⟨a1, a2, a3, a4, a5⟩ := copy_agree hh1
          obtain ⟨h2, hh2⟩ : ∃ h2, Heap.copy h1 o.sb r.sb K.N = .ok h2 :=
            ⟨_, copy_ok hsd (by rw [a1]; exact hOa.hs) (by rw [a1]; exact hRa.hs) (Nat.le_refl _) (Nat.le_refl _)⟩
          obtain ⟨b1, b2, b3, b4, b5⟩ := copy_agree hh2
          obtain ⟨h3, hh3⟩ : ∃ h3, Heap.copy h2 r.sb h.next K.N = .ok h3 :=
            ⟨_, copy_ok (by omega) (by rw [b1, a1]; exact hRa.hs) (by rw [b1, a1]; exact i3) (Nat.le_refl _)
              (Nat.le_refl _)⟩
          obtain ⟨c1, c2, c3, c4, c5⟩ := copy_agree hh3
          obtain ⟨zo, hzo⟩ : ∃ z : Flex, z = ⟨o.sb, none, 0, 0⟩ := ⟨_, rfl⟩
          obtain ⟨zr, hzr⟩ : ∃ z : Flex, z = ⟨r.sb, none, 0, 0⟩ := ⟨_, rfl⟩
          obtain ⟨J1, AJ1⟩ := J.drop hi
          rw [← hzo] at J1 AJ1
          have hj1 : (objs.set i zo)[j]? = some r := by
            rw [List.getElem?_set, if_neg hij]; exact hj
          obtain ⟨J2, AJ2⟩ := J1.drop hj1
          rw [← hzr] at J2 AJ2
          have hi2 : ((objs.set i zo).set j zr)[i]? = some zo := by
            rw [List.getElem?_set, if_neg (Ne.symm hij), List.getElem?_set, if_pos rfl, if_pos (lt_of_get hi)]
          have key : ∀ (k : Nat) t, ((objs.set i zo).set j zr)[k]? = some t →
              (k = j ∧ t = zr) ∨ (k = i ∧ t = zo) ∨ (k ≠ i ∧ k ≠ j ∧ objs[k]? = some t) := by
            intro k t hk
            rw [List.getElem?_set] at hk
            by_cases hjk : j = k
            · subst hjk
              rw [if_pos rfl, if_pos (lt_of_get hj1)] at hk
              exact Or.inl ⟨rfl, (Option.some.inj hk).symm⟩
            · rw [if_neg hjk, List.getElem?_set] at hk
              by_cases hik : i = k
              · subst hik
                rw [if_pos rfl, if_pos (lt_of_get hi)] at hk
                exact Or.inr (Or.inl ⟨rfl, (Option.some.inj hk).symm⟩)
              · rw [if_neg hik] at hk
                exact Or.inr (Or.inr ⟨fun e => hik e.symm, fun e => hjk e.symm, hk⟩)
          have hdyn_ne : ∀ {t : Flex} {b : Nat}, Obj K ha t → t.db = some b → b ≠ o.sb ∧ b ≠ r.sb := by
            intro t b ht hb
            have hd := (ht.hd b hb).2.2.1
            constructor
            · intro e; rw [e, hOa.ns] at hd; cases hd
            · intro e; rw [e, hRa.ns] at hd; cases hd
          have hagh2 : ∀ b, b ≠ h.next → b ≠ o.sb → Agree ha h2 b :=
            fun b hb1 hb2 => (a4 b hb1).trans (b4 b hb2)
          -- object i
          have hobi : Obj K h2 { r with sb := o.sb } := by
            refine ⟨by rw [b1, a1]; exact hOa.hs, by rw [b2, a2]; exact hOa.ns, hRa.hn, ?_⟩
            intro b hb
            obtain ⟨d1, d2, d3, d4⟩ := hRa.hd b hb
            exact ⟨d1, by rw [b1, a1]; exact d2, by rw [b2, a2]; exact d3, d4⟩
          have P1 := J2.upd (h' := h2) (o' := { r with sb := o.sb }) hi2 (by rw [b1, b3, a1, a3]; exact i6)
            (by rw [hzo]) hobi
            (fun k t ht hk => by
              have hT := J2.obj k t ht
              rcases key k t ht with ⟨_, h2⟩ | ⟨h1, _⟩ | ⟨k1, k2, k3⟩
              · rw [h2, hzr]
                exact ⟨hagh2 _ (by show r.sb ≠ _; omega) (by show r.sb ≠ _; exact Ne.symm hsd), fun b hb => nomatch hb⟩
              · exact absurd h1 hk
              · have hl := (I.obj k t k3).lt I.fresh
                simp only at hl
                refine ⟨hagh2 _ (by omega) (I.sdist _ _ _ _ k3 hi k1), fun b hb => hagh2 _ ?_ (hdyn_ne hT hb).1⟩
                have := hl.2 b hb
                omega)
            (fun k t b ht hk hb hb' => by
              rcases key k t ht with ⟨_, h2⟩ | ⟨h1, _⟩ | ⟨k1, k2, k3⟩
              · rw [h2, hzr] at hb'; cases hb'
              · exact absurd h1 hk
              · exact I.ddist _ _ _ _ b hj k3 k2.symm hb hb')
          obtain ⟨Q1, AQ1⟩ := P1
          have hj3 : (((objs.set i zo).set j zr).set i { r with sb := o.sb })[j]? = some zr := by
            rw [List.getElem?_set, if_neg hij, List.getElem?_set, if_pos rfl, if_pos (lt_of_get hj1)]
          have hobj : Obj K h3 { o with sb := r.sb } := by
            refine ⟨by rw [c1, b1, a1]; exact hRa.hs, by rw [c2, b2, a2]; exact hRa.ns, hOa.hn, ?_⟩
            intro b hb
            obtain ⟨d1, d2, d3, d4⟩ := hOa.hd b hb
            exact ⟨d1, by rw [c1, b1, a1]; exact d2, by rw [c2, b2, a2]; exact d3, d4⟩
          have key2 : ∀ (k : Nat) t, (((objs.set i zo).set j zr).set i { r with sb := o.sb })[k]? = some t → k ≠ j →
              (k = i ∧ t = { r with sb := o.sb }) ∨ (k ≠ i ∧ k ≠ j ∧ objs[k]? = some t) := by
            intro k t hk hkj
            rw [List.getElem?_set] at hk
            by_cases hik : i = k
            · subst hik
              rw [if_pos rfl, if_pos (lt_of_get hi2)] at hk
              exact Or.inl ⟨rfl, (Option.some.inj hk).symm⟩
            · rw [if_neg hik] at hk
              rcases key k t hk with ⟨h1, _⟩ | ⟨h1, _⟩ | h3
              · exact absurd h1 hkj
              · exact absurd h1.symm hik
              · exact Or.inr h3
          have P2 := Q1.upd (h' := h3) (o' := { o with sb := r.sb }) hj3 (by rw [c1, c3, b1, b3, a1, a3]; exact i6)
            (by rw [hzr]) hobj
            (fun k t ht hk => by
              have hT := Q1.obj k t ht
              rcases key2 k t ht hk with ⟨_, h2⟩ | ⟨k1, k2, k3⟩
              · rw [h2]
                exact ⟨c4 _ hsd, fun b hb => c4 _ (hdyn_ne hRa hb).2⟩
              · exact ⟨c4 _ (I.sdist _ _ _ _ k3 hj k2),
                  fun b hb => c4 _ (hdyn_ne (J.obj k t k3) hb).2⟩)
            (fun k t b ht hk hb hb' => by
              rcases key2 k t ht hk with ⟨_, h2⟩ | ⟨k1, k2, k3⟩
              · rw [h2] at hb'
                exact I.ddist _ _ _ _ b hi hj hij hb hb'
              · exact I.ddist _ _ _ _ b hi k3 k1.symm hb hb')
          obtain ⟨Q2, AQ2⟩ := P2
          have hlist : (((objs.set i zo).set j zr).set i { r with sb := o.sb }).set j { o with sb := r.sb } =
              (objs.set i { r with sb := o.sb }).set j { o with sb := r.sb } := by
            rw [set_set_ne _ _ _ _ _ _ hij, List.set_set]
          rw [hlist] at Q2 AQ2
          refine ⟨⟨h3, (objs.set i { r with sb := o.sb }).set j { o with sb := r.sb }⟩, .none, ?_, Q2, ?_⟩
          · simp only [step, hi, hj, if_neg hij]
            rw [show newInline K h = (ha, h.next) from by rw [hha]; rfl]
            dsimp only
            rw [hh1]
            simp only [ok_bind]
            rw [hh2]
            simp only [ok_bind]
            rw [hh3]
            rfl
          · refine ⟨?_, ?_, rfl⟩
            · intro x y hx hy
              rw [hget, hi] at hx
              rw [hget, hj] at hy
              cases hx
              cases hy
              rw [AQ2, AQ1, AJ2, AJ1, AJ, set_set_ne _ _ _ _ _ _ hij, List.set_set]
              have hcr : contents h2 { r with sb := o.sb } = contents h r := by
                refine contents_congr (o := r) (by rfl) ?_
                intro k hk
                cases hb : r.db with
                | none =>
                  have := (hR.hn hb).1
                  simp only [Flex.data, hb, Option.getD_none]
                  rw [b5, if_pos (by omega), (a4 _ (by omega)).2.2, (i5 _ (by omega)).2.2]
                | some p =>
                  simp only [Flex.data, hb, Option.getD_some]
                  have hp := hlr.2 p hb
                  rw [(hagh2 _ (by omega) (hdyn_ne hRa hb).1).2.2, (i5 _ (by omega)).2.2]
              have hco : contents h3 { o with sb := r.sb } = contents h o := by
                refine contents_congr (o := o) (by rfl) ?_
                intro k hk
                cases hb : o.db with
                | none =>
                  have := (hO.hn hb).1
                  simp only [Flex.data, hb, Option.getD_none]
                  rw [c5, if_pos (by omega), (b4 _ (by omega)).2.2, a5, if_pos (by omega), (i5 _ (by omega)).2.2]
                | some p =>
                  simp only [Flex.data, hb, Option.getD_some]
                  have hp := hlo.2 p hb
                  rw [(c4 _ (hdyn_ne hOa hb).2).2.2, (hagh2 _ (by omega) (hdyn_ne hOa hb).1).2.2,
                    (i5 _ (by omega)).2.2]
              rw [hcr, hco]
            · intro hx
              rw [abs_length] at hx
              have h1 := lt_of_get hj
              have h2 := lt_of_get hi
              simp only at hx
              omega
  | write i k v =>
    cases hi : objs[i]? with
    | none =>
      left
      refine ⟨⟨h, objs⟩, .none, by simp only [step, hi], I, ?_⟩
      refine ⟨?_, fun _ => rfl, rfl⟩
      intro x hx
      rw [hget, hi] at hx; cases hx
    | some o =>
      have hO := I.obj i o hi
      by_cases hk : k < o.size
      · left
        have hroom : h.room (o.data.add k) 1 = true := by
          unfold Heap.room Flex.data Ptr.add
          cases hb : o.db with
          | none =>
            have := hO.hs
            simp only at this
            simp only [Option.getD_none, this]
            have := (hO.hn hb).1
            simp; omega
          | some b =>
            have := hO.hd b hb
            simp only at this
            simp only [Option.getD_some, this.2.1]
            simp; omega
        have hne : ∀ b, b ≠ o.data.b → Agree h (h.put (o.data.add k) (some v)) b := by
          intro b hb
          refine ⟨rfl, rfl, fun c => ?_⟩
          show upd h.cell o.data.b _ b c = _
          rw [upd_ne _ _ _ _ hb]
        have hset : objs.set i o = objs := by
          apply List.ext_getElem?
          intro j
          rw [List.getElem?_set]
          by_cases hij : i = j
          · subst hij; rw [if_pos rfl, if_pos (lt_of_get hi), hi]
          · rw [if_neg hij]
        have P := I.upd (h' := h.put (o.data.add k) (some v)) (o' := o) hi I.fresh rfl
          ⟨hO.hs, hO.ns, hO.hn, hO.hd⟩
          (fun j r hr hji => by
            have hR := I.obj j r hr
            cases hb : o.db with
            | none =>
              have hd : o.data.b = o.sb := by simp [Flex.data, hb]
              rw [hd] at hne
              refine ⟨hne _ (I.sdist _ _ _ _ hr hi hji), fun c hc => hne _ ?_⟩
              intro e
              have h1 := (hR.hd c hc).2.2.1
              have h2 := hO.ns
              simp only at h1 h2
              rw [e, h2] at h1; cases h1
            | some b =>
              have hd : o.data.b = b := by simp [Flex.data, hb]
              rw [hd] at hne
              refine ⟨hne _ ?_, fun c hc => hne _ ?_⟩
              · intro e
                have h1 := (hO.hd b hb).2.2.1
                have h2 := hR.ns
                simp only at h1 h2
                rw [e, h1] at h2; cases h2
              · intro e
                exact I.ddist _ _ _ _ b hi hr hji.symm hb (by rw [hc, e]))
          (fun j r b hr hji hb => I.ddist _ _ _ _ b hi hr hji.symm hb)
        rw [hset] at P
        refine ⟨⟨h.put (o.data.add k) (some v), objs⟩, .none, ?_, P.1, ?_⟩
        · simp only [step, hi]
          rw [show check (decide (k < o.size)) = .ok () from by simp [check, hk]]
          simp only [ok_bind, Heap.write, hroom, if_true]
        · refine ⟨?_, ?_, rfl⟩
          · intro x hx
            rw [hget, hi] at hx
            cases hx
            refine ⟨by rw [contents_length]; exact hk, ?_⟩
            rw [P.2]
            congr 1
            apply List.ext_getElem?
            intro c
            rw [List.getElem?_set, contents_length]
            by_cases hc : c < o.size
            · rw [contents_get _ _ _ hc]
              by_cases hkc : k = c
              · subst hkc
                rw [if_pos rfl, if_pos hc]
                show some (upd h.cell o.data.b (upd (h.cell o.data.b) (0 + k) (some v)) o.data.b k) = _
                rw [upd_same, Nat.zero_add, upd_same]
              · rw [if_neg hkc, contents_get _ _ _ hc]
                show some (upd h.cell o.data.b (upd (h.cell o.data.b) (0 + k) (some v)) o.data.b c) = _
                rw [upd_same, Nat.zero_add, upd_ne _ _ _ _ (Ne.symm hkc)]
            · rw [List.getElem?_eq_none (by rw [contents_length]; omega), if_neg (by omega),
                List.getElem?_eq_none (by rw [contents_length]; omega)]
          · intro hx; rw [hget, hi] at hx; cases hx
      · right
        refine ⟨.abort, ?_, contents h o, by rw [hget, hi]; rfl, by rw [contents_length]; omega, rfl⟩
        simp only [step, hi]
        rw [show check (decide (k < o.size)) = .error .abort from by simp [check, hk]]
        rfl
  | read i k =>
    cases hi : objs[i]? with
    | none =>
      left
      refine ⟨⟨h, objs⟩, .none, by simp only [step, hi], I, rfl, ?_, fun _ => rfl⟩
      intro x hx
      rw [hget, hi] at hx; cases hx
    | some o =>
      have hO := I.obj i o hi
      by_cases hk : k < o.size
      · have hroom : h.room (o.data.add k) 1 = true := by
          unfold Heap.room Flex.data Ptr.add
          cases hb : o.db with
          | none =>
            have := hO.hs
            simp only at this
            simp only [Option.getD_none, this]
            have := (hO.hn hb).1
            simp; omega
          | some b =>
            have := hO.hd b hb
            simp only at this
            simp only [Option.getD_some, this.2.1]
            simp; omega
        have hcell : h.cell (o.data.add k).b (o.data.add k).off = h.cell o.data.b k := by
          show h.cell o.data.b (0 + k) = _
          rw [Nat.zero_add]
        have hchk : check (decide (k < o.size)) = .ok () := by simp [check, hk]
        cases hw : h.cell o.data.b k with
        | some w =>
          left
          refine ⟨⟨h, objs⟩, .word w, ?_, I, rfl, ?_, ?_⟩
          · simp only [step, hi, hchk, ok_bind, Heap.read, hroom, if_true, hcell, hw]
          · intro x hx
            rw [hget, hi] at hx
            cases hx
            exact ⟨w, by rw [contents_get _ _ _ hk, hw], rfl⟩
          · intro hx; rw [hget, hi] at hx; cases hx
        | none =>
          right
          refine ⟨.ub, ?_, contents h o, by rw [hget, hi]; rfl, Or.inr ⟨by rw [contents_get _ _ _ hk, hw], rfl⟩⟩
          simp only [step, hi, hchk, ok_bind, Heap.read, hroom, if_true, hcell, hw, error_bind]
      · right
        refine ⟨.abort, ?_, contents h o, by rw [hget, hi]; rfl, Or.inl ⟨by rw [contents_length]; omega, rfl⟩⟩
        simp only [step, hi]
        rw [show check (decide (k < o.size)) = .error .abort from by simp [check, hk]]
        rfl

theorem init_inv (K : Kind) : Inv K State.init :=
  ⟨fun _ _ h => (nomatch h), fun _ _ => rfl, fun _ _ _ _ h => (nomatch h), fun _ _ _ _ _ h => (nomatch h)⟩

/-- Histories from any state that satisfies the invariant. -/
theorem run_spec {K : Kind} (ops : List Op) : ∀ {s : State}, Inv K s →
    (∃ s' outs, run K s ops = .ok (s', outs) ∧ Inv K s' ∧ Runs K.lim K.dyn (abs s) ops (abs s') outs) ∨
    (∃ e, run K s ops = .error e ∧ Fails K.lim K.dyn (abs s) ops e) := by
  induction ops with
  | nil => intro s I; exact Or.inl ⟨s, [], rfl, I, Runs.nil _⟩
  | cons op ops ih =>
    intro s I
    rcases step_spec I op with ⟨s1, out, e1, I1, g1⟩ | ⟨e, e1, b1⟩
    · rcases ih I1 with ⟨s2, outs, e2, I2, g2⟩ | ⟨e, e2, b2⟩
      · exact Or.inl ⟨s2, out :: outs, by simp only [run, e1, ok_bind, e2], I2, Runs.cons g1 g2⟩
      · exact Or.inr ⟨e, by simp only [run, e1, ok_bind, e2, error_bind], Fails.later g1 b2⟩
    · exact Or.inr ⟨e, by simp only [run, e1, error_bind], Fails.here b1⟩

end Ack.Mem
