import Verif.Proof.EcSim
/-! # Non-adjacent forms and integers made of bytes on memory give exactly the values of `Model/Bigint.lean` -/
namespace Ack.Mem
open Big (Byte)

section
variable {K : Kind} {s : BigSt} {n : Nat} {X : Big}

theorem divMods1Rem_exact (h : Rep s n X) (y : BitVec 32) : s.divMods1Rem n y = Big.divMods1Rem X y := by
  obtain ⟨o, H, _⟩ := h
  unfold BigSt.divMods1Rem Big.divMods1Rem
  rw [H.elem, ok_bind, H.size, readN_spec _ _ H.has, ok_bind, H.neg]

/-- `x % y` in a new object. -/
theorem modsNew_exact (I : Inv K s.mem) (hf : Cap.fits K.lim 1 = true) (h : Rep s n X) (y : BitVec 32) :
    match Big.mods1 X y with
    | .ok R => ∃ s', s.modsNew K n y = .ok s' ∧ New K s s' R
    | .error e => s.modsNew K n y = .error e := by
  unfold BigSt.modsNew Big.mods1
  obtain ⟨s1, e1, N1⟩ := create_new I hf 0
  dsimp only
  rw [e1, ok_bind, divMods1Rem_exact (N1.frame _ _ h), (N1.frame _ _ h).neg_eq]
  cases Big.divMods1Rem X y with
  | error e => rfl
  | ok r =>
    simp only [ok_bind]
    obtain ⟨o, H, _⟩ := N1.res
    obtain ⟨s2, e2, P2⟩ := assignWord_new N1.inv H.obj hf (cabs32 r)
    rw [e2, ok_bind]
    exact ⟨_, rfl, ((N1.post P2).setNeg _).setNeg _⟩

/-- The digit: nothing is left behind. -/
theorem nafDigit_exact (I : Inv K s.mem) (hf : Cap.fits K.lim 1 = true) (h : Rep s n X) :
    match (Big.mods1 X 4 >>= fun m => match Big.getInt32 m with | none => .error .ub | some nd => .ok nd) with
    | .ok nd => ∃ s', s.nafDigit K n = .ok (s', nd) ∧ Inv K s'.mem ∧ (∀ i Y, Rep s i Y → Rep s' i Y) ∧ s'.mem.objs.length = s.mem.objs.length
    | .error e => s.nafDigit K n = .error e := by
  have hm := modsNew_exact I hf h 4
  unfold BigSt.nafDigit
  dsimp only
  revert hm
  cases Big.mods1 X 4 with
  | error e => intro hm; rw [hm]; rfl
  | ok R =>
    rintro ⟨s1, e1, N1⟩
    rw [e1, ok_bind, ok_bind, getInt32_mem N1.res, ok_bind]
    cases Big.getInt32 R with
    | none => rfl
    | some nd =>
      refine ⟨_, rfl, drop_inv N1.inv _, fun i Y hY => drop_rep N1.inv (N1.frame i Y hY) hY.lt, drop_len ?_⟩
      rw [N1.len]; omega

theorem shr_same {A B : Big} (h : Same A B) : Same (Big.shr A 1) (Big.shr B 1) := by
  obtain ⟨h1, h2⟩ := h
  obtain ⟨a, x⟩ := A
  obtain ⟨b, y⟩ := B
  simp only at h1 h2
  subst h1
  rcases h2 with rfl | rfl
  · exact ⟨rfl, Or.inl rfl⟩
  · have : ∀ a b, Big.shr ⟨a, [0]⟩ 1 = Big.shr ⟨b, [0]⟩ 1 := by decide
    rw [this a b]
    exact ⟨rfl, Or.inl rfl⟩

theorem nafGo_exact (hf : Cap.fits K.lim 1 = true) : ∀ (f : Nat) (s : BigSt) (X Y : Big), Inv K s.mem → Rep s n Y → Same Y X →
    match Big.nafGo K.lim f X with
    | .ok l => ∃ s', s.nafGo K n f = .ok (l, s') ∧ Inv K s'.mem ∧ (∀ i Z, i ≠ n → Rep s i Z → Rep s' i Z) ∧
        s'.mem.objs.length = s.mem.objs.length
    | .error e => s.nafGo K n f = .error e
  | 0, _, _, _, _, _, _ => rfl
  | f + 1, s, X, Y, I, h, hs => by
    have hXY : Y = X ∨ (Y.ws = [0] ∧ X.ws = [0]) := by
      obtain ⟨h1, h2⟩ := hs
      rcases h2 with h2 | h2
      · left; cases X; cases Y; simp only at h1 h2; rw [h1, h2]
      · right; exact ⟨h2, h1 ▸ h2⟩
    rw [Big.nafGo, BigSt.nafGo, gtU_mem h, ok_bind]
    rcases hXY with rfl | ⟨hY, hX⟩
    · by_cases hg : Big.compareu1 Y 0 > 0
      · simp only [hg, decide_true, if_true, isOdd_mem h, ok_bind]
        cases Y.isOdd with
        | false =>
          simp only [Bool.false_eq_true, if_false]
          obtain ⟨s1, e1, P1⟩ := shr_spec I h h 1
          have ih := nafGo_exact hf f s1 (Big.shr Y 1) (Big.shr Y 1) P1.inv P1.res ⟨rfl, Or.inl rfl⟩
          rw [e1, ok_bind]
          revert ih
          cases Big.nafGo K.lim f (Big.shr Y 1) with
          | error e => intro ih; rw [ih]; rfl
          | ok l =>
            rintro ⟨s', e2, I2, k2, l2⟩
            rw [e2]
            exact ⟨s', rfl, I2, fun i Z hi hZ => k2 i Z hi (P1.frame i Z hi hZ), by rw [l2, P1.len]⟩
        | true =>
          simp only [if_true]
          have hd := nafDigit_exact I hf h
          revert hd
          cases Big.mods1 Y 4 with
          | error e => intro hd; rw [show s.nafDigit K n = .error e from hd]; rfl
          | ok m =>
            simp only [ok_bind]
            cases Big.getInt32 m with
            | none => intro hd; rw [show s.nafDigit K n = .error .ub from hd]; rfl
            | some nd0 =>
              rintro ⟨s1, e1, I1, k1, l1⟩
              rw [e1, ok_bind]
              dsimp only
              have h1 := k1 _ _ h
              obtain ⟨s2, R2, e2, P2, S2⟩ := addu1Go_spec I1 h1 h1 (cabs32 (2 - nd0)) (!decide ((2 - nd0 : BitVec 32).toInt < 0))
              rw [e2, ok_bind]
              obtain ⟨s3, e3, P3⟩ := shr_spec P2.inv P2.res P2.res 1
              rw [e3, ok_bind]
              have hsame : Same (Big.shr R2 1) (Big.shr (Big.subs1 K.lim Y (2 - nd0)) 1) := shr_same S2
              have ih := nafGo_exact hf f s3 (Big.shr (Big.subs1 K.lim Y (2 - nd0)) 1) (Big.shr R2 1) P3.inv P3.res hsame
              revert ih
              cases Big.nafGo K.lim f (Big.shr (Big.subs1 K.lim Y (2 - nd0)) 1) with
              | error e => intro ih; rw [ih]; rfl
              | ok l =>
                rintro ⟨s', e4, I4, k4, l4⟩
                rw [e4]
                exact ⟨s', rfl, I4, fun i Z hi hZ => k4 i Z hi (P3.frame i Z hi (P2.frame i Z hi (k1 i Z hZ))), by
                  rw [l4, P3.len, P2.len, l1]⟩
      · simp only [hg, decide_false, Bool.false_eq_true, if_false]
        exact ⟨s, rfl, I, fun _ _ _ h => h, rfl⟩
    · have h0 : ∀ Z : Big, Z.ws = [0] → ¬ Big.compareu1 Z 0 > 0 := by
        intro Z hZ
        unfold Big.compareu1
        rw [hZ]
        cases Z.neg <;> simp
      simp only [h0 Y hY, h0 X hX, decide_false, Bool.false_eq_true, if_false]
      exact ⟨s, rfl, I, fun _ _ _ h => h, rfl⟩

/-- `to_rnaf` leaves nothing behind. -/
theorem toRnaf_exact {D : Nat → Prop} (C : Ctx K D s) (hf : Cap.fits K.lim 1 = true) (h : Rep s n X) :
    Sim K (fun _ a b => a = b) s (toRnaf K n) (Big.toRnaf K.lim X) := by
  unfold Sim toRnaf Big.toRnaf Big.toNaf BigSt.toNaf
  rw [bitLength_eq h, ok_bind]
  obtain ⟨s1, e1, N1⟩ := copyNew_new C.inv h
  dsimp only
  rw [e1, ok_bind]
  have hn := nafGo_exact (n := s.mem.objs.length) hf (X.bitLength + 2) s1 X X N1.inv N1.res ⟨rfl, Or.inl rfl⟩
  revert hn
  cases Big.nafGo K.lim (X.bitLength + 2) X with
  | error e => intro hn; rw [hn]; rfl
  | ok l =>
    rintro ⟨s2, e2, I2, k2, l2⟩
    rw [e2]
    have hl : s.mem.objs.length ≤ s2.mem.objs.length := by rw [l2, N1.len]; omega
    exact ⟨_, _, rfl, ⟨drop_inv I2 _, fun i Y hY => drop_rep I2 (k2 i Y (Nat.ne_of_lt hY.lt) (N1.frame i Y hY)) hY.lt,
      Nat.le_of_eq (drop_len hl).symm⟩, rfl⟩

/-! ### Bytes -/

theorem store_next {s1 : BigSt} {o : Flex} {z m : Nat} (ho : s1.mem.objs[z]? = some o) (hs : m ≤ o.size)
    (hr : s1.mem.heap.room o.data m = true) (pre : List Word) (w : Word) (hl : pre.length < m) :
    (s1.withHeap (s1.mem.heap.store o.data pre)).store z pre.length w = .ok (s1.withHeap (s1.mem.heap.store o.data (pre ++ [w]))) := by
  unfold BigSt.store
  rw [elem_ok (s := s1.withHeap (s1.mem.heap.store o.data pre)) (i := z) ho (by omega), ok_bind]
  show ((s1.mem.heap.store o.data pre).write (o.data.add pre.length) w >>= _) = _
  rw [write_ok (n := 1) (by rw [room_len (store_len _ _ _)]; exact room_add hr (by omega)) (by omega), ok_bind, store_one, store_append]
  rfl

theorem storeWords_exact {s1 : BigSt} {o : Flex} {z m : Nat} (ho : s1.mem.objs[z]? = some o) (hs : m ≤ o.size)
    (hr : s1.mem.heap.room o.data m = true) : ∀ (ws pre : List Word), pre.length + ws.length ≤ m →
    BigSt.storeWords z pre.length ws (s1.withHeap (s1.mem.heap.store o.data pre)) = .ok (s1.withHeap (s1.mem.heap.store o.data (pre ++ ws)))
  | [], pre, _ => by rw [BigSt.storeWords, List.append_nil]
  | w :: ws, pre, hl => by
    rw [List.length_cons] at hl
    rw [BigSt.storeWords, store_next ho hs hr pre w (by omega), ok_bind]
    have := storeWords_exact ho hs hr ws (pre ++ [w]) (by rw [List.length_append, List.length_singleton]; omega)
    rwa [List.length_append, List.length_singleton, List.append_assoc] at this

theorem memWords_length : ∀ (l : List Byte), (Big.memWords l).length = l.length / 4
  | [] => rfl
  | [_] => by simp [Big.memWords]
  | [_, _] => by simp [Big.memWords]
  | [_, _, _] => by simp [Big.memWords]
  | b0 :: b1 :: b2 :: b3 :: t => by
    rw [Big.memWords, List.length_cons, memWords_length t]
    simp only [List.length_cons]; omega

/-- `bigint z(data)` in a new object, or the end of the program. -/
theorem ofBytes_exact (I : Inv K s.mem) (hf : Cap.fits K.lim 1 = true) (d : List Byte) :
    match Big.ofBytes K.lim d with
    | .ok R => ∃ s', s.ofBytes K d = .ok s' ∧ New K s s' R
    | .error e => s.ofBytes K d = .error e := by
  rcases step_spec I .create with ⟨m, out, e1, I', g⟩ | ⟨_, _, b⟩
  · have ha : Mem.abs m = Mem.abs s.mem ++ [[]] := g.1
    have hlen : m.objs.length = s.mem.objs.length + 1 := by
      rw [← abs_length, ha, List.length_append, abs_length]; rfl
    obtain ⟨o, ho⟩ : ∃ o, m.objs[s.mem.objs.length]? = some o := ⟨_, List.getElem?_eq_getElem (by omega)⟩
    obtain ⟨s0, hs0⟩ : ∃ s0 : BigSt, s0 = (BigSt.setSize { s with mem := m } s.mem.objs.length 0).setNeg s.mem.objs.length false := ⟨_, rfl⟩
    have hm : s0.mem = m := by rw [hs0]; rfl
    have I0 : Inv K s0.mem := by rw [hm]; exact I'
    have fr : ∀ i Y, Rep s i Y → Rep s0 i Y := by
      intro i Y hY
      have hi := Nat.ne_of_lt hY.lt
      rw [hs0]
      refine rep_of I I' hY (upd_ne _ _ _ _ hi) (upd_ne _ _ _ _ hi) ?_
      show (Mem.abs m)[i]? = _
      rw [ha, List.getElem?_append_left (by rw [abs_length]; exact hY.lt)]
    have hz : s0.mem.objs[s.mem.objs.length]? = some o := by rw [hm]; exact ho
    have hneg : s0.neg s.mem.objs.length = false := by rw [hs0]; exact upd_same _ _ _
    have fin : ∀ s' R, Post K s0 s' s.mem.objs.length R → New K s s' R := fun s' R P =>
      ⟨P.inv, P.res, fun i Y hY => P.frame i Y (Nat.ne_of_lt hY.lt) (fr i Y hY), by rw [P.len, hm, hlen]⟩
    unfold BigSt.ofBytes Big.ofBytes Big.setBytes
    dsimp only
    rw [e1, ok_bind]
    dsimp only
    rw [← hs0]
    by_cases h0 : d.length = 0
    · rw [if_pos h0, if_pos h0]
      obtain ⟨s1, e2, P⟩ := assignWord_new I0 hz hf 0
      refine ⟨_, by unfold BigSt.clear; rw [e2, ok_bind], fin _ _ (P.setNeg false)⟩
    · rw [if_neg h0, if_neg h0]
      rcases big_resize I0 hz (Big.wordSize d.length) with ⟨h1, h2⟩ | ⟨h1, s1, o1, h2, R⟩
      · rw [h2, ok_bind, h1]; rfl
      · rw [h2, ok_bind, h1]
        simp only [if_true]
        have hml : ((Big.memWords (d.drop (d.length % 4))).reverse.map bswapWord).length = d.length / 4 := by
          rw [List.length_map, List.length_reverse, memWords_length, List.length_drop]; omega
        have hws : d.length / 4 ≤ Big.wordSize d.length := by unfold Big.wordSize; omega
        have est := storeWords_exact R.obj (Nat.le_of_eq R.osize.symm) R.room
          ((Big.memWords (d.drop (d.length % 4))).reverse.map bswapWord) [] (by rw [hml]; simpa using hws)
        rw [store_nil, List.nil_append, List.length_nil] at est
        rw [show BigSt.storeWords s.mem.objs.length 0 _ s1 = _ from est, ok_bind]
        have hpos : 0 < Big.wordSize d.length := by unfold Big.wordSize; omega
        have hs1 : s1.neg s.mem.objs.length = false := by rw [R.sneg]; exact hneg
        have done : ∀ ws : List Word, ws.length = Big.wordSize d.length →
            ∃ s', (s1.withHeap (s1.mem.heap.store o1.data ws)).trim s.mem.objs.length (Big.wordSize d.length) = .ok s' ∧
              New K s s' (Big.trim false ws) := by
          intro ws hw
          obtain ⟨e3, P⟩ := R.finish ws hw hpos
          rw [hs1] at e3 P
          have hneg' : (Big.trim false ws).neg = false := by unfold Big.trim; dsimp only; split <;> rfl
          have := P (Big.trim false ws).neg
          exact ⟨_, e3, fin _ _ this⟩
        by_cases hl : d.length % 4 = 0
        · simp only [hl, ne_eq, not_true_eq_false, if_false]
          rw [hl] at hml
          exact done _ (by rw [hml]; unfold Big.wordSize; omega)
        · simp only [hl, ne_eq, not_false_eq_true, if_true]
          have e4 := store_next R.obj (Nat.le_of_eq R.osize.symm) R.room ((Big.memWords (d.drop (d.length % 4))).reverse.map bswapWord)
            (Big.leadWord (d.take (d.length % 4)) 0) (by rw [hml]; unfold Big.wordSize; omega)
          rw [hml] at e4
          rw [e4, ok_bind]
          exact done _ (by rw [List.length_append, hml, List.length_singleton]; unfold Big.wordSize; omega)
  · exact b.elim
end
end Ack.Mem
