import Verif.Proof.KeyPre
import Verif.Props.KeyProg
/-! # Programs on encodings and key recovery have no undefined behaviour, whatever the points and the bytes -/
namespace Ack.Props
open Ack.Mem Ack.Spec.Ec Ack.Spec.Prog Ack.Spec.Key
open Big (Byte)

variable {K : Kind} {d : DomBytes} {P N : ℕ} [Fact P.Prime] {A B : ZMod P} {G : (shortW A B).Point}

section
variable {C : Curve}

/-- What is read of a point depends on its value only. -/
theorem read_fixed {p : Big} {fuel : ℕ} (H : PC K p P N fuel C) (hC : CurveOk P K.lim C) {Q : PtV} {k : Kd} (hd : PtAny P C Q k) :
    ∃ c, Residues P c ∧ ∀ {s : BigSt} {q : PtR}, Ctx K D0 s → PtSim D0 D0 p s q Q → ∃ s', q.read K fuel s = .ok (c, s') ∧ Grow K s s' := by
  obtain ⟨A, eA, hA⟩ := hd.conv hC .aff (Or.inl rfl)
  cases A <;> first | exact False.elim hA | skip
  rename_i A
  have rd : ∀ {s : BigSt} {q : PtR}, Ctx K D0 s → PtSim D0 D0 p s q Q → ∃ s', q.read K fuel s =
      .ok (if A.isIdentity then none else some (A.x.v.toInt, A.y.v.toInt), s') ∧ Grow K s s' := by
    intro s q X h
    have hs := ptr_conv H X h .aff
    rw [eA] at hs
    obtain ⟨a, s', e, g, ha⟩ := hs
    cases a <;> first | exact False.elim ha | skip
    rename_i a
    refine ⟨s', ?_, g⟩
    unfold PtR.read
    rw [bind_run e]
    show (a.isIdentity >>= _) s' = _
    rw [bind_run (apt_isIdentity ha)]
    cases A.isIdentity with
    | true => rfl
    | false =>
      have v1 := value_of ha.x.v.rep
      have v2 := value_of ha.y.v.rep
      simp only [Bool.false_eq_true, if_false]
      rw [bind_run (Is.ask v1), bind_run (Is.ask v2)]
      rfl
  refine ⟨_, ?_, rd⟩
  cases hi : A.isIdentity with
  | true => exact fun _ _ h => by cases h
  | false =>
    obtain ⟨-, x, y, hx, hy⟩ := hA hi
    intro x' y' e'
    cases e'
    have l1 := hx.elt.lt
    have l2 := hy.elt.lt
    rw [hC.M.eq] at l1 l2
    exact ⟨⟨hx.elt.nn, l1⟩, ⟨hy.elt.nn, l2⟩⟩

theorem readPts_fixed {p : Big} {fuel : ℕ} (H : PC K p P N fuel C) (hC : CurveOk P K.lim C) {L : List PtV} {e : List Kd}
    (d : List.Forall₂ (PtAny P C) L e) : ∃ cs : List (Option (ℤ × ℤ)), cs.length = e.length ∧ (∀ c ∈ cs, Residues P c) ∧
    ∀ {s : BigSt} {l : List PtR}, Ctx K D0 s → List.Forall₂ (PtSim D0 D0 p s) l L → ∃ s', Grow K s s' ∧
      ∀ (m : List PtR) (r : List (Option (ℤ × ℤ))) (s2 : BigSt), readPts K fuel m s' = .ok (r, s2) → readPts K fuel (l ++ m) s = .ok (cs ++ r, s2) := by
  induction d with
  | nil =>
    refine ⟨[], rfl, by simp, fun {s l} X h => ?_⟩
    cases h
    exact ⟨s, Grow.refl X.inv, fun m r s2 h => h⟩
  | cons d1 _ ih =>
    obtain ⟨cs, l1, r1, k1⟩ := ih
    obtain ⟨c, r2, k2⟩ := read_fixed H hC d1
    refine ⟨c :: cs, by simp [l1], by simpa using ⟨r2, r1⟩, fun {s l} X h => ?_⟩
    cases h with
    | cons h1 h2 =>
      obtain ⟨s1, e1, g1⟩ := k2 X h1
      obtain ⟨s2, g2, e2⟩ := k1 (X.mono g1) (h2.imp fun _ _ r => r.mono g1)
      refine ⟨s2, g1.trans g2, fun m r s3 h => ?_⟩
      rw [List.cons_append]
      unfold readPts
      rw [bind_run e1, bind_run (e2 m r s3 h)]
      rfl

theorem kExec_then {fuel : ℕ} (c : CurveR) (us : List KStmt) {v' : KVars} {s' : BigSt} :
    ∀ (ts : List KStmt) {v : KVars} {s : BigSt}, kExec K fuel c ts v s = .ok (v', s') → kExec K fuel c (ts ++ us) v s = kExec K fuel c us v' s'
  | [], v, s, h => by cases h; rfl
  | t' :: ts, v, s, h => by
    rw [List.cons_append]
    unfold kExec at h
    cases h1 : kStep K fuel c v t' s with
    | error y => rw [bind_err h1] at h; cases h
    | ok w =>
      obtain ⟨v1, s1⟩ := w
      rw [bind_run h1] at h
      conv_lhs => unfold kExec
      rw [bind_run h1]
      exact kExec_then c us ts h

end

/-- All that is shown of a well-formed program. -/
theorem kforms_run (E : EcDomain K d N A B G) {R : List ℤ → KStmt → Prop} {ts : List KStmt} {xs : List ℤ} {ks : List Kd} {n : ℕ}
    (h : KForms P N R [] [] 0 ts xs ks n) {fuel : ℕ} (hP : Spec.Passes P fuel) (hN : N.size ≤ fuel) :
    (∃ pts bs strs, kSees K fuel d ts = .ok ⟨xs, pts, bs, strs⟩ ∧ pts.length = ks.length ∧ strs.length = n ∧ (∀ c ∈ pts, Residues P c) ∧
      (∀ b ∈ strs, ¬ Malformed P b) ∧
      ∀ b, (Malformed P b ∧ ∀ us, kSees K fuel d (ts ++ .decode b :: us) = .error .abort) ∨
        ¬ Malformed P b ∧ ∃ c, kSees K fuel d (ts ++ [.decode b]) = .ok ⟨xs, pts ++ [c], bs, strs⟩ ∧ Answers A B b c) ∨
      (∀ us, kSees K fuel d (ts ++ us) = .error .abort) ∧ ¬ ∀ xs t, R xs t → KPasses K.lim P N xs t := by
  obtain ⟨r⟩ := params E.toEcSetting
  have hA := r.resA.trans E.a
  have hB := r.resB.trans E.b
  subst hA hB
  obtain ⟨em, D⟩ := params_dom r E
  have H := r.pc E.toEcSetting hP hN em
  obtain ⟨c, s1, g1, hc, hp⟩ := kprogram_made (fuel := fuel) r E.toEcSetting hP em
  rcases kform_runs (C' := r.curve) H D rfl h (ctx_init.mono g1) hc (v := ⟨⟨[], [], []⟩, []⟩) (V := ⟨⟨[], [], []⟩, []⟩)
    ⟨⟨.nil, fun _ h => absurd h List.not_mem_nil, .nil, fun _ h => absurd h List.not_mem_nil, rfl⟩, rfl⟩
    ⟨⟨.nil, .nil⟩, rfl, fun _ h => absurd h List.not_mem_nil⟩ with ⟨s, v, V, e1, g2, hv, dV⟩ | ⟨e1, hn⟩
  · left
    have X : Ctx K D0 s := (ctx_init.mono g1).mono g2
    obtain ⟨cs, l1, r1, rd⟩ := readPts_fixed H D.K dV.ec.pts
    have ri : ∀ {s' : BigSt}, Grow K s s' → Is s' (readInts v.ec.ints) xs := fun g =>
      readInts_is (hv.ec.mono g).ints (dV.ec.ints.imp fun _ _ h => ⟨h.1, h.2.2⟩)
    refine ⟨cs, v.ec.bools, v.bytes, ?_, l1, hv.bytes ▸ dV.len, r1, fun b hb => (dV.fine b (hv.bytes ▸ hb)).2, fun b => ?_⟩
    · obtain ⟨s2, g3, e2⟩ := rd X hv.ec.pts
      have e2 := e2 [] [] s2 rfl
      rw [List.append_nil, List.append_nil] at e2
      unfold kSees kReport
      rw [bind_run ((hp ts).trans e1), bind_run e2, bind_run (ri g3)]
      rfl
    · have hs := decode_sim' H.F X (hc.mono g2) b
      by_cases hm : Malformed P b
      · refine .inl ⟨hm, fun us => ?_⟩
        rw [(malformed_abort D.K hm).2] at hs
        have hs' : kStep K fuel c v (.decode b) s = .error .abort := by
          unfold kStep; exact bind_err hs
        unfold kSees kReport
        rw [bind_err ((hp _).trans (kExec_append c (.decode b) us hs' ts e1))]
        rfl
      · refine .inr ⟨hm, ?_⟩
        obtain ⟨q, eq, ha⟩ := decode_answers D.K b hm
        rw [eq] at hs
        obtain ⟨q', s2, e2, g3, hq⟩ := hs
        have hs' : kStep K fuel c v (.decode b) s = .ok (v.addPt q', s2) := by
          exact (bind_run e2).trans rfl
        obtain ⟨s3, g4, e3⟩ := rd (X.mono g3) (hv.ec.mono g3).pts
        obtain ⟨s4, e4, g5⟩ := read_pre (fuel := fuel) ((X.mono g3).mono g4) (hq.mono g4)
        refine ⟨_, ?_, ha⟩
        have e5 := e3 [.aff q'] [_] s4 (by
          unfold readPts
          rw [bind_run e4]
          rfl)
        have e6 : kExec K fuel c (ts ++ [.decode b]) ⟨⟨[], [], []⟩, []⟩ s1 = .ok (v.addPt q', s2) := by
          rw [kExec_then c _ ts e1]
          unfold kExec
          rw [bind_run hs']
          rfl
        unfold kSees kReport
        rw [bind_run ((hp _).trans e6)]
        show Except.map _ ((readPts K fuel (v.ec.pts ++ [PtR.aff q']) >>= fun q => (readInts v.ec.ints >>= _ : M KSight)) s2) = _
        rw [bind_run e5, bind_run (ri ((g3.trans g4).trans g5))]
        rfl
  · right
    refine ⟨fun us => ?_, hn⟩
    unfold kSees kReport
    rw [bind_err ((hp _).trans (e1 us))]
    rfl

/-- **C88**: a program on points, encodings and key recovery that names declared variables of the right classes has no undefined
behaviour and ends, whatever the coordinates of its points (on the curve or not), its numbers and its byte strings: it ends normally,
having one value for each variable, with coordinates that are residues, or it is stopped by a check.  (A compressed form with an
x-coordinate above P is left to `C88_decode_any`.) -/
theorem C88_no_undefined (E : EcDomain K d N A B G) {ts : List KStmt} {xs : List ℤ} {ks : List Kd} {n : ℕ}
    (h : KForms P N (fun _ _ => True) [] [] 0 ts xs ks n) {fuel : ℕ} (hP : Spec.Passes P fuel) (hN : N.size ≤ fuel) :
    kSees K fuel d ts = .error .abort ∨ ∃ pts bs strs, kSees K fuel d ts = .ok ⟨xs, pts, bs, strs⟩ ∧
      pts.length = ks.length ∧ strs.length = n ∧ ∀ c ∈ pts, Residues P c := by
  rcases kforms_run E h hP hN with ⟨pts, bs, strs, h1, h2, h3, h4, -⟩ | ⟨h, -⟩
  · exact .inr ⟨pts, bs, strs, h1, h2, h3, h4⟩
  · exact .inl (by simpa using h [])

/-- **C88**: if the checks let its literals and its numbers pass, it ends normally; none of its own encodings is malformed. -/
theorem C88_total (E : EcDomain K d N A B G) {ts : List KStmt} {xs : List ℤ} {ks : List Kd} {n : ℕ}
    (h : KForms P N (KPasses K.lim P N) [] [] 0 ts xs ks n) {fuel : ℕ} (hP : Spec.Passes P fuel) (hN : N.size ≤ fuel) :
    ∃ pts bs strs, kSees K fuel d ts = .ok ⟨xs, pts, bs, strs⟩ ∧ pts.length = ks.length ∧ strs.length = n ∧ (∀ c ∈ pts, Residues P c) ∧
      ∀ b ∈ strs, ¬ Malformed P b := by
  rcases kforms_run E h hP hN with ⟨pts, bs, strs, h1, h2, h3, h4, h5, -⟩ | ⟨-, h⟩
  · exact ⟨pts, bs, strs, h1, h2, h3, h4, h5⟩
  · exact absurd (fun _ _ h => h) h

/-- **C88**: decoding of any byte string whatever, after such a program: malformed bytes stop the program, whatever comes later; all
others give exactly what `Answers` says, and leave every other variable as it was. -/
theorem C88_decode_any (E : EcDomain K d N A B G) {ts : List KStmt} {xs : List ℤ} {ks : List Kd} {n : ℕ}
    (h : KForms P N (KPasses K.lim P N) [] [] 0 ts xs ks n) {fuel : ℕ} (hP : Spec.Passes P fuel) (hN : N.size ≤ fuel) (b : List Byte) :
    (Malformed P b ∧ ∀ us, kSees K fuel d (ts ++ .decode b :: us) = .error .abort) ∨
    ¬ Malformed P b ∧ ∃ pts bs strs c, kSees K fuel d ts = .ok ⟨xs, pts, bs, strs⟩ ∧
      kSees K fuel d (ts ++ [.decode b]) = .ok ⟨xs, pts ++ [c], bs, strs⟩ ∧ Answers A B b c := by
  rcases kforms_run E h hP hN with ⟨pts, bs, strs, h1, h2, h3, h4, h5, h6⟩ | ⟨-, h⟩
  · rcases h6 b with h | ⟨hm, c, h7, h8⟩
    · exact .inl h
    · exact .inr ⟨hm, pts, bs, strs, c, h1, h7, h8⟩
  · exact absurd (fun _ _ h => h) h

/-! ### On the curve of 211 points over the integers modulo 229 -/

/-- The point (1, 1), which is not on the curve; its two encodings; both decoded again; bytes of a point that is not on the curve
either; the key of a signature by numbers out of range. -/
def off229k : List KStmt := [.ec (.int [1]), .ec (.point 0 0 false), .encode 0 true, .encode 0 false, .decodeVar 0, .decodeVar 1, .decode [4, 3, 3],
  .decompress 0 true true, .ec (.int [1, 0, 0]), .recover [0xab] 1 0 7 false]

theorem off229k_form (K : Kind) (hK : K = ⟨8, false⟩ ∨ K = ⟨4, true⟩) : KForms 229 211 (KPasses K.lim 229 211) [] [] 0 off229k [1, 65536]
    [.aff, .aff, .aff, .aff, .aff, .aff] 2 := by
  have fb : ∀ l : List Byte, l.length ≤ 3 → Ack.Spec.Ec.FitsBytes K.lim l := by
    intro l hl M hM
    rcases hK with rfl | rfl
    · cases (show some 8 = some M from hM); omega
    · cases (show none = some M from hM)
  have m4 : ¬ Malformed 229 [4, 3, 3] := by
    intro h
    generalize e : ([4, 3, 3] : List Byte) = b at h
    cases h with
    | empty => cases e
    | tag l h0 h2 h3 h4 => cases e; exact h4 rfl
    | short h1 _ => cases e; exact absurd h1 (by decide)
    | long h1 => cases e; exact h1 (by decide)
    | @range l m h1 h2 h3 =>
      have ho : octets 229 = 1 := by decide
      rw [ho] at h1 h2
      obtain ⟨x, rfl⟩ := List.length_eq_one_iff.1 h1
      obtain ⟨y, rfl⟩ := List.length_eq_one_iff.1 h2
      cases e
      exact h3 (by decide)
  have rd : Reduced 229 [4, 3, 3] := by
    intro t l e h
    cases e
    exact absurd h (by decide)
  exact .cons (.ec (.int _)) (fb _ (by decide)) (.cons (.ec (.point _ rfl rfl)) ⟨rfl, 1, 1, by decide, by decide, rfl, rfl⟩ (.cons (.encode _ rfl) trivial
    (.cons (.encode _ rfl) trivial (.cons (.decodeVar (by decide)) trivial (.cons (.decodeVar (by decide)) trivial (.cons (.decode rd) m4
    (.cons (.decompress (x := 1) _ _ rfl (by decide)) ⟨1, rfl, by decide, by decide⟩ (.cons (.ec (.int _)) (fb _ (by decide))
    (.cons (.recover _ _ _ rfl rfl (by decide)) trivial (.nil _ _ _))))))))))

example (K : Kind) (hK : K = ⟨8, false⟩ ∨ K = ⟨4, true⟩) : ∃ pts bs strs, kSees K 19 d229 off229k = .ok ⟨[1, 65536], pts, bs, strs⟩ ∧
    pts.length = 6 ∧ strs.length = 2 ∧ (∀ c ∈ pts, Residues 229 c) ∧ ∀ b ∈ strs, ¬ Malformed 229 b :=
  C88_total (d229_dom K hK) (off229k_form K hK) p229 n211

example : kSees ⟨8, false⟩ 19 d229 (off229k ++ [.decode [2, 231]]) = .ok ⟨[1, 65536],
    [some (1, 1), none, some (1, 1), some (3, 3), none, none, some (231, 224)], [], [[3, 1], [4, 1, 1]]⟩ := by decide +kernel
example : Answers (P := 229) (res 229 ex229.a) (res 229 ex229.b) [2, 231] (some (231, 224)) :=
  .some (t := 2) (l := [231]) (y := 224) (by decide) (by decide) (by unfold res; decide +kernel) (by decide +kernel)
example : kSees ⟨4, true⟩ 19 d229 (off229k ++ .decode [2, 1, 1] :: off229k) = .error .abort := by
  rcases C88_decode_any (d229_dom ⟨4, true⟩ (Or.inr rfl)) (off229k_form _ (Or.inr rfl)) (fuel := 19) p229 n211 [2, 1, 1] with h | h
  · exact h.2 _
  · exact absurd (.short (Or.inl rfl) (by decide)) h.1

end Ack.Props
