import Verif.Spec.KeyForm
import Verif.Proof.KeyProg
import Verif.Proof.EcTotal
/-! # Programs on encodings and key recovery, on points that need not be on the curve -/
namespace Ack.Mem
open Big (Byte)
open Ack.Spec.Ec Ack.Spec.Key

section
variable {P : ℕ} [Fact P.Prime] {N : ℕ} {cap : Cap} {C : Curve} {G : C.Pt P} {V : KVals} {xs : List ℤ} {ks : List Kd} {n : ℕ}

/-- The integers have the values, the points the classes; every byte string decodes, as far as the checks are concerned. -/
structure KShape (P : ℕ) (cap : Cap) (C : Curve) (V : KVals) (xs : List ℤ) (ks : List Kd) (n : ℕ) : Prop where
  ec : Shape P cap C V.ec xs ks
  len : V.bytes.length = n
  fine : ∀ b ∈ V.bytes, Reduced P b ∧ ¬ Malformed P b

theorem reduced_fine (K : CurveOk P cap C) {b : List Byte} (h : Reduced P b) : CodeFine P C.p b := by
  intro ht hl
  cases b with
  | nil => exact absurd ht (by decide)
  | cons t l =>
    have := h t l rfl ht (by rw [← octets_eq K]; simpa using hl)
    simpa using this

theorem any_rep {q : APt} {Q : C.Pt P} (h : q.Rep C Q) : q.Any P C := by
  intro hi
  cases Q with
  | zero => rw [show q.isIdentity = true from h] at hi; cases hi
  | some x y hn => exact ⟨h.1, x, y, h.2.1, h.2.2⟩

/-- Decoding of reduced encodings: a point with residues as coordinates, or the encoding is malformed. -/
theorem decode_any (K : CurveOk P cap C) {b : List Byte} (h : Reduced P b) :
    (Malformed P b ∧ Curve.decode cap C b = .error .abort) ∨ ¬ Malformed P b ∧ ∃ q, Curve.decode cap C b = .ok q ∧ q.Any P C := by
  by_cases hm : Malformed P b
  · exact .inl ⟨hm, (malformed_abort K hm).2⟩
  refine .inr ⟨hm, ?_⟩
  have ho := octets_eq K
  cases b with
  | nil => exact absurd .empty hm
  | cons t l =>
    by_cases h0 : t = 0
    · subst h0
      exact ⟨APt.identity, by rw [decode_cons]; rfl, any_rep (Q := (0 : C.Pt P)) repZ_zero.1⟩
    by_cases h2 : t = 2 ∨ t = 3
    · by_cases hl : l.length = octets P
      swap
      · exact absurd (.short h2 hl) hm
      obtain ⟨odd, rfl⟩ : ∃ odd : Bool, t = if odd then 3 else 2 := by
        rcases h2 with h | h
        · exact ⟨false, h⟩
        · exact ⟨true, h⟩
      obtain ⟨bx, e, r⟩ := decode_compressed K (x := l) (by rw [hl, ho]) odd (h _ l rfl h2 hl)
      rw [e]
      obtain ⟨q, eq, g1, g2⟩ := decompress_spec K r odd
      refine ⟨q, eq, ?_⟩
      by_cases hh : ∃ y : ZMod P, y ≠ 0 ∧ y ^ 2 = ((beVal l : ℕ) : ZMod P) ^ 3 + res P C.a * ((beVal l : ℕ) : ZMod P) + res P C.b
      · obtain ⟨Y, hn, hr, -⟩ := g1 hh
        exact any_rep hr
      · rw [g2 hh]; exact any_rep (Q := (0 : C.Pt P)) repZ_zero.1
    by_cases h4 : t = 4
    · subst h4
      by_cases hl : l.length = 2 * octets P
      swap
      · exact absurd (.long hl) hm
      have hs : l = l.take (octets P) ++ l.drop (octets P) := (List.take_append_drop _ _).symm
      have l1 : (l.take (octets P)).length = octets P := by rw [List.length_take]; omega
      have l2 : (l.drop (octets P)).length = octets P := by rw [List.length_drop]; omega
      rw [hs] at hm ⊢
      by_cases hb : beVal (l.take (octets P)) < P ∧ beVal (l.drop (octets P)) < P
      swap
      · exact absurd (.range l1 l2 hb) hm
      obtain ⟨bx, b_y, e, r1, r2⟩ := (decode_uncompressed K (by rw [l1, ho]) (by rw [l2, ho])).1 hb
      exact ⟨_, e, fun _ => ⟨rfl, _, _, r1, r2⟩⟩
    · exact absurd (.tag l h0 (fun h => h2 (.inl h)) (fun h => h2 (.inr h)) h4) hm

/-- The program's own encodings pass the checks of decoding. -/
theorem encode_any (K : CurveOk P cap C) {q : APt} (h : q.Any P C) (c : Bool) :
    Reduced P (Curve.encode cap q c) ∧ ¬ Malformed P (Curve.encode cap q c) := by
  have ho := octets_eq K
  unfold Curve.encode
  cases hi : q.isIdentity with
  | true =>
    refine ⟨fun t l e ht => ?_, fun h => ?_⟩
    · cases e; exact absurd ht (by decide)
    · cases h with
      | tag _ h0 => exact h0 rfl
      | short ht => exact absurd ht (by decide)
  | false =>
    obtain ⟨-, x, y, hx, hy⟩ := h hi
    obtain ⟨lx, vx⟩ := feBytes_spec K hx
    obtain ⟨ly, vy⟩ := feBytes_spec K hy
    have := x.val_lt
    have := y.val_lt
    rw [ho] at lx ly
    cases c with
    | false =>
      refine ⟨fun t l e ht => ?_, fun h => ?_⟩
      · cases e; exact absurd ht (by decide)
      · have key : ∀ b, Malformed P b → b = 4 :: (q.x.toBytes cap ++ q.y.toBytes cap) → False := by
          intro b hb e
          cases hb with
          | empty => cases e
          | tag l h0 h2 h3 h4 => exact h4 (List.cons.inj e).1
          | short ht => rw [(List.cons.inj e).1] at ht; exact absurd ht (by decide)
          | long hl => rw [(List.cons.inj e).2, List.length_append] at hl; omega
          | range hl hm hv =>
            obtain ⟨e1, e2⟩ := List.append_inj (List.cons.inj e).2 (by rw [hl, lx])
            rw [e1, e2, vx, vy] at hv
            exact hv ⟨x.val_lt, y.val_lt⟩
        exact key _ h rfl
    | true =>
      have key : ∀ t : Byte, t = 2 ∨ t = 3 → Reduced P (t :: q.x.toBytes cap) ∧ ¬ Malformed P (t :: q.x.toBytes cap) := by
        intro t ht
        refine ⟨fun t' l e _ _ => ?_, fun h => ?_⟩
        · rw [← (List.cons.inj e).2, vx]; exact x.val_lt
        · generalize q.x.toBytes cap = w at h lx
          cases h with
          | tag l h0 h2 h3 h4 => exact ht.elim h2 h3
          | short _ hl => exact hl lx
          | long => exact absurd ht (by decide)
          | range => exact absurd ht (by decide)
      show Reduced P (_ :: _) ∧ ¬ Malformed P (_ :: _)
      refine key _ ?_
      split
      · exact .inr rfl
      · exact .inl rfl

omit [Fact P.Prime] in
theorem KShape.addPt (h : KShape P cap C V xs ks n) {q : APt} (d : q.Any P C) : KShape P cap C (V.addPt q) xs (ks ++ [.aff]) n :=
  ⟨h.ec.addPt (q := .aff q) (k := .aff) d, h.len, h.fine⟩

omit [Fact P.Prime] in
theorem Shape.intAt {V : EcVals} (h : Shape P cap C V xs ks) {i : ℕ} {x : ℤ} (hi : xs[i]? = some x) :
    ∃ X, V.ints[i]? = some X ∧ V.int i = .ok X ∧ X.Canon ∧ X.toInt = x := by
  rcases forall₂_get h.ints i with ⟨-, h2⟩ | ⟨X, x', h1, h2, h3⟩
  · rw [h2] at hi; cases hi
  · rw [h2] at hi; cases hi
    exact ⟨X, h1, by unfold EcVals.int; rw [h1], h3.1, h3.2.2⟩

/-- **One statement.** -/
theorem kform_step (D : AnyDomain N cap C G) (h : KShape P cap C V xs ks n) {t : KStmt} {ys : List ℤ} {ls : List Kd} {m : ℕ}
    (ht : KForm P N xs ks n t ys ls m) : KFine P N C V t ∧
    ((∃ V', kvStep cap C V t = .ok V' ∧ KShape P cap C V' ys ls m) ∨ kvStep cap C V t = .error .abort ∧ ¬ KPasses cap P N xs t) := by
  have K := D.K
  have idn : APt.identity.Any P C := any_rep (Q := (0 : C.Pt P)) repZ_zero.1
  cases ht with
  | ec ht =>
    refine ⟨trivial, ?_⟩
    rcases form_step D h.ec ht with ⟨V', e, d⟩ | ⟨e, d⟩
    · exact .inl ⟨{ V with ec := V' }, by simp only [kvStep, e, ok_bind]; rfl, d, h.len, h.fine⟩
    · exact .inr ⟨by simp only [kvStep, e]; rfl, d⟩
  | @decompress i x odd ver hi hx =>
    obtain ⟨X, e1, e2, cX, rfl⟩ := h.ec.intAt hi
    by_cases hr : 0 ≤ X.toInt ∧ X.toInt < P
    · have hr' : Ack.Rep P C.p ⟨X, some C.p⟩ (res P X) := Rep.mk' ⟨cX, hr.1, by rw [K.M.eq]; exact hr.2⟩
      refine ⟨fun _ Y hY => by rw [e1] at hY; cases hY; exact hr'.elt, .inl ?_⟩
      obtain ⟨q, eq, g1, g2⟩ := decompress_spec K hr' odd
      refine ⟨V.addPt q, ?_, h.addPt ?_⟩
      · simp only [kvStep, e2, ok_bind, decompressInt_ok K hr' odd ver, eq]; rfl
      · by_cases hh : ∃ y : ZMod P, y ≠ 0 ∧ y ^ 2 = res P X ^ 3 + res P C.a * res P X + res P C.b
        · obtain ⟨Y, hn, hr, -⟩ := g1 hh
          exact any_rep hr
        · rw [g2 hh]; exact idn
    · have hv : ver = true := by
        cases ver with
        | true => rfl
        | false => exact absurd (hx rfl) hr
      subst hv
      refine ⟨fun h => (by cases h), .inr ⟨?_, ?_⟩⟩
      · have hv : C.isValidInteger X = false := by
          unfold Curve.isValidInteger
          rw [← Bool.not_eq_true, Bool.and_eq_true, Bool.not_eq_true', opLt_iff cX K.M.canon, ← Bool.not_eq_true, Big.isNegative_iff cX, K.M.eq]
          rintro ⟨h1, h2⟩
          exact hr ⟨by omega, h2⟩
        have : C.decompressInt cap X odd true = .error .abort := by
          unfold Curve.decompressInt Curve.makeFe
          rw [if_pos rfl, hv]; rfl
        simp only [kvStep, e2, ok_bind, this]
        rfl
      · rintro ⟨x, hx', h1⟩
        rw [hi] at hx'; cases hx'
        exact hr h1
  | @decode b hb =>
    refine ⟨reduced_fine K hb, ?_⟩
    rcases decode_any K hb with ⟨hm, e⟩ | ⟨-, q, e, hq⟩
    · exact .inr ⟨by simp only [kvStep, e]; rfl, fun h => h hm⟩
    · exact .inl ⟨V.addPt q, by simp only [kvStep, e, ok_bind]; rfl, h.addPt hq⟩
  | @decodeVar i hi =>
    obtain ⟨b, eb⟩ : ∃ b, V.bytes[i]? = some b := ⟨_, List.getElem?_eq_getElem (by rw [h.len]; exact hi)⟩
    obtain ⟨hb, hm⟩ := h.fine b (List.mem_of_getElem? eb)
    have hs : V.str i = .ok b := by unfold KVals.str; rw [eb]
    refine ⟨fun e he => by rw [eb] at he; cases he; exact reduced_fine K hb, ?_⟩
    rcases decode_any K hb with ⟨hm', e⟩ | ⟨-, q, e, hq⟩
    · exact absurd hm' hm
    · exact .inl ⟨V.addPt q, by simp only [kvStep, hs, e, ok_bind]; rfl, h.addPt hq⟩
  | @encode i c hq =>
    obtain ⟨q, eq, dq⟩ := h.ec.pt hq
    cases q <;> first | exact False.elim dq | skip
    rename_i q
    refine ⟨trivial, .inl ⟨{ V with bytes := V.bytes ++ [Curve.encode cap q c] }, ?_, h.ec, ?_, ?_⟩⟩
    · simp only [kvStep, eq, ok_bind, PtV.encode]; rfl
    · rw [List.length_append, h.len]; rfl
    · intro b hb
      rcases List.mem_append.1 hb with hb | hb
      · exact h.fine b hb
      · rw [List.mem_singleton.1 hb]
        exact encode_any K dq c
  | recover msg k ver hi hj hNP =>
    obtain ⟨X, e1, e2, cX, rfl⟩ := h.ec.intAt hi
    obtain ⟨Y, e3, e4, cY, rfl⟩ := h.ec.intAt hj
    refine ⟨hNP, .inl ?_⟩
    by_cases hr : (1 ≤ X.toInt ∧ X.toInt < N) ∧ (1 ≤ Y.toInt ∧ Y.toInt < N) ∧ k.toNat < 4
    · obtain ⟨q, eq, hq⟩ := ecdsaRecover_full D hNP msg cX cY hr.1 hr.2.1 hr.2.2 ver
      refine ⟨V.addPt q, by simp only [kvStep, e2, e4, ok_bind, eq]; rfl, h.addPt ?_⟩
      rcases hq with ⟨rfl, -⟩ | ⟨R, w, -, -, -, hq, -⟩
      · exact idn
      · exact any_rep hq
    · exact ⟨V.addPt APt.identity, by simp only [kvStep, e2, e4, ok_bind, ecdsaRecover_range D msg cX cY _ ver hr]; rfl, h.addPt idn⟩

variable {K : Kind} {p : Big} {fuel : ℕ} {C' : Curve} {G' : C'.Pt P}

/-- **Statements in order, on memory.** -/
theorem kform_runs (H : PC K p P N fuel C') (D : AnyDomain N K.lim C' G') (hpm : C'.pMinusN = Big.sub K.lim C'.p C'.n) {c : CurveR}
    {A : List ℤ → KStmt → Prop} {ts : List KStmt} {ys : List ℤ} {ls : List Kd} {m : ℕ} (ht : KForms P N A xs ks n ts ys ls m) :
    ∀ {s : BigSt} {v : KVars} {V : KVals}, Ctx K D0 s → CSim D0 p s c C' → KSim D0 p C' s v V → KShape P K.lim C' V xs ks n →
    (∃ s' v' V', kExec K fuel c ts v s = .ok (v', s') ∧ Grow K s s' ∧ KSim D0 p C' s' v' V' ∧ KShape P K.lim C' V' ys ls m) ∨
      (∀ us, kExec K fuel c (ts ++ us) v s = .error .abort) ∧ ¬ ∀ xs t, A xs t → KPasses K.lim P N xs t := by
  induction ht with
  | nil => intro s v V X _ hv d; exact .inl ⟨s, v, V, rfl, Grow.refl X.inv, hv, d⟩
  | cons h1 hA _ ih =>
    intro s v V X hc hv d
    obtain ⟨f, h2⟩ := kform_step D d h1
    have hs := kstep_sim H X hc hpm hv _ f
    rcases h2 with ⟨V1, e1, d1⟩ | ⟨e1, n1⟩
    · rw [e1] at hs
      obtain ⟨v1, s1, e2, g1, hv1⟩ := hs
      rcases ih (X.mono g1) (hc.mono g1) hv1 d1 with ⟨s', v', V', e3, g2, hv', d'⟩ | ⟨e3, n3⟩
      · refine .inl ⟨s', v', V', ?_, g1.trans g2, hv', d'⟩
        unfold kExec
        rw [bind_run e2]; exact e3
      · refine .inr ⟨fun us => ?_, n3⟩
        rw [List.cons_append]
        unfold kExec
        rw [bind_run e2]; exact e3 us
    · rw [e1] at hs
      refine .inr ⟨fun us => ?_, fun hp => n1 (hp _ _ hA)⟩
      rw [List.cons_append]
      unfold kExec
      exact bind_err hs

end
end Ack.Mem
