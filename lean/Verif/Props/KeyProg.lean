import Verif.Proof.KeyProg
import Verif.Props.EcProg
/-! # Programs on compressed points, encodings and key recovery, on real storage -/
namespace Ack.Props
open Ack.Mem Ack.Spec.Ec Ack.Spec.Prog Ack.Spec.Key
open Big (Byte)

variable {K : Kind} {d : DomBytes} {P N : ℕ} [Fact P.Prime] {A B : ZMod P} {G : (shortW A B).Point}

/-- **C86**: a program as in C84 that also decompresses points, decodes points from byte strings (also its own), encodes points in
full and in compressed form, and recovers public keys from signatures; in the end it reads all its variables.  Within the domains of
the functions it ends normally and sees: for decompression the point with the given x and the given parity of y; for decoding the
encoded point; for encoding the bytes of SEC 1; for recovery the key −m/r G + s/r R, or the point at infinity when there is no such
R.  On fixed and on growable storage, for every number of statements and variables. -/
theorem C86_programs (E : EcDomain K d N A B G) {ts : List KStmt} {e : KEnv (shortW A B)} (h : KRuns K.lim N G ⟨⟨[], [], []⟩, []⟩ ts e)
    {fuel : ℕ} (hP : Spec.Passes P fuel) (hN : N.size ≤ fuel) :
    kSees K fuel d ts = .ok ⟨e.ec.ints, e.ec.pts.map (fun Q => coords Q.2), e.ec.bools, e.bytes⟩ := by
  obtain ⟨r⟩ := params E.toEcSetting
  have hA := r.resA.trans E.a
  have hB := r.resB.trans E.b
  subst hA hB
  obtain ⟨em, D⟩ := params_dom r E
  have H := r.pc E.toEcSetting hP hN em
  obtain ⟨c, s1, g1, hc, hp⟩ := kprogram_made (fuel := fuel) r E.toEcSetting hP em
  obtain ⟨s, v, V, e1, g2, hv, dV⟩ := kexec_runs (C' := r.curve) H D rfl h (ctx_init.mono g1) hc
    (v := ⟨⟨[], [], []⟩, []⟩) (V := ⟨⟨[], [], []⟩, []⟩) ⟨⟨.nil, fun _ h => absurd h List.not_mem_nil, .nil, fun _ h => absurd h List.not_mem_nil, rfl⟩, rfl⟩ ⟨⟨.nil, .nil, rfl⟩, rfl⟩
  have X : Ctx K D0 s := (ctx_init.mono g1).mono g2
  obtain ⟨s', e2, g3⟩ := readPts_run H D.K X hv.ec.pts dV.ec.pts
  have e3 := readInts_is (hv.ec.mono g3).ints dV.ec.ints
  unfold kSees kReport
  rw [bind_run ((hp ts).trans e1), bind_run e2, bind_run e3]
  show Except.ok _ = _
  rw [hv.ec.bools, dV.ec.bools, hv.bytes, dV.bytes]

/-- **C86**: a malformed encoding, and a number that is not a residue where one is checked, stop the program, after any statements that
ran normally and whatever comes later. -/
theorem C86_stops (E : EcDomain K d N A B G) {ts us : List KStmt} {t : KStmt} {e : KEnv (shortW A B)}
    (h : KRuns K.lim N G ⟨⟨[], [], []⟩, []⟩ ts e) (ht : KStops K.lim N e t) {fuel : ℕ} (hP : Spec.Passes P fuel) (hN : N.size ≤ fuel) :
    kSees K fuel d (ts ++ t :: us) = .error .abort := by
  obtain ⟨r⟩ := params E.toEcSetting
  have hA := r.resA.trans E.a
  have hB := r.resB.trans E.b
  subst hA hB
  obtain ⟨em, D⟩ := params_dom r E
  have H := r.pc E.toEcSetting hP hN em
  obtain ⟨c, s1, g1, hc, hp⟩ := kprogram_made (fuel := fuel) r E.toEcSetting hP em
  obtain ⟨s, v, V, e1, g2, hv, dV⟩ := kexec_runs (C' := r.curve) H D rfl h (ctx_init.mono g1) hc
    (v := ⟨⟨[], [], []⟩, []⟩) (V := ⟨⟨[], [], []⟩, []⟩) ⟨⟨.nil, fun _ h => absurd h List.not_mem_nil, .nil, fun _ h => absurd h List.not_mem_nil, rfl⟩, rfl⟩ ⟨⟨.nil, .nil, rfl⟩, rfl⟩
  obtain ⟨f, ee⟩ := kden_stop (C := r.curve) D dV ht
  have hs := kstep_sim H ((ctx_init.mono g1).mono g2) (hc.mono g2) rfl hv t f
  rw [ee] at hs
  unfold kSees kReport
  rw [bind_err ((hp _).trans (kExec_append c t us hs ts e1))]
  rfl

/-! ### On the curve of 211 points over the integers modulo 229 -/

/-- The point 2 G or −2 G with odd y, of which the signature (134, 138) speaks. -/
def R229 : ex229.Pt 229 := .some 134 137 (ex229_ok.ns.2 (by unfold res; decide))

/-- The point with x = 2 and odd y; in both forms; back; from literal bytes; the number 5 is the x of no point; the key of a signature. -/
def key229 : List KStmt := [.ec (.int [2]), .decompress 0 true true, .encode 0 true, .encode 0 false, .decodeVar 0, .decode [4, 2, 5], .ec (.int [5]),
  .decompress 1 false false, .encode 3 true, .decode [2, 5], .ec (.int [134]), .ec (.int [138]), .recover [0xab] 2 3 1 false]

example (K : Kind) (hK : K = ⟨8, false⟩ ∨ K = ⟨4, true⟩) :
    let e : KEnv (ex229.W 229) := ⟨⟨[2, 5, 134, 138], [(.aff, G229), (.aff, G229), (.aff, G229), (.aff, 0), (.aff, 0),
      (.aff, (205 : ℤ) • G229 + (127 : ℤ) • R229)], []⟩, [[3, 2], [4, 2, 5], [0]]⟩
    KRuns K.lim 211 G229 ⟨⟨[], [], []⟩, []⟩ key229 e ∧
    kSees K 19 d229 key229 = .ok ⟨e.ec.ints, e.ec.pts.map (fun Q => coords Q.2), e.ec.bools, e.bytes⟩ := by
  intro e
  have fb : ∀ x : Byte, Ack.Spec.Ec.FitsBytes K.lim [x] := by
    intro x M hM
    rcases hK with rfl | rfl
    · cases (show some 8 = some M from hM); exact Nat.le_of_ble_eq_true rfl
    · cases (show none = some M from hM)
  have no : ∀ y, (ex229.W 229).Nonsingular 5 y → y = 0 := by
    intro y hy
    have h := ex229_ok.ns.1 hy
    have : ∀ y : ZMod 229, y ^ 2 = 5 ^ 3 + res 229 ex229.a * 5 + res 229 ex229.b → y = 0 := by unfold res; decide +kernel
    exact this y h
  have odd2 : SecCode true G229 [3, 2] := .odd _ rfl (by decide) (by decide)
  have full2 : SecCode false G229 [4, 2, 5] := .full _ (l := [2]) (m := [5]) rfl (by decide) rfl (by decide)
  have ny : ∀ x h, G229 ≠ .some x 0 h := by
    intro x h e
    injection e with _ e
    exact absurd e (by decide)
  have dc : KDoes K.lim 211 G229 ⟨⟨[2], [], []⟩, []⟩ (.decompress 0 true true) ⟨⟨[2], [(.aff, G229)], []⟩, []⟩ :=
    .decompress (x := 2) (y := 5) _ _ rfl (by decide) (by decide)
  have rc : KDoes K.lim 211 G229 ⟨⟨[2, 5, 134, 138], [(.aff, G229), (.aff, G229), (.aff, G229), (.aff, 0), (.aff, 0)], []⟩, [[3, 2], [4, 2, 5], [0]]⟩
      (.recover [0xab] 2 3 1 false) e :=
    KDoes.recover (N := 211) (i := 2) (j := 3) (r := 134) (s := 138) (w := 137) (k := 1) (ver := false) (R := R229) [0xab] rfl rfl (by decide) (by decide) (by decide)
      (by decide) ⟨_, _, _, rfl, by decide, by decide, by decide⟩ (fun h => Bool.noConfusion h) (by decide)
  suffices h : KRuns K.lim 211 G229 ⟨⟨[], [], []⟩, []⟩ key229 e from ⟨h, C86_programs (d229_dom K hK) h p229 n211⟩
  exact .cons (.ec (.int _ (fb _))) (.cons dc (.cons (.encode rfl odd2) (.cons (.encode rfl full2) (.cons (.decodeVar rfl (.point odd2 fun _ => ny))
    (.cons (.decode (.point full2 fun _ => ny)) (.cons (.ec (.int _ (fb _))) (.cons (.noPoint (x := 5) _ _ rfl no) (.cons (.encode rfl (.zero _))
    (.cons (.decode (.none (Or.inl rfl) rfl (by decide) no)) (.cons (.ec (.int _ (fb _))) (.cons (.ec (.int _ (fb _))) (.cons rc (.nil _)))))))))))))

example : kSees ⟨8, false⟩ 19 d229 [.ec (.int [2]), .decompress 0 true true, .encode 0 true, .encode 0 false, .decodeVar 0] =
    .ok ⟨[2], [some (2, 5), some (2, 5)], [], [[3, 2], [4, 2, 5]]⟩ := by decide +kernel
example : kSees ⟨4, true⟩ 19 d229 [.ec (.int [5]), .decompress 0 false false, .encode 0 true, .decode [2, 5]] =
    .ok ⟨[5], [none, none], [], [[0]]⟩ := by decide +kernel

example : KRuns (W := ex229.W 229) (some 8) 211 G229 ⟨⟨[], [], []⟩, []⟩ [.ec (.int [229])] ⟨⟨[229], [], []⟩, []⟩ ∧
    KStops (P := 229) (W := ex229.W 229) (some 8) 211 ⟨⟨[229], [], []⟩, []⟩ (.decompress 0 true true) ∧
    KStops (P := 229) (W := ex229.W 229) (some 8) 211 ⟨⟨[229], [], []⟩, []⟩ (.decode [4, 229, 5]) ∧
    kSees ⟨8, false⟩ 19 d229 ([.ec (.int [229])] ++ .decode [4, 229, 5] :: [.encode 0 true]) = .error .abort :=
  ⟨.cons (.ec (.int _ fun M h => by cases h; decide)) (.nil _), .decompress _ rfl (by decide), .decode (.range (l := [229]) (m := [5]) rfl rfl (by decide)),
    C86_stops (d229_dom ⟨8, false⟩ (Or.inl rfl)) (.cons (.ec (.int _ fun M h => by cases (show some 8 = some M from h); decide)) (.nil _))
      (.decode (.range (l := [229]) (m := [5]) rfl rfl (by decide))) p229 n211⟩
example : kSees ⟨8, false⟩ 19 d229 [.decode []] = .error .abort ∧ kSees ⟨8, false⟩ 19 d229 [.decode [5, 2]] = .error .abort ∧
    kSees ⟨8, false⟩ 19 d229 [.decode [2, 2, 2]] = .error .abort ∧ kSees ⟨8, false⟩ 19 d229 [.decode [4, 2]] = .error .abort :=
  ⟨by decide +kernel, by decide +kernel, by decide +kernel, by decide +kernel⟩

end Ack.Props
