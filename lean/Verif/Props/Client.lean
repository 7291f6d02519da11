import Verif.Proof.Client
import Verif.Props.PtProg
import Verif.Props.KeyProg
/-! # Programs that decide by what they see -/
namespace Ack.Props
open Ack.Mem Ack.Spec.Ec Ack.Spec.Prog Ack.Spec.Key Ack.Spec.Client
open Big (Byte)

variable {K : Kind} {d : DomBytes} {P N : ℕ} [Fact P.Prime] {A B : ZMod P} {G : (shortW A B).Point}

/-- **C96**: a client is any function of what it has seen to its next statement, so it may loop, branch and keep accounts of its own.  It
declares integers, points, answers and byte strings as in C86, and assigns to points as in C92, also with `P = c.decode_point(b)` and
`P = ecdsa_recover(...)`; before every statement it reads all its variables.  As long as its statements are within the domains of the
functions, it sees at every moment exactly the values that the group gives: so its decisions are those it would make on paper.  For
every client and every number of statements, on fixed and on growable storage. -/
theorem C96_client (E : EcDomain K d N A B G) {F : Client} {n : ℕ} {h : List KSight}
    (hF : Plays K.lim N G F n [] ⟨⟨[], [], []⟩, []⟩ h) {fuel : ℕ} (hP : Spec.Passes P fuel) (hN : N.size ≤ fuel) : clientSees K fuel d F n = .ok h := by
  obtain ⟨r⟩ := params E.toEcSetting
  have hA := r.resA.trans E.a
  have hB := r.resB.trans E.b
  subst hA hB
  obtain ⟨em, D⟩ := params_dom r E
  obtain ⟨B, c, s, e1, M⟩ := client_start r E.toEcSetting hP em
  obtain ⟨s', e2⟩ := play_runs (C' := r.curve) (r.pc E.toEcSetting hP hN em) D rfl hF M ⟨⟨.nil, .nil, rfl⟩, rfl⟩
  unfold clientSees
  rw [(bind_run e1).trans e2]
  rfl

/-- **C96**: if after such statements the client makes one that the library rejects, the program stops. -/
theorem C96_stops (E : EcDomain K d N A B G) {F : Client} {n : ℕ} (hF : Halts K.lim N G F n [] ⟨⟨[], [], []⟩, []⟩) {fuel : ℕ} (hP : Spec.Passes P fuel)
    (hN : N.size ≤ fuel) : clientSees K fuel d F n = .error .abort := by
  obtain ⟨r⟩ := params E.toEcSetting
  have hA := r.resA.trans E.a
  have hB := r.resB.trans E.b
  subst hA hB
  obtain ⟨em, D⟩ := params_dom r E
  obtain ⟨B, c, s, e1, M⟩ := client_start r E.toEcSetting hP em
  have e2 := play_halts (C' := r.curve) (r.pc E.toEcSetting hP hN em) D rfl hF M ⟨⟨.nil, .nil, rfl⟩, rfl⟩
  unfold clientSees
  rw [(bind_run e1).trans e2]
  rfl

/-- **C96**: a client that only names declared variables of the right classes, whatever its integers and points and also if they are not
on the curve, has no undefined behaviour and no endless call: it sees its variables until it ends, has made its `n` statements, or the
library stops it. -/
theorem C96_no_undefined (E : EcDomain K d N A B G) {F : Client} (hF : Declares P N F) (n : ℕ) {fuel : ℕ} (hP : Spec.Passes P fuel) (hN : N.size ≤ fuel) :
    clientSees K fuel d F n = .error .abort ∨
      ∃ h, clientSees K fuel d F n = .ok h ∧ h.length ≤ n + 1 ∧ (h.length < n + 1 → F h = none) := by
  obtain ⟨r⟩ := params E.toEcSetting
  have hA := r.resA.trans E.a
  have hB := r.resB.trans E.b
  subst hA hB
  obtain ⟨em, D⟩ := params_dom r E
  obtain ⟨B, c, s, e1, M⟩ := client_start r E.toEcSetting hP em
  obtain ⟨I, h0, hI⟩ := hF
  unfold clientSees
  rcases play_any (C' := r.curve) (r.pc E.toEcSetting hP hN em) D rfl hI n h0 M ⟨⟨.nil, .nil⟩, rfl, fun _ h => absurd h List.not_mem_nil⟩ with
    e2 | ⟨h, s', e2, l, k⟩
  · rw [(bind_run e1).trans e2]; exact .inl rfl
  · rw [(bind_run e1).trans e2]
    exact .inr ⟨h, rfl, by simpa using l, fun hl => k (by simpa using hl)⟩

/-! ### A client that counts the multiples of the generator -/

/-- `IntT one(1); auto G = c.generate_point(one); auto R = c.generate_point(one); do { R += G; } while (!R.is_identity());` -/
def counter : Client
  | [] => none
  | o :: h =>
    if o.ints = [] then some (.decl (.ec (.int [1])))
    else if o.pts.length < 2 then some (.decl (.ec (.generate .aff 0)))
    else if o.bools.getLast? = some true then none
    else if h.length % 2 = 1 then some (.addTo 1 0)
    else some (.decl (.ec (.isIdentity 1)))

theorem counter_loop {cap : Cap} (np : N.Prime) (h0 : G ≠ 0) (ord : (N : ℤ) • G = 0) : ∀ (j m : ℕ) (h : List KSight) (n : ℕ), m + 1 + j = N → 0 < m →
    h.length = 2 * m + 1 → 2 * (j + 1) ≤ n →
    ∃ h', Plays cap N G counter n h ⟨⟨[1], [(.aff, G), (.aff, (m : ℤ) • G)], List.replicate (m - 1) false⟩, []⟩ h' ∧ h'.length = 2 * N + 2 ∧
      h'.head? = some ⟨[1], [coords G, none], List.replicate (N - 2) false ++ [true], []⟩
  | j, m, h, 0, _, _, _, hn | j, m, h, 1, _, _, _, hn => by omega
  | j, m, h, n + 2, hm, m0, hl, hn => by
    have c1 : counter (sight (W := shortW A B) ⟨⟨[1], [(.aff, G), (.aff, (m : ℤ) • G)], List.replicate (m - 1) false⟩, []⟩ :: h) = some (.addTo 1 0) := by
      have : (List.replicate (m - 1) false).getLast? ≠ some true := fun h => by
        have := List.eq_of_mem_replicate (List.mem_of_getLast? h); cases this
      simp [counter, sight, this, hl]
    have s1 : CDoes cap N G ⟨⟨[1], [(.aff, G), (.aff, (m : ℤ) • G)], List.replicate (m - 1) false⟩, []⟩ (.addTo 1 0)
        ⟨⟨[1], [(.aff, G), (.aff, ((m + 1 : ℕ) : ℤ) • G)], List.replicate (m - 1) false⟩, []⟩ := by
      have := CDoes.addTo (cap := cap) (N := N) (G := G) (e := ⟨⟨[1], [(.aff, G), (.aff, (m : ℤ) • G)], List.replicate (m - 1) false⟩, []⟩) (q := 1) (r := 0) rfl rfl
      have e : (m : ℤ) • G + G = ((m + 1 : ℕ) : ℤ) • G := by rw [natCast_zsmul, natCast_zsmul, succ_nsmul]
      rw [e] at this
      exact this
    have c2 : ∀ k, k = List.replicate (m - 1) false → counter (sight (W := shortW A B) ⟨⟨[1], [(.aff, G), (.aff, ((m + 1 : ℕ) : ℤ) • G)], k⟩, []⟩ ::
        sight (W := shortW A B) ⟨⟨[1], [(.aff, G), (.aff, (m : ℤ) • G)], k⟩, []⟩ :: h) = some (.decl (.ec (.isIdentity 1))) := by
      rintro _ rfl
      have : (List.replicate (m - 1) false).getLast? ≠ some true := fun h => by
        have := List.eq_of_mem_replicate (List.mem_of_getLast? h); cases this
      simp [counter, sight, this, hl]
      omega
    rcases j with _ | j
    · have z : ((m + 1 : ℕ) : ℤ) • G = 0 := by rw [show m + 1 = N by omega]; exact ord
      have s2 : CDoes cap N G ⟨⟨[1], [(.aff, G), (.aff, ((m + 1 : ℕ) : ℤ) • G)], List.replicate (m - 1) false⟩, []⟩ (.decl (.ec (.isIdentity 1)))
          ⟨⟨[1], [(.aff, G), (.aff, ((m + 1 : ℕ) : ℤ) • G)], List.replicate (m - 1) false ++ [true]⟩, []⟩ :=
        .decl (.ec (.isIdentity (q := 1) rfl ⟨fun _ => z, fun _ => rfl⟩))
      have v : sight (W := shortW A B) ⟨⟨[1], [(.aff, G), (.aff, ((m + 1 : ℕ) : ℤ) • G)], List.replicate (m - 1) false ++ [true]⟩, []⟩ =
          ⟨[1], [coords G, none], List.replicate (N - 2) false ++ [true], []⟩ := by
        unfold sight
        dsimp only [List.map]
        rw [z, show N - 2 = m - 1 by omega]
        rfl
      have fin : ∀ h', Plays cap N G counter n h' ⟨⟨[1], [(.aff, G), (.aff, ((m + 1 : ℕ) : ℤ) • G)], List.replicate (m - 1) false ++ [true]⟩, []⟩
          (sight (W := shortW A B) ⟨⟨[1], [(.aff, G), (.aff, ((m + 1 : ℕ) : ℤ) • G)], List.replicate (m - 1) false ++ [true]⟩, []⟩ :: h') := fun h' => by
        cases n with
        | zero => exact .out _ _
        | succ n => exact .done n (by simp [counter, sight])
      refine ⟨_, .step c1 s1 (.step (c2 _ rfl) s2 (fin _)), ?_, congrArg some v⟩
      simp only [List.length_cons, hl]
      omega
    · have z : ((m + 1 : ℕ) : ℤ) • G ≠ 0 := fun z => by
        have hd := addOrderOf_dvd_of_nsmul_eq_zero ((natCast_zsmul G N).symm.trans ord)
        have h1 : addOrderOf G = N := (np.eq_one_or_self_of_dvd _ hd).resolve_left fun h => h0 (AddMonoid.addOrderOf_eq_one_iff.1 h)
        have := Nat.le_of_dvd (by omega) (h1 ▸ addOrderOf_dvd_of_nsmul_eq_zero ((natCast_zsmul G (m + 1)).symm.trans z))
        omega
      have s2 : CDoes cap N G ⟨⟨[1], [(.aff, G), (.aff, ((m + 1 : ℕ) : ℤ) • G)], List.replicate (m - 1) false⟩, []⟩ (.decl (.ec (.isIdentity 1)))
          ⟨⟨[1], [(.aff, G), (.aff, ((m + 1 : ℕ) : ℤ) • G)], List.replicate (m - 1) false ++ [false]⟩, []⟩ :=
        .decl (.ec (.isIdentity (q := 1) rfl ⟨fun h => Bool.noConfusion h, fun h => absurd h z⟩))
      rw [show List.replicate (m - 1) false ++ [false] = List.replicate (m + 1 - 1) false by
        rw [← List.replicate_succ']; congr 1; omega] at s2
      obtain ⟨h', p, l, v⟩ := counter_loop np h0 ord j (m + 1)
        (sight (W := shortW A B) ⟨⟨[1], [(.aff, G), (.aff, ((m + 1 : ℕ) : ℤ) • G)], List.replicate (m - 1) false⟩, []⟩ ::
          sight (W := shortW A B) ⟨⟨[1], [(.aff, G), (.aff, (m : ℤ) • G)], List.replicate (m - 1) false⟩, []⟩ :: h) n (by omega) (by omega)
        (by simp only [List.length_cons, hl]; omega) (by omega)
      exact ⟨h', .step c1 s1 (.step (c2 _ rfl) s2 p), l, v⟩

/-- **C96**: the loop `do { R += G; } while (!R.is_identity());` that starts with R = G ends after N − 1 rounds, N the order of the
generator: it sees N − 2 times the answer no and then the answer yes, for every curve. -/
theorem C96_order (E : EcDomain K d N A B G) {n : ℕ} (hn : 2 * N < n) {fuel : ℕ} (hP : Spec.Passes P fuel) (hN : N.size ≤ fuel) :
    ∃ h, clientSees K fuel d counter n = .ok h ∧ h.length = 2 * N + 2 ∧
      h.head? = some ⟨[1], [coords G, none], List.replicate (N - 2) false ++ [true], []⟩ := by
  have h0 : G ≠ 0 := by
    obtain ⟨x, y, h, e, -⟩ := E.g
    rw [e]
    exact WeierstrassCurve.Affine.Point.some_ne_zero h
  have hN1 := E.np.two_le
  have fb : FitsBytes K.lim [1] := by
    intro M hM
    have hp := E.fits d.p (by simp) M hM
    have : 0 < d.p.length := List.length_pos_iff.2 fun h => by
      have := E.p
      have h8 := E.big
      rw [h] at this
      rw [← this] at h8
      exact absurd h8 (by decide)
    show 1 ≤ 4 * M
    omega
  obtain ⟨n, rfl⟩ : ∃ m, n = m + 3 := ⟨n - 3, by omega⟩
  have g : ∀ e : KEnv (shortW A B), e.ec.ints = [1] → KDoes K.lim N G e (.ec (.generate .aff 0)) { e with ec := { e.ec with pts := e.ec.pts ++ [(.aff, G)] } } := by
    intro e h
    have := KDoes.ec (e := e) (EcDoes.generate (cap := K.lim) (N := N) (G := G) (e := e.ec) .aff (i := 0) (x := 1) (by rw [h]; rfl) (by omega) (by omega) fun h => by cases h)
    rwa [one_smul] at this
  obtain ⟨h, p, l, v⟩ := counter_loop (A := A) (B := B) (G := G) (cap := K.lim) E.np h0 E.ord (N - 2) 1
    [sight (W := shortW A B) ⟨⟨[1], [(.aff, G)], []⟩, []⟩, sight (W := shortW A B) ⟨⟨[1], [], []⟩, []⟩, sight (W := shortW A B) ⟨⟨[], [], []⟩, []⟩] n
    (by omega) (by omega) rfl (by omega)
  refine ⟨h, C96_client E (.step (e1 := ⟨⟨[1], [], []⟩, []⟩) rfl (.decl (.ec (.int [1] fb))) (.step (e1 := ⟨⟨[1], [(.aff, G)], []⟩, []⟩) rfl (.decl (g _ rfl))
    (.step (e1 := ⟨⟨[1], [(.aff, G), (.aff, G)], []⟩, []⟩) rfl (.decl (g _ rfl)) ?_))) hP hN, l, v⟩
  rw [Nat.cast_one, one_smul] at p
  exact p

/-- The client `counter` only names declared variables. -/
theorem counter_declares (P N : ℕ) : Declares P N counter := by
  refine ⟨fun h xs ks n => (xs = if h.length = 0 then [] else [1]) ∧ ks = List.replicate (min (h.length - 1) 2) .aff ∧ n = 0, ⟨rfl, rfl, rfl⟩, ?_⟩
  rintro h xs ks n o ⟨rfl, rfl, rfl⟩ so t ht
  have h1 := so.ints
  have h2 := so.pts
  have two : ∀ k, 2 ≤ k → List.replicate (min k 2) Kd.aff = [.aff, .aff] := fun k hk => by rw [Nat.min_eq_right hk]; rfl
  rcases h with _ | ⟨o1, _ | ⟨o2, _ | ⟨o3, h⟩⟩⟩
  · simp only [counter, h1] at ht
    cases ht
    exact ⟨_, _, _, .decl (.ec (.int _)), rfl, rfl, rfl⟩
  · simp [counter, h1, h2] at ht
    subst ht
    exact ⟨_, _, _, .decl (.ec (.generate .aff (x := 1) rfl)), rfl, rfl, rfl⟩
  · simp [counter, h1, h2] at ht
    subst ht
    exact ⟨_, _, _, .decl (.ec (.generate .aff (x := 1) rfl)), rfl, rfl, rfl⟩
  · have k2 : List.replicate (min ((o1 :: o2 :: o3 :: h).length - 1) 2) Kd.aff = [.aff, .aff] := two _ (by simp)
    have k3 : List.replicate (min ((o :: o1 :: o2 :: o3 :: h).length - 1) 2) Kd.aff = [.aff, .aff] := two _ (by simp)
    rw [k2] at h2
    have h1 : o.ints = [1] := h1
    rw [k2]
    unfold counter at ht
    dsimp only at ht
    rw [if_neg (by rw [h1]; decide), if_neg (by rw [h2]; decide)] at ht
    by_cases hb : o.bools.getLast? = some true
    · rw [if_pos hb] at ht; cases ht
    rw [if_neg hb] at ht
    by_cases hl : (o1 :: o2 :: o3 :: h).length % 2 = 1
    · rw [if_pos hl] at ht
      cases ht
      exact ⟨_, _, _, .addTo (k := .aff) rfl rfl, rfl, k3.symm, rfl⟩
    · rw [if_neg hl] at ht
      cases ht
      exact ⟨_, _, _, .decl (.ec (.isIdentity (k := .aff) rfl)), rfl, k3.symm, rfl⟩

/-! ### On the curve of 211 points over the integers modulo 229 -/

example (K : Kind) (hK : K = ⟨8, false⟩ ∨ K = ⟨4, true⟩) : ∃ h, clientSees K 19 d229 counter 1000 = .ok h ∧ h.length = 424 ∧
    h.head? = some ⟨[1], [some (2, 5), none], List.replicate 209 false ++ [true], []⟩ :=
  C96_order (d229_dom K hK) (by decide) p229 n211

example (n : ℕ) : clientSees ⟨8, false⟩ 19 d229 counter n = .error .abort ∨
    ∃ h, clientSees ⟨8, false⟩ 19 d229 counter n = .ok h ∧ h.length ≤ n + 1 ∧ (h.length < n + 1 → counter h = none) :=
  C96_no_undefined (d229_dom ⟨8, false⟩ (Or.inl rfl)) (counter_declares _ _) n p229 n211

/-- Encodes the point 2 G and decodes what it sees of the encoding, with the other parity of y, into the variable of the point. -/
def echo : Client
  | [] => none
  | o :: h =>
    match o.ints, o.pts, o.bytes with
    | [], _, _ => some (.decl (.ec (.int [2])))
    | _, [], _ => some (.decl (.ec (.generate .aff 0)))
    | _, _, [] => some (.decl (.encode 0 true))
    | _, _, (t :: b) :: _ => if h.length = 3 then some (.set 0 (.decode ((t ^^^ 1) :: b))) else none
    | _, _, _ => none

example : (clientSees ⟨8, false⟩ 19 d229 echo 9).map (·.map (·.pts)) = .ok [[some (134, 92)], [some (134, 137)], [some (134, 137)], [], []] ∧
    (clientSees ⟨4, true⟩ 19 d229 echo 9).map (·.map (·.bytes)) = .ok [[[3, 134]], [[3, 134]], [], [], []] :=
  ⟨by decide +kernel, by decide +kernel⟩

/-- A client of the loop that generates points from the integers 210, 211, ..., until the library stops it. -/
def rising : Client
  | [] => none
  | o :: _ =>
    if o.ints.length = o.pts.length then some (.decl (.ec (.int [BitVec.ofNat 8 (210 + o.ints.length)])))
    else some (.decl (.ec (.generate .aff o.pts.length)))

example : Halts (W := ex229.W 229) (some 8) 211 G229 rising 4 [] ⟨⟨[], [], []⟩, []⟩ ∧ clientSees ⟨8, false⟩ 19 d229 rising 4 = .error .abort := by
  have h : Halts (W := ex229.W 229) (some 8) 211 G229 rising 4 [] ⟨⟨[], [], []⟩, []⟩ :=
    .step (e1 := ⟨⟨[210], [], []⟩, []⟩) rfl (.decl (.ec (.int [210] fun M h => by cases h; decide)))
      (.step (e1 := ⟨⟨[210], [(.aff, (210 : ℤ) • G229)], []⟩, []⟩) rfl (.decl (.ec (.generate .aff (i := 0) rfl (by decide) (by decide) fun h => by cases h)))
      (.step (e1 := ⟨⟨[210, 211], [(.aff, (210 : ℤ) • G229)], []⟩, []⟩) rfl (.decl (.ec (.int [211] fun M h => by cases h; decide)))
      (.stop 0 rfl (.decl (.ec (.generate .aff (i := 1) rfl (by decide)))))))
  exact ⟨h, C96_stops (d229_dom ⟨8, false⟩ (Or.inl rfl)) h p229 n211⟩

end Ack.Props
