import Verif.Props.Rsa
import Verif.Props.Sha
import Verif.Proof.RsaMem
/-!
# RSA verification in memory (C97)

The key, the signature and the digest are views of bytes of the caller, which may overlap in any way.  `A` places the objects the
functions make, at addresses that hold nothing, and says what an array that is not initialised contains.
-/
namespace Ack.Props
open Ack Ack.Big Ack.Spec.Bytes
open Ack.View (Spn Place MM)

/-- What a caller hands over: a view of the bytes `l`. -/
structure Shows (m : Memory) (p : Spn) (l : List Byte) : Prop where
  bytes : Holds m p.addr l
  size : p.len = l.length

def PkcsAlg.verifyM (A : Place) (me : ModExp) : PkcsAlg → (n e digest sig : Spn) → MM Bool
  | .sha1 => View.verifyRsaSha1M A me | .sha256 => View.verifyRsaSha256M A me
  | .sha384 => View.verifyRsaSha384M A me | .sha512 => View.verifyRsaSha512M A me

def PssAlg.verifyM (A : Place) (W : Nat) (me : ModExp) (host : HostHash) : PssAlg → Spn → Spn → Option (BitVec 32) → Spn → Spn → MM Bool
  | .sha1 => View.verifyRsaPssSha1M A W me host | .sha256 => View.verifyRsaPssSha256M A W me host
  | .sha384 => View.verifyRsaPssSha384M A W me | .sha512 => View.verifyRsaPssSha512M A W me host

def PssAlg.size : PssAlg → Nat
  | .sha1 => 20 | .sha256 => 32 | .sha384 => 48 | .sha512 => 64

/-- An allocator: 100 or 200 if there is room, otherwise somewhere.  Arrays that are not initialised hold `a5`. -/
noncomputable def somewhere : Place := fun m n =>
  (if (List.range n).all fun k => (m (100 + k)).isNone then 100
   else if (List.range n).all fun k => (m (200 + k)).isNone then 200
   else if (List.range n).all fun k => (m (300 + k)).isNone then 300
   else if (List.range n).all fun k => (m (400 + k)).isNone then 400
   else open Classical in if h : Finite m then h.choose else 0, fun _ => 0xa5)

theorem somewhere_allocates : Allocates fun m n => (somewhere m n).1 := by
  intro m n h k hk
  unfold somewhere
  dsimp only
  have test : ∀ b, (List.range n).all (fun k => (m (b + k)).isNone) = true → m (b + k) = none := by
    intro b hb
    have := List.all_eq_true.1 hb k (List.mem_range.2 hk)
    simpa using this
  split
  · exact test _ ‹_›
  split
  · exact test _ ‹_›
  split
  · exact test _ ‹_›
  split
  · exact test _ ‹_›
  exact h.choose_spec _ (by omega)

/-- The byte memory with `l` at 0 and nothing else. -/
def only (l : List Byte) : Memory := fun a => l[a]?

theorem only_finite (l : List Byte) : Finite (only l) := ⟨l.length, fun _ h => List.getElem?_eq_none h⟩

theorem only_holds {l x : List Byte} {a : Nat} (h : (l.drop a).take x.length = x) : Holds (only l) a x := by
  intro k b hb
  have hk : k < x.length := (List.getElem?_eq_some_iff.1 hb).1
  rw [← h, List.getElem?_take_of_lt hk, List.getElem?_drop] at hb
  exact hb

/-- C97: PKCS #1 v1.5 verification works the same in memory: whatever the addresses and overlaps of the views, whatever the allocator and
the content of arrays that are not initialised, it returns what the function on byte strings returns, and fails as it fails; and when it
returns, every byte of memory is as it was. -/
theorem C97_pkcs1 (alg : PkcsAlg) (A : Place) (hA : Allocates fun m n => (A m n).1) (me : ModExp) (hme : View.Sized me) (m : Memory) (hm : Finite m)
    (n e digest sig : Spn) (nl el dl sl : List Byte) (hn : Shows m n nl) (he : Shows m e el) (hd : Shows m digest dl) (hs : Shows m sig sl)
    (hl : dl.length = alg.size) : alg.verifyM A me n e digest sig m = (alg.verify me nl el dl sl).map (·, m) := by
  rw [verify_eq alg me nl el dl sl hl]
  have V : ∀ (pfx : List Byte) (k : Nat), dl.length = k →
      View.verifyRsaM A me pfx k n e digest sig m = (pkcs1Verify me (pfx ++ dl).length nl el sl (.ok (pfx ++ dl))).map (·, m) := by
    intro pfx k hk
    rw [List.length_append, hk]
    exact View.verifyRsa_mem (View.place_of hA) hme hm (View.at_of hs.bytes) hs.size.symm (View.at_of he.bytes) he.size.symm (View.at_of hn.bytes) hn.size.symm
      (View.at_of hd.bytes) hd.size.symm (by rw [hd.size, hk])
  cases alg
  · exact V sha1Prefix 20 hl
  · exact V sha256Prefix 32 hl
  · exact V sha384Prefix 48 hl
  · exact V sha512Prefix 64 hl

/-- C97: PSS verification works the same in memory, although it unmasks the recovered message in place, under a view of its end. -/
theorem C97_pss (W : Nat) (H : Hash) (hLen : Nat) (A : Place) (hA : Allocates fun m n => (A m n).1) (me : ModExp) (hme : View.Sized me) (m : Memory)
    (hm : Finite m) (n e digest sig : Spn) (salt : Option (BitVec 32)) (nl el dl sl : List Byte) (hn : Shows m n nl) (he : Shows m e el)
    (hd : Shows m digest dl) (hs : Shows m sig sl) (hl : dl.length = hLen) :
    View.pssVerifyM A W me H hLen n e salt digest sig m = (pssVerify W me H hLen nl el salt dl sl).map (·, m) :=
  View.pssVerify_mem (View.place_of hA) hme hm (View.at_of hs.bytes) hs.size.symm (View.at_of he.bytes) he.size.symm (View.at_of hn.bytes) hn.size.symm
    (View.at_of hd.bytes) hd.size.symm (by rw [hd.size, hl])

/-- C97: the same for the four entry points. -/
theorem C97_pss_entry (alg : PssAlg) (W : Nat) (host : HostHash) (A : Place) (hA : Allocates fun m n => (A m n).1) (me : ModExp) (hme : View.Sized me)
    (m : Memory) (hm : Finite m) (n e digest sig : Spn) (salt : Option (BitVec 32)) (nl el dl sl : List Byte) (hn : Shows m n nl) (he : Shows m e el)
    (hd : Shows m digest dl) (hs : Shows m sig sl) (hl : dl.length = alg.size) :
    alg.verifyM A W me host n e salt digest sig m = (alg.verify W me host nl el salt dl sl).map (·, m) := by
  cases alg
  · exact C97_pss W host.sha1 20 A hA me hme m hm n e digest sig salt nl el dl sl hn he hd hs hl
  · exact C97_pss W host.sha256 32 A hA me hme m hm n e digest sig salt nl el dl sl hn he hd hs hl
  · exact C97_pss W sha384Hash 48 A hA me hme m hm n e digest sig salt nl el dl sl hn he hd hs hl
  · exact C97_pss W host.sha512 64 A hA me hme m hm n e digest sig salt nl el dl sl hn he hd hs hl

/-- C97: with the host's exponentiation, verification in memory accepts exactly the signatures of RFC 8017 with the range test of C46, runs
into no undefined behaviour and leaves memory as it was. -/
theorem C97_pkcs1_rfc (alg : PkcsAlg) (A : Place) (hA : Allocates fun m n => (A m n).1) (m : Memory) (hm : Finite m) (n e digest sig : Spn)
    (nl el dl sl : List Byte) (hn : Shows m n nl) (he : Shows m e el) (hd : Shows m digest dl) (hs : Shows m sig sl) (hl : dl.length = alg.size)
    (hn0 : beVal nl ≠ 0) (he0 : el ≠ []) (he64 : beVal el < 2 ^ 64) :
    ∃ b, alg.verifyM A hostModExp n e digest sig m = .ok (b, m) ∧ (b = true ↔ Spec.Pkcs1Loose nl el (alg.der ++ dl) sl) := by
  obtain ⟨b, h1, h2⟩ := C48_exact alg hostModExp nl el dl sl hl (by rintro rfl; exact hn0 rfl) (C48_host_all _ _ hn0) he0 he64
  exact ⟨b, by rw [C97_pkcs1 alg A hA hostModExp View.host_sized m hm n e digest sig nl el dl sl hn he hd hs hl, h1]; rfl, h2⟩

theorem C97_pss_rfc (W : Nat) (H : Hash) (hLen : Nat) (A : Place) (hA : Allocates fun m n => (A m n).1) (m : Memory) (hm : Finite m)
    (n e digest sig : Spn) (salt : Option (BitVec 32)) (nl el dl sl : List Byte) (hn : Shows m n nl) (he : Shows m e el) (hd : Shows m digest dl)
    (hs : Shows m sig sl) (hl : dl.length = hLen) (hn0 : beVal nl ≠ 0) (he0 : el ≠ []) (he64 : beVal el < 2 ^ 64) (hH : ∀ x, (H x).length = hLen)
    (h0 : 0 < hLen) (hW : 8 + hLen + (salt.map BitVec.toNat).getD hLen < 2 ^ W) :
    ∃ b, View.pssVerifyM A W hostModExp H hLen n e salt digest sig m = .ok (b, m) ∧
      (b = true ↔ Spec.PssLoose H hLen ((salt.map BitVec.toNat).getD hLen) nl el dl sl) := by
  obtain ⟨b, h1, h2⟩ := C49_exact W hostModExp H hLen nl el dl sl salt (by rintro rfl; exact hn0 rfl) (C48_host_all _ _ hn0) he0 he64 hH h0 hl hW
  exact ⟨b, by rw [C97_pss W H hLen A hA hostModExp View.host_sized m hm n e digest sig salt nl el dl sl hn he hd hs hl, h1]; rfl, h2⟩

/-- Both exponentiations give as many bytes as the modulus has. -/
theorem C97_sized : View.Sized hostModExp ∧ View.Sized Powm.swModExp := ⟨View.host_sized, View.sw_sized⟩

/-- Modulus, signature, exponent and digest lie in one string; a signature that is accepted. -/
example : PkcsAlg.sha1.verifyM somewhere hostModExp ⟨0, 46⟩ ⟨92, 1⟩ ⟨93, 20⟩ ⟨46, 46⟩ (only (rsaN ++ rsaS ++ [3] ++ rsaDigest)) =
    .ok (true, only (rsaN ++ rsaS ++ [3] ++ rsaDigest)) := by
  rw [C97_pkcs1 .sha1 somewhere somewhere_allocates hostModExp View.host_sized _ (only_finite _) _ _ _ _ rsaN [3] rsaDigest rsaS
    ⟨only_holds (by decide), rfl⟩ ⟨only_holds (by decide), rfl⟩ ⟨only_holds (by decide), rfl⟩ ⟨only_holds (by decide), rfl⟩ rfl]
  have : PkcsAlg.sha1.verify hostModExp rsaN [3] rsaDigest rsaS = .ok true := by decide +kernel
  rw [this]; rfl

/-- The views overlap: the digest is part of the modulus, the exponent one of its bytes and the signature the modulus itself: a refusal. -/
example : PkcsAlg.sha1.verifyM somewhere hostModExp ⟨0, 46⟩ ⟨5, 1⟩ ⟨7, 20⟩ ⟨0, 46⟩ (only rsaN) = .ok (false, only rsaN) := by
  rw [C97_pkcs1 .sha1 somewhere somewhere_allocates hostModExp View.host_sized _ (only_finite _) _ _ _ _ rsaN [0x9f] ((rsaN.drop 7).take 20) rsaN
    ⟨only_holds (by decide), rfl⟩ ⟨only_holds (by decide), rfl⟩ ⟨only_holds (by decide), rfl⟩ ⟨only_holds (by decide), rfl⟩ rfl]
  have : PkcsAlg.sha1.verify hostModExp rsaN [0x9f] ((rsaN.drop 7).take 20) rsaN = .ok false := by decide +kernel
  rw [this]; rfl

example : View.pssVerifyM somewhere 32 hostModExp toyHash 1 ⟨0, 6⟩ ⟨6, 1⟩ (some 2) ⟨7, 1⟩ ⟨8, 6⟩
      (only [192, 13, 211, 136, 26, 81, 3, 0x5a, 30, 183, 74, 249, 140, 208]) =
    .ok (true, only [192, 13, 211, 136, 26, 81, 3, 0x5a, 30, 183, 74, 249, 140, 208]) := by
  rw [C97_pss 32 toyHash 1 somewhere somewhere_allocates hostModExp View.host_sized _ (only_finite _) _ _ _ _ (some 2) [192, 13, 211, 136, 26, 81] [3] [0x5a]
    [30, 183, 74, 249, 140, 208]
    ⟨only_holds (by decide), rfl⟩ ⟨only_holds (by decide), rfl⟩ ⟨only_holds (by decide), rfl⟩ ⟨only_holds (by decide), rfl⟩ rfl]
  have : pssVerify 32 hostModExp toyHash 1 [192, 13, 211, 136, 26, 81] [3] (some 2) [0x5a] [30, 183, 74, 249, 140, 208] = .ok true := by decide +kernel
  rw [this]; rfl

/-- C97: mask generation writes the mask of RFC 8017 to the given part of memory, and nothing else, if the seed does not overlap it. -/
theorem C97_mgf1 (A : Place) (hA : Allocates fun m n => (A m n).1) (H : Hash) (hLen : Nat) (hH : ∀ x, (H x).length = hLen) (h0 : 0 < hLen) (m : Memory)
    (hm : Finite m) (seed mask : Spn) (sd mk : List Byte) (hs : Shows m seed sd) (hk : Shows m mask mk)
    (hd : Disjoint seed.addr seed.len mask.addr mask.len) :
    ∃ m', View.mgf1M A H View.memcpy seed mask m = .ok ((), m') ∧ Written m mask.addr (Spec.mgf1 H hLen sd mask.len) m' := by
  have G := View.mgf1_mem (View.place_of hA) View.memcpy_copy copyBytes_is (H := H) hm (View.at_of hs.bytes) hs.size.symm (View.at_of hk.bytes) hk.size.symm
    (View.sep_of hd)
  rw [C50_mgf1 H hLen hH h0] at G
  rw [hk.size]
  exact ⟨_, G.2, View.written_of⟩

/-- C97: with `memxor` it xors the mask onto the bytes that are there. -/
theorem C97_mgf1_xor (A : Place) (hA : Allocates fun m n => (A m n).1) (H : Hash) (hLen : Nat) (hH : ∀ x, (H x).length = hLen) (h0 : 0 < hLen) (m : Memory)
    (hm : Finite m) (seed mask : Spn) (sd mk : List Byte) (hs : Shows m seed sd) (hk : Shows m mask mk)
    (hd : Disjoint seed.addr seed.len mask.addr mask.len) :
    ∃ m', View.mgf1M A H View.xorM seed mask m = .ok ((), m') ∧
      Written m mask.addr (List.zipWith (· ^^^ ·) mk (Spec.mgf1 H hLen sd mask.len)) m' := by
  have G := View.mgf1_mem (View.place_of hA) View.xor_copy memxor_is (H := H) hm (View.at_of hs.bytes) hs.size.symm (View.at_of hk.bytes) hk.size.symm
    (View.sep_of hd)
  rw [C50_mgf1_xor H hLen hH h0] at G
  rw [hk.size]
  exact ⟨_, G.2, View.written_of⟩

/-- A seed of two bytes beside a mask of five. -/
example : ∃ m', View.mgf1M somewhere toyHash View.memcpy ⟨0, 2⟩ ⟨2, 5⟩ (only [1, 2, 0, 0, 0, 0, 0]) = .ok ((), m') ∧
    Written (only [1, 2, 0, 0, 0, 0, 0]) 2 (Spec.mgf1 toyHash 1 [1, 2] 5) m' :=
  C97_mgf1 somewhere somewhere_allocates toyHash 1 (fun _ => rfl) (by decide) _ (only_finite _) ⟨0, 2⟩ ⟨2, 5⟩ [1, 2] [0, 0, 0, 0, 0]
    ⟨only_holds (by decide), rfl⟩ ⟨only_holds (by decide), rfl⟩ (by intro x; simp; omega)

/-- What the bytes at 0, 1, 2 are after a step. -/
def firstThree (r : Res (Unit × Memory)) : Option (List (Option Byte)) :=
  match r with
  | .ok (_, m) => some [m 0, m 1, m 2]
  | .error _ => none

/-- C97: a seed that overlaps the mask is overwritten between blocks: the mask is not that of the seed. -/
theorem C97_mgf1_overlap : ∃ l, firstThree (View.mgf1M somewhere toyHash View.memcpy ⟨0, 2⟩ ⟨0, 3⟩ (only [1, 2, 3])) = some (l.map some) ∧
    l.length = 3 ∧ l ≠ Spec.mgf1 toyHash 1 [1, 2] 3 := by
  refine ⟨[0xf0, 0xce, 0x5b], ?_, rfl, ?_⟩
  · decide +kernel
  · decide +kernel

end Ack.Props
