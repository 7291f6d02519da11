import Verif.Props.PssAny
import Verif.Props.RsaBind
/-!
# C69 for two salt lengths, and for the contract's actions

`C69_pss_any` compares two calls with one salt length.  Here the salt lengths may differ, and the two calls are actions of the contract.
-/
namespace Ack.Props
open Ack Big

/-- A `01` after zeros marks where the salt begins. -/
theorem salt_inj {s t : List Byte} : ∀ a b : Nat,
    List.replicate a (0x00 : Byte) ++ [0x01] ++ s = List.replicate b (0x00 : Byte) ++ [0x01] ++ t → s = t
  | 0, 0, h => by simpa using h
  | 0, b + 1, h => by simp [List.replicate_succ] at h
  | a + 1, 0, h => by simp [List.replicate_succ] at h
  | a + 1, b + 1, h => by
    simp only [List.replicate_succ, List.cons_append, List.cons.injEq, true_and] at h
    exact salt_inj a b h

theorem loose_pkcs1 {n e T U sig : List Byte} (h1 : Spec.Pkcs1Loose n e T sig) (h2 : Spec.Pkcs1Loose n e U sig) : T = U := by
  obtain ⟨_, _, E1, i1, w1⟩ := h1
  obtain ⟨_, _, E2, i2, w2⟩ := h2
  have hE : E1 = E2 := beVal_inj (by rw [i1.choose_spec.2.2, i2.choose_spec.2.2]) (by omega)
  subst hE
  exact emsa_inj i1 i2

theorem der_inj {a b : PkcsAlg} {d1 d2 : List Byte} (hT : a.der ++ d1 = b.der ++ d2) : a = b ∧ d1 = d2 := by
  have hd : a = b := by
    cases a <;> cases b <;> first | rfl | (simp [PkcsAlg.der] at hT)
  subst hd
  exact ⟨rfl, List.append_cancel_left hT⟩

theorem loose_pss {H : Hash} {hLen s1 s2 : Nat} {n e d1 d2 sig : List Byte} (h1 : Spec.PssLoose H hLen s1 n e d1 sig)
    (h2 : Spec.PssLoose H hLen s2 n e d2 sig) : s1 = s2 ∧ ∃ salt : List Byte, salt.length = s1 ∧
      H (List.replicate 8 0x00 ++ d1 ++ salt) = H (List.replicate 8 0x00 ++ d2 ++ salt) := by
  obtain ⟨_, _, E1, l1, v1, z1, m1, H1, t1, e1, ml1, hl1, p1, c1, sl1, k1⟩ := h1
  obtain ⟨_, _, E2, l2, v2, z2, m2, H2, t2, e2, ml2, hl2, p2, c2, sl2, k2⟩ := h2
  have hE : E1 = E2 := beVal_inj (by omega) (by omega)
  rw [e1, e2] at hE
  have a1 := List.append_inj' hE rfl
  have a2 := List.append_inj a1.1 (by rw [ml1, ml2])
  obtain ⟨rfl, rfl⟩ := a2
  rw [c1] at c2
  have a3 := salt_inj _ _ c2
  subst a3
  exact ⟨sl1.symm.trans sl2, t1, sl1, k1.trans k2.symm⟩

/-- C69: **a PSS signature accepted twice under one key**, whatever the modulus and the salt lengths of the two calls, was accepted
with one salt length, and the two digests exhibit a collision of the hash function. -/
theorem C69_pss_salts (W : Nat) (me : ModExp) (H : Hash) (hLen : Nat) (n e d1 d2 sig : List Byte) (s1 s2 : Option (BitVec 32))
    (hn : n ≠ []) (hme : ModExpAll me n e) (he : e ≠ []) (he64 : beVal e < 2 ^ 64) (hH : ∀ x, (H x).length = hLen) (h0 : 0 < hLen)
    (l1 : d1.length = hLen) (l2 : d2.length = hLen) (v1 : pssVerify W me H hLen n e s1 d1 sig = .ok true)
    (v2 : pssVerify W me H hLen n e s2 d2 sig = .ok true) :
    (s1.map BitVec.toNat).getD hLen = (s2.map BitVec.toNat).getD hLen ∧
      ∃ salt : List Byte, salt.length = (s1.map BitVec.toNat).getD hLen ∧
        H (List.replicate 8 0x00 ++ d1 ++ salt) = H (List.replicate 8 0x00 ++ d2 ++ salt) := by
  have key : ∀ (s : Option (BitVec 32)) (d : List Byte), d.length = hLen → pssVerify W me H hLen n e s d sig = .ok true →
      Spec.PssLoose H hLen ((s.map BitVec.toNat).getD hLen) n e d sig := by
    intro s d l v
    by_cases hW : 8 + hLen + (s.map BitVec.toNat).getD hLen < 2 ^ W
    · obtain ⟨b, hb, ib⟩ := C49_exact W me H hLen n e d sig s hn hme he he64 hH h0 l hW
      rw [v] at hb; cases hb
      exact ib.1 rfl
    · exact absurd v (C49_wrapped W me H hLen n e d sig s (not_lt.1 hW))
  exact loose_pss (key s1 d1 l1 v1) (key s2 d2 l2 v2)

/-- The accepted signature of C49: its salt has length two, whatever length is passed. -/
example (s : BitVec 32) (d : Byte)
    (h : pssVerify 32 hostModExp toyHash 1 [120, 145, 97, 57, 76, 17] [3] (some s) [d] [4, 76, 8, 136, 165, 138] = .ok true) :
    s.toNat = 2 :=
  (C69_pss_salts 32 hostModExp toyHash 1 _ [3] [d] [0x5a] _ (some s) (some 2) (by decide)
    (C48_host_all _ _ (by decide +kernel)) (by decide) (by decide) (fun _ => rfl) (by decide) rfl rfl h (by decide +kernel)).1

/-- C69: **a signature accepted by two PKCS #1 v1.5 actions of the contract under one key**, for whatever two messages, was accepted
twice by one action, and the two messages have the same hash. -/
theorem C69_actions (a b : RsaAction) (host : HostHash) (L : HostLengths host) (n e m1 m2 sig : List Byte) (h1 : m1.length < 2 ^ 64)
    (h2 : m2.length < 2 ^ 64) (v1 : RsaAction.run hostModExp host a n e m1 sig = .ok ())
    (v2 : RsaAction.run hostModExp host b n e m2 sig = .ok ()) : a = b ∧ rsaHash host a m1 = rsaHash host a m2 := by
  obtain ⟨_, _, _, i1⟩ := (C76_rsa_exact a host L n e m1 sig h1).1.1 v1
  obtain ⟨_, _, _, i2⟩ := (C76_rsa_exact b host L n e m2 sig h2).1.1 v2
  obtain ⟨hA, hD⟩ := der_inj (loose_pkcs1 i1 i2)
  have hab : a = b := by cases a <;> cases b <;> first | rfl | (simp [RsaAction.alg] at hA)
  subst hab
  exact ⟨rfl, hD⟩

/-- A host with the digest of C46 and C48. -/
def bindHost : HostHash := ⟨fun _ => rsaDigest, fun _ => List.replicate 32 0, fun _ => List.replicate 64 0⟩

/-- The accepted call of C76 meets the hypotheses: no other action accepts its signature, for any message. -/
example (b : RsaAction) (m : List Byte) (hm : m.length < 2 ^ 64) (h : RsaAction.run hostModExp bindHost b rsaN [3] m rsaS = .ok ()) :
    b = .sha1 :=
  (C69_actions b .sha1 bindHost ⟨fun _ => rfl, fun _ => rfl, fun _ => rfl⟩ rsaN [3] m [] rsaS hm (by decide) h (by decide +kernel)).1

/-- C69: **a signature accepted twice by a PSS action of the contract under one key**, for whatever two messages and salt lengths:
the salt lengths are equal, and the action's hash function takes one value on the two encodings of RFC 8017, which differ unless the
two messages have the same hash. -/
theorem C69_pss_actions (W : Nat) (hW64 : W ≤ 64) (a : RsaAction) (host : HostHash) (L : HostLengths host) (n e m1 m2 sig : List Byte)
    (s1 s2 : Option (BitVec 32)) (h1 : m1.length < 2 ^ 64) (h2 : m2.length < 2 ^ 64) (hl : n.length + 6 < 2 ^ W)
    (v1 : RsaAction.runPss W hostModExp host a n e s1 m1 sig = .ok ()) (v2 : RsaAction.runPss W hostModExp host a n e s2 m2 sig = .ok ()) :
    (s1.map BitVec.toNat).getD (RsaAction.alg a).size = (s2.map BitVec.toNat).getD (RsaAction.alg a).size ∧
      ∃ salt : List Byte, salt.length = (s1.map BitVec.toNat).getD (RsaAction.alg a).size ∧
        rsaHash host a (List.replicate 8 0x00 ++ rsaHash host a m1 ++ salt) =
          rsaHash host a (List.replicate 8 0x00 ++ rsaHash host a m2 ++ salt) ∧
        (rsaHash host a m1 ≠ rsaHash host a m2 →
          List.replicate 8 0x00 ++ rsaHash host a m1 ++ salt ≠ List.replicate 8 0x00 ++ rsaHash host a m2 ++ salt) := by
  obtain ⟨_, _, _, i1⟩ := (C76_pss_accept W hW64 a host L n e m1 sig s1 h1 hl).1 v1
  obtain ⟨_, _, _, i2⟩ := (C76_pss_accept W hW64 a host L n e m2 sig s2 h2 hl).1 v2
  obtain ⟨hs, salt, hl, hc⟩ := loose_pss i1 i2
  exact ⟨hs, salt, hl, hc, fun hh hx => hh (List.append_cancel_left (List.append_cancel_right hx))⟩

/-- A call of the action `rsapsssha1` that completes, with exponent one and an empty salt. -/
example : RsaAction.runPss 32 hostModExp bindHost .sha1 (List.replicate 22 0xff) [1] (some 0) [7]
    ([0x00] ++ rsaDigest ++ [0xbc]) = .ok () := by decide +kernel

end Ack.Props
