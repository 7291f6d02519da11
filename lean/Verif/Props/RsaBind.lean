import Verif.Proof.RsaBind
import Verif.Props.Rsa
/-! # One RSA signature fixes one digest, whatever computes the power -/
namespace Ack.Props
open Big (Byte)

/-- C69: for every key, every exponent and every exponentiation routine, right or wrong, a PKCS #1 v1.5 signature is accepted for one hash
function and one digest at most. -/
theorem C69_pkcs1_any (a b : PkcsAlg) (me : ModExp) (n e d1 d2 sig : List Byte) (h1 : d1.length = a.size) (h2 : d2.length = b.size)
    (v1 : a.verify me n e d1 sig = .ok true) (v2 : b.verify me n e d2 sig = .ok true) : a = b ∧ d1 = d2 := by
  rw [verify_eq a me n e d1 sig h1] at v1
  rw [verify_eq b me n e d2 sig h2] at v2
  obtain ⟨em, r1, i1⟩ := pkcs1_accepted v1
  obtain ⟨em', r2, i2⟩ := pkcs1_accepted v2
  obtain rfl : em = em' := Except.ok.inj (r1.symm.trans r2)
  have hT := emsa_inj i1 i2
  have hd : a = b := by
    cases a <;> cases b <;> first | rfl | (simp [PkcsAlg.der] at hT)
  subst hd
  exact ⟨rfl, List.append_cancel_left hT⟩

/-- The signature of C48 and all other digests. -/
example (d : List Byte) (hd : d.length = 20) (h : PkcsAlg.sha1.verify hostModExp rsaN [3] d rsaS = .ok true) : d = rsaDigest :=
  (C69_pkcs1_any .sha1 .sha1 hostModExp rsaN [3] d rsaDigest rsaS hd rfl h (by decide +kernel)).2

/-- C69: the same for PSS, up to a collision of the hash function, for every modulus, exponent, salt length and width of `size_t`. -/
theorem C69_pss_any (W : Nat) (me : ModExp) (H : Hash) (hLen : Nat) (n e d1 d2 sig : List Byte) (saltLen : Option (BitVec 32))
    (hH : ∀ x, (H x).length = hLen)
    (v1 : pssVerify W me H hLen n e saltLen d1 sig = .ok true) (v2 : pssVerify W me H hLen n e saltLen d2 sig = .ok true) :
    ∃ salt : List Byte, salt.length = (saltLen.map BitVec.toNat).getD hLen ∧
      H (List.replicate 8 0x00 ++ d1 ++ salt) = H (List.replicate 8 0x00 ++ d2 ++ salt) := pss_accepted hH v1 v2

/-- The modulus of `C49_accepts_invalid`, whose top bit is clear: another digest with the same signature collides. -/
example (d : List Byte) (h : pssVerify 32 hostModExp toyHash 1 [120, 145, 97, 57, 76, 17] [3] (some 2) d [4, 76, 8, 136, 165, 138] = .ok true) :
    ∃ salt : List Byte, salt.length = 2 ∧ toyHash (List.replicate 8 0x00 ++ d ++ salt) = toyHash (List.replicate 8 0x00 ++ [0x5a] ++ salt) :=
  C69_pss_any 32 hostModExp toyHash 1 _ [3] d [0x5a] _ (some 2) (fun _ => rfl) h (by decide +kernel)

end Ack.Props
