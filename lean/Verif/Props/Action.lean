import Verif.Proof.Action
import Verif.Props.Contract
/-! # Serialised keys and action data (C90) -/
namespace Ack.Props
open Spec.Wire

/-- **C90**: reading byte views from any bytes has exactly one of three outcomes, given by the wire format: the byte strings and what
follows them; a failed check if the bytes end within a length; undefined behaviour if a length is more than what is left or does not
end. -/
theorem C90_views (k : ℕ) (data : List Byte) :
    (∀ ds rest, readViews k data = .ok (ds, rest) ↔ ds.length = k ∧ ∃ st, Packs ds st ∧ data = st ++ rest) ∧
    (readViews k data = .error .abort ↔ ∃ ds st rest, ds.length < k ∧ Packs ds st ∧ data = st ++ rest ∧ Cut rest) ∧
    (readViews k data = .error .ub ↔ ∃ ds st rest, ds.length < k ∧ Packs ds st ∧ data = st ++ rest ∧ (NoEnd rest ∨ TooShort rest)) := by
  refine ⟨fun ds rest => ⟨fun h => ?_, ?_⟩, ⟨fun h => ?_, ?_⟩, ⟨fun h => ?_, ?_⟩⟩
  · rcases readViews_cases k data with ⟨ds', st, rest', h1, h2, h3, h4⟩ | ⟨-, h5⟩ | ⟨-, h5⟩
    · rw [h] at h4; cases h4; exact ⟨h1, st, h2, h3⟩
    · rw [h] at h5; cases h5
    · rw [h] at h5; cases h5
  · rintro ⟨rfl, st, h, rfl⟩; exact readViews_ok h rest
  · rcases readViews_cases k data with ⟨ds', st, rest', h1, h2, h3, h4⟩ | ⟨h4, -⟩ | ⟨-, h5⟩
    · rw [h] at h4; cases h4
    · exact h4
    · rw [h] at h5; cases h5
  · rintro ⟨ds, st, rest, h1, h2, rfl, h3⟩; exact readViews_bad h2 h1 (deserView_cut h3)
  · rcases readViews_cases k data with ⟨ds', st, rest', h1, h2, h3, h4⟩ | ⟨-, h5⟩ | ⟨h4, -⟩
    · rw [h] at h4; cases h4
    · rw [h] at h5; cases h5
    · exact h4
  · rintro ⟨ds, st, rest, h1, h2, rfl, h3⟩; exact readViews_bad h2 h1 (deserView_bad h3)

/-- **C90**: byte strings of fewer than 2³² bytes each have a serialisation, which `operator<<` writes. -/
theorem C90_write (ds : List (List Byte)) (h : ∀ d ∈ ds, d.length < 2 ^ 32) : ∃ st, writeViews ds = .ok st ∧ Packs ds st := writeViews_packs ds h

/-- **C90**: an ECDSA action on the serialisation of its arguments does what it does on the arguments, whatever follows; it succeeds on
no other data. -/
theorem C90_ecdsa (wasm : Bool) (addr : Nat) (host : HostHash) (a : EcdsaAction) :
    (∀ qx qy msg r s st rest, Packs [qx, qy, msg, r, s] st → a.onData wasm addr host (st ++ rest) = a.run wasm addr host qx qy msg r s) ∧
    ∀ data, a.onData wasm addr host data = .ok () → ∃ qx qy msg r s st rest, Packs [qx, qy, msg, r, s] st ∧ data = st ++ rest ∧
      a.run wasm addr host qx qy msg r s = .ok () := by
  have key : ∀ qx qy msg r s st rest, Packs [qx, qy, msg, r, s] st → a.onData wasm addr host (st ++ rest) = a.run wasm addr host qx qy msg r s := by
    intro qx qy msg r s st rest h
    rw [ecdsa_data, show 5 = [qx, qy, msg, r, s].length from rfl, readViews_ok h, ok_bind]
  refine ⟨key, fun data h => ?_⟩
  rcases readViews_cases 5 data with ⟨ds, st, rest, h1, h2, h3, h4⟩ | ⟨-, h5⟩ | ⟨-, h5⟩
  · match ds, h1 with
    | [qx, qy, msg, r, s], _ => exact ⟨qx, qy, msg, r, s, st, rest, h2, h3, by rw [← key _ _ _ _ _ st rest h2, ← h3]; exact h⟩
  · rw [ecdsa_data, h5] at h; cases h
  · rw [ecdsa_data, h5] at h; cases h

/-- **C90**, the exact set of data on which an ECDSA action has undefined behaviour: one of the five lengths is more than what is left or
does not end. -/
theorem C90_ecdsa_partial (wasm : Bool) (addr : Nat) (host : HostHash) (a : EcdsaAction) (data : List Byte) :
    a.onData wasm addr host data = .error .ub ↔
      ∃ ds st rest, ds.length < 5 ∧ Packs ds st ∧ data = st ++ rest ∧ (NoEnd rest ∨ TooShort rest) := by
  rw [← (C90_views 5 data).2.2, ecdsa_data]
  refine ⟨fun h => ?_, fun h => by rw [h]; rfl⟩
  rcases readViews_cases 5 data with ⟨ds, st, rest, h1, h2, h3, h4⟩ | ⟨-, h5⟩ | ⟨-, h5⟩
  · exfalso
    rw [h4, ok_bind] at h
    match ds, h1 with
    | [qx, qy, msg, r, s], _ =>
      obtain ⟨_, _, _, _, _, _, _, _, _, hr⟩ := C75_total a wasm addr host
      have h : a.run wasm addr host qx qy msg r s = .error .ub := h
      rcases hr qx qy msg r s with e | ⟨e, -⟩ <;> rw [e] at h <;> cases h
  · rw [h5] at h; cases h
  · exact h5

/-- **C90**: the same for the PKCS #1 v1.5 actions, for every exponentiation routine. -/
theorem C90_rsa (me : ModExp) (host : HostHash) (a : RsaAction) :
    (∀ n e msg sig st rest, Packs [n, e, msg, sig] st → a.onData me host (st ++ rest) = a.run me host n e msg sig) ∧
    ∀ data, a.onData me host data = .ok () → ∃ n e msg sig st rest, Packs [n, e, msg, sig] st ∧ data = st ++ rest ∧
      a.run me host n e msg sig = .ok () := by
  have key : ∀ n e msg sig st rest, Packs [n, e, msg, sig] st → a.onData me host (st ++ rest) = a.run me host n e msg sig := by
    intro n e msg sig st rest h
    rw [rsa_data, show 4 = [n, e, msg, sig].length from rfl, readViews_ok h, ok_bind]
  refine ⟨key, fun data h => ?_⟩
  rcases readViews_cases 4 data with ⟨ds, st, rest, h1, h2, h3, h4⟩ | ⟨-, h5⟩ | ⟨-, h5⟩
  · match ds, h1 with
    | [n, e, msg, sig], _ => exact ⟨n, e, msg, sig, st, rest, h2, h3, by rw [← key _ _ _ _ st rest h2, ← h3]; exact h⟩
  · rw [rsa_data, h5] at h; cases h
  · rw [rsa_data, h5] at h; cases h

/-- **C90**: the exact set of data on which a PKCS #1 v1.5 action has undefined behaviour with the exponentiation of the host. -/
theorem C90_rsa_partial (host : HostHash) (L : HostLengths host) (a : RsaAction) (data : List Byte) (hd : data.length < 2 ^ 64) :
    a.onData hostModExp host data = .error .ub ↔
      ∃ ds st rest, ds.length < 4 ∧ Packs ds st ∧ data = st ++ rest ∧ (NoEnd rest ∨ TooShort rest) := by
  rw [← (C90_views 4 data).2.2, rsa_data]
  refine ⟨fun h => ?_, fun h => by rw [h]; rfl⟩
  rcases readViews_cases 4 data with ⟨ds, st, rest, h1, h2, h3, h4⟩ | ⟨-, h5⟩ | ⟨-, h5⟩
  · exfalso
    rw [h4, ok_bind] at h
    match ds, h1, h2 with
    | [n, e, msg, sig], _, h2 =>
      have hm : msg.length < 2 ^ 64 := by
        refine lt_of_le_of_lt ?_ hd
        rw [h3, List.length_append]
        exact le_trans (packs_len h2 msg (by simp)) (Nat.le_add_right _ _)
      have h : a.run hostModExp host n e msg sig = .error .ub := h
      rcases (C76_rsa_exact a host L n e msg sig hm).2 with e1 | e1 <;> rw [e1] at h <;> cases h
  · rw [h5] at h; cases h
  · exact h5

/-- **C90**: the same for the PSS actions. -/
theorem C90_pss (W : Nat) (me : ModExp) (host : HostHash) (a : RsaAction) :
    (∀ n e salt msg sig st o su rest, Packs [n, e] st → IsOpt o salt → Packs [msg, sig] su →
      a.onDataPss W me host (st ++ o ++ su ++ rest) = a.runPss W me host n e salt msg sig) ∧
    ∀ data, a.onDataPss W me host data = .ok () → ∃ n e salt msg sig st o su rest, Packs [n, e] st ∧ IsOpt o salt ∧ Packs [msg, sig] su ∧
      data = st ++ o ++ su ++ rest ∧ a.runPss W me host n e salt msg sig = .ok () := by
  have key : ∀ n e salt msg sig st o su rest, Packs [n, e] st → IsOpt o salt → Packs [msg, sig] su →
      a.onDataPss W me host (st ++ o ++ su ++ rest) = a.runPss W me host n e salt msg sig := by
    intro n e salt msg sig st o su rest h1 h2 h3
    have r1 := readViews_ok h1 (o ++ (su ++ rest))
    have r2 := readOpt_ok h2 (su ++ rest)
    have r3 := readViews_ok h3 rest
    rw [pss_data, List.append_assoc, List.append_assoc, show readViews 2 (st ++ (o ++ (su ++ rest))) = _ from r1, ok_bind]
    dsimp only
    rw [r2, ok_bind]
    dsimp only
    rw [show readViews 2 (su ++ rest) = _ from r3, ok_bind]
  refine ⟨key, fun data h => ?_⟩
  rcases readViews_cases 2 data with ⟨ds, st, rest, h1, h2, h3, h4⟩ | ⟨-, h5⟩ | ⟨-, h5⟩
  · have hp := h
    rw [pss_data, h4, ok_bind] at h
    dsimp only at h
    rcases opt_cases rest with ⟨o, salt, t, h5, h6⟩ | ⟨-, h5⟩ | ⟨-, h5⟩
    · rw [h6, readOpt_ok h5, ok_bind] at h
      dsimp only at h
      rcases readViews_cases 2 t with ⟨es, su, rest', g1, g2, g3, g4⟩ | ⟨-, g5⟩ | ⟨-, g5⟩
      · match ds, h1, es, g1 with
        | [n, e], _, [msg, sig], _ =>
          have e1 : data = st ++ o ++ su ++ rest' := by rw [h3, h6, g3]; simp
          exact ⟨n, e, salt, msg, sig, st, o, su, rest', h2, h5, g2, e1, by rw [← key _ _ _ _ _ _ _ _ rest' h2 h5 g2, ← e1]; exact hp⟩
      · rw [g5] at h; cases h
      · rw [g5] at h; cases h
    · rw [h5] at h; cases h
    · rw [h5] at h; cases h
  · rw [pss_data, h5] at h; cases h
  · rw [pss_data, h5] at h; cases h

/-- **C90**: a key with a salt length, written and read back, as a view or as an object that owns its bytes. -/
theorem C90_pss_key (n e : List Byte) (salt : Option (BitVec 32)) (hn : n.length < 2 ^ 32) (he : e.length < 2 ^ 32) (rest : List Byte) :
    ∃ st, writePssKey n e salt = .ok st ∧ readPssKeyView (st ++ rest) = .ok ((n, e, salt), rest) ∧
      readPssKey (st ++ rest) = .ok ((n, e, salt), rest) := by
  obtain ⟨L1, e1, h1⟩ := serView_packs hn
  obtain ⟨L2, e2, h2⟩ := serView_packs he
  obtain ⟨o, e3, h3⟩ := writeOpt_is salt
  have hr : (L1 ++ n ++ (L2 ++ e) ++ o) ++ rest = L1 ++ n ++ (L2 ++ e ++ (o ++ rest)) := by simp
  refine ⟨L1 ++ n ++ (L2 ++ e) ++ o, ?_, ?_, ?_⟩
  · unfold writePssKey
    simp only [writeViews, e1, e2, e3, ok_bind, List.append_nil]
  · rw [hr]
    unfold readPssKeyView
    rw [deserView_ok h1, ok_bind]
    dsimp only
    rw [deserView_ok h2, ok_bind]
    dsimp only
    rw [readOpt_ok h3]
    rfl
  · rw [hr]
    unfold readPssKey
    rw [deserBytes_ok h1, ok_bind]
    dsimp only
    rw [deserBytes_ok h2, ok_bind]
    dsimp only
    rw [readOpt_ok h3]
    rfl

/-- **C90**: reading a key that owns its bytes has undefined behaviour only in a length field of more than five bytes (which the library
of the host reads); a length that is more than what is left fails a check. -/
theorem C90_owned_key (data : List Byte) (h : readPssKey data = .error .ub) : ∃ u v, data = u ++ v ∧ NoEnd v := by
  unfold readPssKey at h
  rcases bytes_cases data with ⟨L, d, t, hL, e⟩ | ⟨-, e⟩ | ⟨hn, -⟩
  · rw [e, deserBytes_ok hL, ok_bind] at h
    dsimp only at h
    rcases bytes_cases t with ⟨L', d', t', hL', e'⟩ | ⟨-, e'⟩ | ⟨hn, -⟩
    · rw [e', deserBytes_ok hL', ok_bind] at h
      dsimp only at h
      rcases opt_cases t' with ⟨o, salt, r, h5, h6⟩ | ⟨-, h5⟩ | ⟨⟨b, r, h6, -, h7⟩, -⟩
      · rw [h6, readOpt_ok h5] at h; cases h
      · rw [h5] at h; cases h
      · exact ⟨L ++ d ++ (L' ++ d') ++ [b], r, by rw [e, e', h6]; simp, h7⟩
    · rw [e'] at h; cases h
    · exact ⟨L ++ d, t, e, hn⟩
  · rw [e] at h; cases h
  · exact ⟨[], data, rfl, hn⟩

/-- **C90**: data that are not a serialisation of arguments are not turned down: for every action and every host, two bytes, of which the
first promises four, lead to undefined behaviour. -/
theorem C90_overlong_wrong (wasm : Bool) (addr W : Nat) (host : HostHash) (me : ModExp) (a : EcdsaAction) (b : RsaAction) :
    a.onData wasm addr host [4, 0xaa] = .error .ub ∧ b.onData me host [4, 0xaa] = .error .ub ∧ b.onDataPss W me host [4, 0xaa] = .error .ub := by
  have h : deserView [4, 0xaa] = .error .ub := by decide
  refine ⟨?_, ?_, ?_⟩
  · rw [ecdsa_data, readViews, h]; rfl
  · rw [rsa_data, readViews, h]; rfl
  · rw [pss_data, readViews, h]; rfl

/-- The serialisation of two byte strings, a length of two bytes, an optional number. -/
example : Packs [[7, 8], [9]] [2, 7, 8, 1, 9] ∧ IsLen [0xc8, 1] 200 ∧ IsOpt [1, 20] (some 20) ∧ Cut [0x80] ∧ NoEnd [0x80, 0x81, 0x82, 0x83, 0x84, 0] ∧
    TooShort [4, 0xaa] :=
  ⟨.cons (L := [2]) (d := [7, 8]) ⟨[], 2, rfl, by simp, by decide, by simp, by decide⟩
      (.cons (L := [1]) (d := [9]) ⟨[], 1, rfl, by simp, by decide, by simp, by decide⟩ .nil),
    ⟨[0xc8], 1, rfl, by simp, by decide, by simp, by decide⟩, .some (by decide) ⟨[], 20, rfl, by simp, by decide, by simp, by decide⟩,
    ⟨by decide, by decide⟩, ⟨by decide, by decide⟩, [4], 4, [0xaa], ⟨[], 4, rfl, by simp, by decide, by simp, by decide⟩, rfl, by decide⟩
example : readViews 2 [2, 7, 8, 1, 9, 5] = .ok ([[7, 8], [9]], [5]) ∧ readViews 2 [2, 7, 8, 0x81] = .error .abort ∧
    readViews 2 [2, 7, 8, 2, 9] = .error .ub ∧ readViews 1 [0x80, 0x80, 0x80, 0x80, 0x80, 0] = .error .ub := by decide
/-- An action on serialised arguments: the signature of C76 is accepted, with a length in two bytes instead of one, and bytes after it. -/
example : RsaAction.onData hostModExp (constHost rsaDigest) .sha1 ([46] ++ rsaN ++ [1, 3] ++ [0x80, 0] ++ [46] ++ rsaS ++ [1, 2, 3]) = .ok () := by
  decide +kernel
example : readPssKey ([1, 7] ++ [1, 3] ++ [1, 20]) = .ok (([7], [3], some 20), []) ∧ readPssKey [4, 7] = .error .abort ∧
    readPssKeyView [4, 7] = .error .ub := ⟨rfl, rfl, rfl⟩

end Ack.Props
