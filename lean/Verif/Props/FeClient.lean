import Verif.Proof.FeClient
import Verif.Props.FeProg
import Mathlib.GroupTheory.OrderOfElement
/-! # Programs on field elements that decide by what they see (C99) -/
namespace Ack.Props
open Mem Spec.Fe
open Spec.Ec (FitsBytes)
open Big (Byte)

/-- **C99**: a client makes a modulus of bytes and goes on with statements on elements of the prime field, each of which it chooses by all it
has seen: before every statement the values of all elements, the answers and the byte strings.  If it only names elements that it
has, then, however many statements it makes, it sees what the field of order `P` says, in both storage kinds; or it stops with a
failed check, after statements that saw what the field says, at one that divides by zero, inverts zero, gives bytes that do not fit, or gives a
checked value that is no residue.  There is no undefined behaviour and no endless loop. -/
theorem C99_client {K : Kind} {d : List Byte} {P fuel : ℕ} [Fact P.Prime] (S : FeSetting K d P) (hf : Spec.Passes P fuel) {F : FeClient}
    (hF : FeNames P F) (n : ℕ) :
    (∃ h, FePlays K.lim F n [] (⟨[], [], []⟩ : FeEnv P) h ∧ feClientSees K fuel d F n = .ok h) ∨
    (FeHalts K.lim F n [] (⟨[], [], []⟩ : FeEnv P) ∧ feClientSees K fuel d F n = .error .abort) := feClient_run S hf hF n

/-- A client that finds the order of an element: `x = d; y = x; while (y != 1) y *= x;` -/
def orderOfIt (d : List Byte) : FeClient
  | [] => none
  | o :: _ => match o.els with
    | [] => some (.elem d true)
    | [_] => some (.new (.copy 0))
    | [_, y] => if y = 1 then none else some (.set 1 (.bin .mul 1 0))
    | _ => none

theorem orderOfIt_names (P : ℕ) (d : List Byte) : FeNames P (orderOfIt d) := by
  intro o h t ht
  rcases o with ⟨els, bools, strs⟩
  unfold orderOfIt at ht
  rcases els with _ | ⟨x, _ | ⟨y, _ | ⟨z, l⟩⟩⟩
  · cases ht; intro h; cases h
  · cases ht; exact Nat.one_pos
  · by_cases hy : y = 1
    · simp [hy] at ht
    · simp only [hy, if_false] at ht
      cases ht
      exact ⟨Nat.lt_succ_self 1, Nat.lt_succ_self 1, Nat.two_pos⟩
  · cases ht

section
variable {P : ℕ} [hP : Fact P.Prime] {cap : Cap} {d : List Byte} {x : ZMod P}

theorem orderOfIt_at {k : ℕ} {h : List FeSight} {b : List Bool} {l : List (List Byte)} :
    orderOfIt d (feSight (P := P) ⟨[x, x ^ k], b, l⟩ :: h) = if x ^ k = 1 then none else some (.set 1 (.bin .mul 1 0)) := by
  have h1 : ((x ^ k).val : ℤ) = 1 ↔ x ^ k = 1 := by
    rw [show ((1 : ℤ)) = ((1 : ℕ) : ℤ) from rfl, Int.ofNat_inj, ZMod.val_eq_one (Nat.Prime.one_lt hP.out)]
  show (if ((x ^ k).val : ℤ) = 1 then none else some (FeStmt.set 1 (.bin .mul 1 0))) = _
  by_cases hk : x ^ k = 1
  · rw [if_pos (h1.2 hk), if_pos hk]
  · rw [if_neg (mt h1.1 hk), if_neg hk]

theorem mul_does {k : ℕ} {b : List Bool} {l : List (List Byte)} {e : FeEnv P}
    (h : FeDoes cap (⟨[x, x ^ k], b, l⟩ : FeEnv P) (.set 1 (.bin .mul 1 0)) e) : e = ⟨[x, x ^ (k + 1)], b, l⟩ := by
  cases h with
  | set _ h =>
    cases h with
    | bin _ h1 h2 _ =>
      cases h1; cases h2
      rw [pow_succ]; rfl

theorem order_plays (hx : orderOf x ≠ 0) : ∀ (n k : ℕ) (h h' : List FeSight) (b : List Bool) (l : List (List Byte)), 0 < k → k ≤ orderOf x →
    orderOf x ≤ k + n → FePlays cap (orderOfIt d) n h (⟨[x, x ^ k], b, l⟩ : FeEnv P) h' → h'.length = h.length + (orderOf x - k) + 1 := by
  intro n
  induction n with
  | zero =>
    intro k h h' b l h0 h1 h2 hp
    cases hp
    simp; omega
  | succ n ih =>
    intro k h h' b l h0 h1 h2 hp
    by_cases hk : x ^ k = 1
    · have := Nat.le_of_dvd h0 (orderOf_dvd_of_pow_eq_one hk)
      cases hp with
      | done _ _ => simp; omega
      | step ht _ _ => rw [orderOfIt_at, if_pos hk] at ht; cases ht
    · have hlt : k < orderOf x := lt_of_le_of_ne h1 fun e => hk (e ▸ pow_orderOf_eq_one x)
      cases hp with
      | done _ ht => rw [orderOfIt_at, if_neg hk] at ht; cases ht
      | step ht hd hp =>
        rw [orderOfIt_at, if_neg hk] at ht; cases ht
        have e := mul_does hd; subst e
        have := ih (k + 1) _ _ _ _ (by omega) (by omega) (by omega) hp
        rw [this]; simp; omega

theorem order_halts : ∀ (n k : ℕ) (h : List FeSight) (b : List Bool) (l : List (List Byte)),
    ¬ FeHalts cap (orderOfIt d) n h (⟨[x, x ^ k], b, l⟩ : FeEnv P) := by
  intro n
  induction n with
  | zero => intro k h b l hp; cases hp
  | succ n ih =>
    intro k h b l hp
    by_cases hk : x ^ k = 1
    · cases hp with
      | stop _ ht _ => rw [orderOfIt_at, if_pos hk] at ht; cases ht
      | step ht _ _ => rw [orderOfIt_at, if_pos hk] at ht; cases ht
    · cases hp with
      | stop _ ht hs =>
        rw [orderOfIt_at, if_neg hk] at ht; cases ht
        cases hs with | set _ h => cases h
      | step ht hd hp =>
        rw [orderOfIt_at, if_neg hk] at ht; cases ht
        have e := mul_does hd; subst e
        exact ih _ _ _ _ hp

end

/-- **C99**: the loop `x = d; y = x; while (y != 1) y *= x;` ends after as many rounds as the multiplicative order of `d` modulo
`P` says: it sees its variables two times more often than that. -/
theorem C99_order {K : Kind} {m d : List Byte} {P fuel : ℕ} [Fact P.Prime] (S : FeSetting K m P) (hf : Spec.Passes P fuel) (hd : FitsBytes K.lim d)
    (h0 : beVal d ≠ 0) (hl : beVal d < P) {n : ℕ} (hn : orderOf ((beVal d : ℕ) : ZMod P) < n) :
    ∃ h, feClientSees K fuel m (orderOfIt d) n = .ok h ∧ h.length = orderOf ((beVal d : ℕ) : ZMod P) + 2 := by
  have hx : ((beVal d : ℕ) : ZMod P) ≠ 0 := by
    rw [Ne, ZMod.natCast_eq_zero_iff]
    exact fun h => absurd (Nat.le_of_dvd (Nat.pos_of_ne_zero h0) h) (by omega)
  have ho : orderOf ((beVal d : ℕ) : ZMod P) ≠ 0 := by
    rw [orderOf_ne_zero_iff, isOfFinOrder_iff_pow_eq_one]
    exact ⟨P - 1, Nat.sub_pos_of_lt (Nat.Prime.one_lt Fact.out), ZMod.pow_card_sub_one_eq_one hx⟩
  generalize hX : ((beVal d : ℕ) : ZMod P) = x at *
  obtain ⟨n, rfl⟩ : ∃ k, n = k + 2 := ⟨n - 2, by omega⟩
  rcases C99_client S hf (orderOfIt_names P d) (n + 2) with ⟨h, hp, hr⟩ | ⟨hp, -⟩
  · refine ⟨h, hr, ?_⟩
    cases hp with
    | done _ ht => cases ht
    | step ht h1 hp =>
      cases ht
      cases h1 with
      | elem _ _ _ =>
        cases hp with
        | done _ ht => cases ht
        | step ht h1 hp =>
          cases ht
          cases h1 with
          | new h1 =>
            cases h1 with
            | copy h1 =>
              cases h1
              rw [show ((⟨([] : List (ZMod P)) ++ [((beVal d : ℕ) : ZMod P)] ++ [((beVal d : ℕ) : ZMod P)], [], []⟩ : FeEnv P)) = ⟨[x, x ^ 1], [], []⟩ from by
                rw [hX, pow_one]; rfl] at hp
              have := order_plays ho n 1 _ _ _ _ Nat.one_pos (Nat.pos_of_ne_zero ho) (by omega) hp
              rw [this]; simp; omega
  · exfalso
    cases hp with
    | stop _ ht hs =>
      cases ht
      cases hs with
      | elem _ h => exact h hd
      | elemRange h => omega
    | step ht h1 hp =>
      cases ht
      cases h1 with
      | elem _ _ _ =>
        cases hp with
        | stop _ ht hs => cases ht; cases hs with | new h => cases h
        | step ht h1 hp =>
          cases ht
          cases h1 with
          | new h1 =>
            cases h1 with
            | copy h1 =>
              cases h1
              rw [show ((⟨([] : List (ZMod P)) ++ [((beVal d : ℕ) : ZMod P)] ++ [((beVal d : ℕ) : ZMod P)], [], []⟩ : FeEnv P)) = ⟨[x, x ^ 1], [], []⟩ from by
                rw [hX, pow_one]; rfl] at hp
              exact order_halts _ _ _ _ _ hp

/-- Modulo 17 the powers of 4 are 4, 16, 13, 1. -/
example : feClientSees ⟨4, false⟩ 18 [17] (orderOfIt [4]) 9 =
    .ok [⟨[4, 1], [], []⟩, ⟨[4, 13], [], []⟩, ⟨[4, 16], [], []⟩, ⟨[4, 4], [], []⟩, ⟨[4], [], []⟩, ⟨[], [], []⟩] := by decide +kernel
example : FeNames 17 (orderOfIt [4]) := orderOfIt_names 17 [4]
/-- The order of 0 is asked: the loop goes on for as long as it may. -/
example : (feClientSees ⟨1, true⟩ 18 [17] (orderOfIt [0]) 9).map List.length = .ok 10 := by decide +kernel
/-- A client that divides by what it finds stops. -/
example : feClientSees ⟨4, false⟩ 18 [17] (fun h => if h.length < 3 then some (.elem [0] true) else some (.new (.bin .div 0 1))) 9 =
    .error .abort := by decide +kernel

end Ack.Props
