import Verif.Model.Async
import Verif.Proofs.Invert
import Verif.Proofs.Accept
import Verif.Proofs.BalanceFrame
import Verif.Spec.Collections
import Verif.Spec.Demo

/-!
# Property C72: which deposits and withdrawals are requested from the token contracts

A command is accepted exactly if the amounts fit, every token to be moved is a real token, there is gas for all of
the transfers, and the runtime can send the messages. One transfer costs 42 400 200 000 gas.
-/

set_option exponentiation.threshold 1000

namespace Verif
open Async Service Spec

variable {env : Env} {r : SendEnv} {s : Inv} {t u : ActorId} {n m : Nat}

/-- what one transfer costs -/
def Spec.cost : Nat := 42400200000

private theorem bal_balOf (b : Balances) (a t : ActorId) : bal b a t = balOf b a t := by
  unfold bal balOf
  cases b.get (a, t) <;> rfl

private theorem ends_ne {k : TransferType} {c p : ActorId} : (ends k c p).1 ≠ (ends k c p).2 ↔ c ≠ p := by
  cases k
  · exact Iff.rfl
  · exact ne_comm

private theorem can_iff {b : Balances} {t c : ActorId} {n : Nat} (hn : n < 2 ^ 256) :
    canIncreaseTokenBalance b t c n ≠ false ↔ bal b c t + n < 2 ^ 256 := by
  unfold canIncreaseTokenBalance bal
  cases b.get (c, t) with
  | none =>
    simp only [Nat.zero_add]
    exact ⟨fun _ => hn, fun _ => by decide⟩
  | some v => simp

private theorem isOk_iff {α : Type} {x : M α} : x.isOk = true ↔ ∃ a, x = .ok a := by
  cases x <;> simp [Except.isOk, Except.toBool]

private theorem mapErr_ok {α : Type} {e : Err} {x : M α} {a : α} : mapErr e x = .ok a ↔ x = .ok a := by
  cases x <;> simp [mapErr]

private theorem send_iff {s : Inv} {t a b : ActorId} {k : TransferType} {id : Nat} {ok : Bool} :
    (∃ x, sendTransfer s t a b n k id ok = .ok x) ↔ n ≠ 0 ∧ a ≠ b ∧ ok = true := by
  unfold sendTransfer
  simp only [bind_ok_iff, failIf_ok_iff, pure_ok_iff]
  constructor
  · rintro ⟨_, _, h1, _, h2, _, h3, _⟩
    exact ⟨h1, h2, by simpa using h3⟩
  · rintro ⟨h1, h2, h3⟩
    exact ⟨_, (), h1, (), h2, (), by simpa using h3, rfl⟩

private theorem single_iff {s : Inv} {c : ActorId} {k : TransferType} :
    (transferSingle r s t c n k).isOk = true ↔
      t ≠ VARA ∧ cost ≤ r.gas ∧ n ≠ 0 ∧ c ≠ r.program ∧ r.sent1 = true := by
  rw [isOk_iff]
  unfold transferSingle
  simp only [bind_ok_iff, failIf_ok_iff, pure_ok_iff, mapErr_ok]
  constructor
  · rintro ⟨_, _, h1, _, h2, x, h3, _⟩
    obtain ⟨h4, h5, h6⟩ := send_iff.1 ⟨x, h3⟩
    exact ⟨h1, Nat.le_of_not_lt h2, h4, ends_ne.1 h5, h6⟩
  · rintro ⟨h1, h2, h3, h4, h5⟩
    obtain ⟨x, hx⟩ := send_iff (s := s) (t := t) (k := k) (id := r.next).2 ⟨h3, ends_ne (k := k).2 h4, h5⟩
    exact ⟨_, (), h1, (), Nat.not_lt.2 h2, x, hx, rfl⟩

private theorem pair_iff {s : Inv} {c : ActorId} {k : TransferType} :
    (transferPair r s c t n u m k).isOk = true ↔
      t ≠ VARA ∧ u ≠ VARA ∧ 2 * cost ≤ r.gas ∧ n ≠ 0 ∧ m ≠ 0 ∧ c ≠ r.program ∧ r.sent1 = true ∧ r.sent2 = true := by
  rw [isOk_iff]
  unfold transferPair
  simp only [bind_ok_iff, failIf_ok_iff, pure_ok_iff]
  constructor
  · rintro ⟨_, _, h1, _, h2, x, h3, y, h4, _⟩
    push Not at h1
    obtain ⟨a1, a2, a3⟩ := send_iff.1 ⟨x, h3⟩
    obtain ⟨b1, b2, b3⟩ := send_iff.1 ⟨y, h4⟩
    exact ⟨h1.1, h1.2, Nat.le_of_not_lt h2, a1, b1, ends_ne.1 a2, a3, b3⟩
  · rintro ⟨h1, h2, h3, h4, h5, h6, h7, h8⟩
    obtain ⟨x, hx⟩ := send_iff (s := s) (t := t) (k := k) (id := r.next).2 ⟨h4, ends_ne (k := k).2 h6, h7⟩
    obtain ⟨y, hy⟩ := send_iff (s := x.1) (t := u) (k := k) (id := r.next + 1).2 ⟨h5, ends_ne (k := k).2 h6, h8⟩
    exact ⟨_, (), by push Not; exact ⟨h1, h2⟩, (), Nat.not_lt.2 h3, x, hx, y, hy, rfl⟩

/-- the conditions under which the transfers of two amounts can be requested: tokens that are moved are real, there
is gas for each of them, and the messages can be sent -/
def Spec.Sendable (r : SendEnv) (caller t : ActorId) (n : Nat) (u : ActorId) (m : Nat) : Prop :=
  (n ≠ 0 → t ≠ VARA) ∧ (m ≠ 0 → u ≠ VARA) ∧
  ((if n = 0 then 0 else 1) + (if m = 0 then 0 else 1)) * cost ≤ r.gas ∧
  (n ≠ 0 ∨ m ≠ 0 → caller ≠ r.program ∧ r.sent1 = true) ∧ (n ≠ 0 ∧ m ≠ 0 → r.sent2 = true)

private theorem both_iff {s : Inv} {c : ActorId} {k : TransferType} :
    (transferBoth r s c t n u m k).isOk = true ↔ Sendable r c t n u m := by
  unfold transferBoth Sendable
  by_cases hn : n = 0
  · by_cases hm : m = 0
    · simp [hn, hm, Except.isOk, Except.toBool, pure, Except.pure]
    · rw [if_neg (by simp [hn]), if_neg (by simp [hn]), if_pos hm, single_iff]
      simp [hn, hm]
  · by_cases hm : m = 0
    · rw [if_neg (by simp [hm]), if_pos hn, single_iff]
      simp [hn, hm]
    · rw [if_pos ⟨hn, hm⟩, pair_iff]
      simp [hn, hm]
      tauto

private theorem bind_isOk {α β : Type} {x : M α} {f : α → M β} :
    (x >>= f).isOk = true ↔ ∃ a, x = .ok a ∧ (f a).isOk = true := by
  rw [isOk_iff]
  simp only [bind_ok_iff, isOk_iff]
  constructor
  · rintro ⟨b, a, h1, h2⟩; exact ⟨a, h1, b, h2⟩
  · rintro ⟨a, h1, b, h2⟩; exact ⟨b, a, h1, h2⟩

/-- C72, `deposit_single_token`. -/
theorem C72_deposit (hn : n < 2 ^ 256) : (start env r s (.depositSingle t n)).isOk = true ↔
    bal s.balances env.caller t + n < 2 ^ 256 ∧
    t ≠ VARA ∧ cost ≤ r.gas ∧ n ≠ 0 ∧ env.caller ≠ r.program ∧ r.sent1 = true := by
  unfold start depositSingle
  rw [bind_isOk]
  simp only [failIf_ok_iff]
  rw [single_iff, ← can_iff hn]
  constructor
  · rintro ⟨_, h1, h2⟩; exact ⟨h1, h2⟩
  · rintro ⟨h1, h2⟩; exact ⟨(), h1, h2⟩

/-- C72, `deposit_token_pair`. -/
theorem C72_deposit_pair (hn : n < 2 ^ 256) (hm : m < 2 ^ 256) :
    (start env r s (.depositPair t n u m)).isOk = true ↔
    t ≠ u ∧ bal s.balances env.caller t + n < 2 ^ 256 ∧ bal s.balances env.caller u + m < 2 ^ 256 ∧
    Sendable r env.caller t n u m := by
  unfold start depositPair
  rw [bind_isOk]
  simp only [failIf_ok_iff, bind_isOk]
  rw [both_iff, ← can_iff hn, ← can_iff hm]
  constructor
  · rintro ⟨_, h1, _, h2, h3⟩
    push Not at h2
    exact ⟨h1, h2.1, h2.2, h3⟩
  · rintro ⟨h1, h2, h3, h4⟩
    exact ⟨(), h1, (), by push Not; exact ⟨h2, h3⟩, h4⟩

/-- what a withdrawal asks for: an amount, or everything there is -/
def Spec.wanted (b : Balances) (who t : ActorId) : Option Nat → Nat
  | some n => n
  | none => bal b who t

private theorem decr_some {b : Balances} {c : ActorId} :
    (∃ d, decreaseTokenBalance b t c (some n) = .ok d) ↔ n ≤ bal b c t := by
  rw [bal_balOf]
  constructor
  · rintro ⟨d, hd⟩
    rcases decrease_some_ok.1 hd with ⟨h, _⟩ | ⟨_, v, hv, hle, _⟩
    · omega
    · unfold balOf; rw [hv]; exact hle
  · exact decrease_succeeds

/-- C72, `withdraw_single_token`: an explicit amount must be positive and covered; without an amount everything is
withdrawn, and nothing happens if there is nothing. -/
theorem C72_withdraw (o : Option Nat) : (start env r s (.withdrawSingle t o)).isOk = true ↔
    (∀ n, o = some n → n ≠ 0 ∧ n ≤ bal s.balances env.caller t) ∧
    (wanted s.balances env.caller t o ≠ 0 →
      t ≠ VARA ∧ cost ≤ r.gas ∧ env.caller ≠ r.program ∧ r.sent1 = true) := by
  unfold start withdrawSingle
  rw [bind_isOk]
  cases o with
  | some n =>
    simp only [takeSingle, bind_ok_iff, failIf_ok_iff, wanted]
    constructor
    · rintro ⟨d, ⟨_, h1, h2⟩, h3⟩
      have hd : d.2 = n := (decrease_bal h2 env.caller t).2
      rw [hd, if_pos h1, single_iff] at h3
      refine ⟨?_, fun _ => ⟨h3.1, h3.2.1, h3.2.2.2⟩⟩
      intro k hk
      cases hk
      exact ⟨h1, decr_some.1 ⟨d, h2⟩⟩
    · rintro ⟨h1, h2⟩
      obtain ⟨h0, hle⟩ := h1 n rfl
      obtain ⟨d, hd⟩ := decr_some.2 hle
      have e : d.2 = n := (decrease_bal hd env.caller t).2
      refine ⟨d, ⟨(), h0, hd⟩, ?_⟩
      obtain ⟨a1, a2, a3⟩ := h2 h0
      rw [e, if_pos h0, single_iff]
      exact ⟨a1, a2, h0, a3⟩
  | none =>
    simp only [takeSingle, wanted, bal]
    cases hb : s.balances.get (env.caller, t) with
    | none =>
      have e : decreaseTokenBalance s.balances t env.caller none = .error (.inv .NoBalanceForTheToken) := by
        unfold decreaseTokenBalance
        rw [hb]
        rfl
      rw [e]
      simp [Except.isOk, Except.toBool, pure, Except.pure]
    | some v =>
      have e : decreaseTokenBalance s.balances t env.caller none = .ok (s.balances.erase (env.caller, t), v) :=
        decrease_none_ok.2 ⟨v, hb, rfl⟩
      rw [e]
      by_cases h0 : v = 0
      · simp [h0, Except.isOk, Except.toBool, pure, Except.pure]
      · simp only [Except.ok.injEq, exists_eq_left']
        rw [if_pos h0, single_iff]
        constructor
        · rintro ⟨a, b, _, c⟩
          exact ⟨fun n hn => (by cases hn), fun _ => ⟨a, b, c⟩⟩
        · rintro ⟨_, h⟩
          obtain ⟨a, b, c⟩ := h h0
          exact ⟨a, b, h0, c⟩

private theorem leg_ok {b : Balances} {c : ActorId} (o : Option Nat) {x : Nat} :
    (takeLeg b t c o).2 = .ok x ↔ (∀ n, o = some n → n ≤ bal b c t) ∧ x = wanted b c t o := by
  unfold takeLeg
  cases o with
  | some n =>
    cases hd : decreaseTokenBalance b t c (some n) with
    | ok d =>
      have e : d.2 = n := (decrease_bal hd c t).2
      simp only [Except.ok.injEq, e, wanted]
      constructor
      · rintro rfl
        refine ⟨?_, rfl⟩
        intro k hk
        cases hk
        exact decr_some.1 ⟨d, hd⟩
      · rintro ⟨_, h⟩; exact h.symm
    | error e =>
      simp only [reduceCtorEq, and_false, if_false, false_iff, wanted]
      rintro ⟨h, _⟩
      obtain ⟨d, h1⟩ := decr_some.2 (h n rfl)
      rw [hd] at h1
      cases h1
  | none =>
    simp only [wanted, bal, reduceCtorEq, false_implies, implies_true, true_and]
    cases hb : b.get (c, t) with
    | none =>
      have e : decreaseTokenBalance b t c none = .error (.inv .NoBalanceForTheToken) := by
        unfold decreaseTokenBalance
        rw [hb]
        rfl
      rw [e]
      simp [eq_comm]
    | some v =>
      have e : decreaseTokenBalance b t c none = .ok (b.erase (c, t), v) := decrease_none_ok.2 ⟨v, hb, rfl⟩
      rw [e]
      simp [eq_comm]

private theorem leg_other {b : Balances} {c w : ActorId} (o : Option Nat) (h : w ≠ t) :
    bal (takeLeg b t c o).1 c w = bal b c w := by
  unfold takeLeg
  cases hd : decreaseTokenBalance b t c o with
  | ok d =>
    dsimp only
    unfold bal
    rw [decrease_other hd (k := (c, w)) (fun e => h (by injection e))]
  | error e =>
    dsimp only
    split <;> rfl

/-- C72, `withdraw_token_pair`. -/
theorem C72_withdraw_pair (o p : Option Nat) : (start env r s (.withdrawPair t o u p)).isOk = true ↔
    t ≠ u ∧ (∀ n, o = some n → n ≤ bal s.balances env.caller t) ∧
    (∀ n, p = some n → n ≤ bal s.balances env.caller u) ∧
    Sendable r env.caller t (wanted s.balances env.caller t o) u (wanted s.balances env.caller u p) := by
  unfold start withdrawPair
  rw [bind_isOk]
  simp only [failIf_ok_iff, bind_isOk, leg_ok, both_iff]
  constructor
  · rintro ⟨_, h1, x, ⟨h2, rfl⟩, y, ⟨h3, rfl⟩, h4⟩
    have e := leg_other (b := s.balances) (c := env.caller) o (Ne.symm h1)
    have ew : wanted (takeLeg s.balances t env.caller o).1 env.caller u p = wanted s.balances env.caller u p := by
      cases p
      · exact e
      · rfl
    rw [ew] at h4
    rw [e] at h3
    exact ⟨h1, h2, h3, h4⟩
  · rintro ⟨h1, h2, h3, h4⟩
    have e := leg_other (b := s.balances) (c := env.caller) o (Ne.symm h1)
    have ew : wanted (takeLeg s.balances t env.caller o).1 env.caller u p = wanted s.balances env.caller u p := by
      cases p
      · exact e
      · rfl
    exact ⟨(), h1, _, ⟨h2, rfl⟩, _, ⟨by rw [e]; exact h3, rfl⟩, by rw [ew]; exact h4⟩

/-- C72, the reasons of a refused deposit: the native coin is named as such, and only then the gas is looked at. -/
theorem C72_deposit_reason (hn : n < 2 ^ 256) (hb : bal s.balances env.caller t + n < 2 ^ 256) :
    (t = VARA → start env r s (.depositSingle t n) = .error (.inv .InvalidVaraDepositAttempt)) ∧
    (t ≠ VARA → r.gas < cost → start env r s (.depositSingle t n) = .error (.inv .NotEnoughGasToExecute)) ∧
    (t ≠ VARA → cost ≤ r.gas → (start env r s (.depositSingle t n)).isOk = false →
      start env r s (.depositSingle t n) = .error (.inv .TransferError)) := by
  have h0 : ¬ canIncreaseTokenBalance s.balances t env.caller n = false := (can_iff hn).2 hb
  simp only [start]
  unfold depositSingle
  rw [failIf_neg h0, ok_bind]
  unfold transferSingle
  refine ⟨fun h => ?_, fun h g => ?_, fun h g => ?_⟩
  · rw [failIf_pos h]; rfl
  · rw [failIf_neg h, ok_bind, failIf_pos (show r.gas < TRANSFER_COST from g)]; rfl
  · rw [failIf_neg h, ok_bind, failIf_neg (show ¬ r.gas < TRANSFER_COST from Nat.not_lt.2 g), ok_bind]
    dsimp only
    cases sendTransfer s t (ends .deposit env.caller r.program).1 (ends .deposit env.caller r.program).2 n .deposit
      r.next r.sent1 with
    | ok x => intro hf; cases hf
    | error e => intro _; rfl

/-- C72, the reasons of a refused withdrawal of an amount that is there. -/
theorem C72_withdraw_reason (hn : n ≠ 0) (hb : n ≤ bal s.balances env.caller t) :
    (t = VARA → start env r s (.withdrawSingle t (some n)) = .error (.inv .InvalidVaraWithdrawAttempt)) ∧
    (t ≠ VARA → r.gas < cost →
      start env r s (.withdrawSingle t (some n)) = .error (.inv .NotEnoughGasToExecute)) := by
  obtain ⟨d, hd⟩ := decr_some.2 hb
  have e : d.2 = n := (decrease_bal hd env.caller t).2
  have ht : takeSingle s.balances t env.caller (some n) = .ok d := by
    simp only [takeSingle, bind_ok_iff, failIf_ok_iff]
    exact ⟨(), hn, hd⟩
  simp only [start]
  unfold withdrawSingle
  rw [ht, ok_bind, if_pos (by rw [e]; exact hn)]
  unfold transferSingle
  refine ⟨fun h => ?_, fun h g => ?_⟩
  · rw [failIf_pos h]; rfl
  · rw [failIf_neg h, ok_bind, failIf_pos (show r.gas < TRANSFER_COST from g)]; rfl

/-- account 2 with 10^20 of the tokens 5 and 7: one transfer with just enough gas; two transfers need twice as much;
everything of a token it does not have; a unit too much -/
example :
    (start (Demo.by_ 2) ⟨99, 42400200000, 0, true, true⟩ Demo.funded (.depositSingle 5 1)).toOption.map (·.2) =
      some [⟨0, 5, 2, 99, 1, .deposit⟩] ∧
    (start (Demo.by_ 2) ⟨99, 42400199999, 0, true, true⟩ Demo.funded (.depositSingle 5 1)).isOk = false ∧
    (start (Demo.by_ 2) ⟨99, 84800399999, 0, true, true⟩ Demo.funded (.withdrawPair 5 none 7 (some 3))).isOk = false ∧
    (start (Demo.by_ 2) ⟨99, 84800400000, 0, true, true⟩ Demo.funded (.withdrawPair 5 none 7 (some 3))).toOption.map
      (·.2) = some [⟨0, 5, 99, 2, 10 ^ 20, .withdrawal⟩, ⟨1, 7, 99, 2, 3, .withdrawal⟩] ∧
    (start (Demo.by_ 2) ⟨99, 0, 0, true, true⟩ Demo.funded (.withdrawSingle 6 none)).toOption.map (·.2) = some [] ∧
    (start (Demo.by_ 2) ⟨99, 10 ^ 12, 0, true, true⟩ Demo.funded (.withdrawSingle 5 (some (10 ^ 20 + 1)))).isOk =
      false := by
  decide +kernel

end Verif
