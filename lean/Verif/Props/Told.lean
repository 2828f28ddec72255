import Verif.Proofs.Told
import Verif.Proofs.Accept
import Verif.Spec.WorldDemo
import Verif.Props.SwapAccept

/-!
# Property C111: what a user is told about deposits and withdrawals is true

Before the token contracts are asked: the first reason that applies is named, and without a reason the request is
made. After they have answered: the caller is told that all is done exactly if every token contract has confirmed and
every confirmation was handled; the three other outcomes mean what they say.
-/

set_option exponentiation.threshold 1000

namespace Verif
open Async Service Spec

variable {env : Env} {r : SendEnv} {s : Inv} {t u : ActorId} {n m : Nat}

/-! ## Refused requests -/

private theorem failure_ok {α : Type} (a : α) : failure (.ok a : M α) = none := rfl
private theorem failure_error {α : Type} (e : Err) : failure (.error e : M α) = some e := rfl

private theorem send_failure {a b : ActorId} {k : TransferType} {id : Nat} {ok : Bool} :
    failure (sendTransfer s t a b n k id ok) =
      if n = 0 ∨ a = b ∨ ok = false then some (.inv .TransferError) else none := by
  unfold sendTransfer
  by_cases h1 : n = 0
  · rw [failIf_pos h1, if_pos (.inl h1)]; rfl
  by_cases h2 : a = b
  · rw [failIf_neg h1, ok_bind, failIf_pos h2, if_pos (.inr (.inl h2))]; rfl
  by_cases h3 : ok = false
  · rw [failIf_neg h1, ok_bind, failIf_neg h2, ok_bind, failIf_pos h3, if_pos (.inr (.inr h3))]; rfl
  · rw [failIf_neg h1, ok_bind, failIf_neg h2, ok_bind, failIf_neg h3, if_neg (by tauto)]; rfl

private theorem ends_eq {k : TransferType} {c p : ActorId} : (ends k c p).1 = (ends k c p).2 ↔ c = p := by
  cases k
  · exact Iff.rfl
  · exact eq_comm

private theorem single_failure {c : ActorId} {k : TransferType} :
    failure (transferSingle r s t c n k) = singleReason k r c t n := by
  unfold transferSingle singleReason
  by_cases h1 : t = VARA
  · rw [failIf_pos h1, if_pos h1]; cases k <;> rfl
  rw [failIf_neg h1, if_neg h1, ok_bind]
  by_cases h2 : r.gas < gasPerTransfer
  · rw [failIf_pos (show r.gas < TRANSFER_COST from h2), if_pos h2]; rfl
  rw [failIf_neg (show ¬ r.gas < TRANSFER_COST from h2), if_neg h2, ok_bind]
  dsimp only
  have hs := send_failure (s := s) (t := t) (n := n) (a := (ends k c r.program).1) (b := (ends k c r.program).2)
    (k := k) (id := r.next) (ok := r.sent1)
  simp only [ends_eq] at hs
  cases h : sendTransfer s t (ends k c r.program).1 (ends k c r.program).2 n k r.next r.sent1 with
  | ok x =>
    rw [h, failure_ok] at hs
    rw [mapErr, ok_bind]
    split at hs
    · cases hs
    · next h3 => rw [if_neg h3]; rfl
  | error e =>
    rw [h, failure_error] at hs
    split at hs
    · next h3 => rw [if_pos h3]; rfl
    · cases hs

private theorem pair_failure {c : ActorId} {k : TransferType} (hn : n ≠ 0) (hm : m ≠ 0) :
    failure (transferPair r s c t n u m k) = sendReason k r c t n u m := by
  unfold transferPair sendReason
  rw [if_neg (fun h => hn h.1), if_neg hm, if_neg hn]
  by_cases h1 : t = VARA ∨ u = VARA
  · rw [failIf_pos h1, if_pos h1]; cases k <;> rfl
  rw [failIf_neg h1, if_neg h1, ok_bind]
  by_cases h2 : r.gas < 2 * gasPerTransfer
  · rw [failIf_pos (show r.gas < 2 * TRANSFER_COST from h2), if_pos h2]; rfl
  rw [failIf_neg (show ¬ r.gas < 2 * TRANSFER_COST from h2), if_neg h2, ok_bind]
  dsimp only
  have hs := send_failure (s := s) (t := t) (n := n) (a := (ends k c r.program).1) (b := (ends k c r.program).2)
    (k := k) (id := r.next) (ok := r.sent1)
  simp only [ends_eq] at hs
  cases h : sendTransfer s t (ends k c r.program).1 (ends k c r.program).2 n k r.next r.sent1 with
  | error e =>
    rw [h, failure_error] at hs
    split at hs
    · next h3 =>
      rw [if_pos (by tauto)]
      exact hs
    · cases hs
  | ok x =>
    rw [h, failure_ok] at hs
    rw [ok_bind]
    have hs' := send_failure (s := x.1) (t := u) (n := m) (a := (ends k c r.program).1) (b := (ends k c r.program).2)
      (k := k) (id := r.next + 1) (ok := r.sent2)
    simp only [ends_eq] at hs'
    have h3 : ¬ (n = 0 ∨ c = r.program ∨ r.sent1 = false) := by
      intro h3
      rw [if_pos h3] at hs
      cases hs
    cases h' : sendTransfer x.1 u (ends k c r.program).1 (ends k c r.program).2 m k (r.next + 1) r.sent2 with
    | error e =>
      rw [h', failure_error] at hs'
      split at hs'
      · rw [if_pos (by tauto)]
        exact hs'
      · cases hs'
    | ok y =>
      rw [h', failure_ok] at hs'
      split at hs'
      · cases hs'
      · rw [if_neg (by tauto)]; rfl

private theorem both_failure {c : ActorId} {k : TransferType} :
    failure (transferBoth r s c t n u m k) = sendReason k r c t n u m := by
  unfold transferBoth
  by_cases hn : n = 0
  · by_cases hm : m = 0
    · rw [if_neg (fun h => h.1 hn), if_neg (fun h => h hn), if_neg (fun h => h hm)]
      unfold sendReason
      rw [if_pos ⟨hn, hm⟩]
      rfl
    · rw [if_neg (fun h => h.1 hn), if_neg (fun h => h hn), if_pos hm, single_failure]
      unfold sendReason
      rw [if_neg (fun h => hm h.2), if_neg hm, if_pos hn]
  · by_cases hm : m = 0
    · rw [if_neg (fun h => h.2 hm), if_pos hn, single_failure]
      unfold sendReason
      rw [if_neg (fun h => hn h.1), if_pos hm]
    · rw [if_pos ⟨hn, hm⟩, pair_failure hn hm]

private theorem can_false {b : Balances} {c : ActorId} (hn : n < 2 ^ 256) :
    canIncreaseTokenBalance b t c n = false ↔ ¬ bal b c t + n < 2 ^ 256 := by
  unfold canIncreaseTokenBalance bal
  cases b.get (c, t) with
  | none => simpa using hn
  | some v => simp

/-- C111, `deposit_single_token`: refused if the balance would not fit, and for the reasons of `singleReason`. -/
theorem C111_deposit (hn : n < 2 ^ 256) : failure (start env r s (.depositSingle t n)) =
    if bal s.balances env.caller t + n < 2 ^ 256 then singleReason .deposit r env.caller t n
    else some (.inv .FailedToChangeTokenBalance) := by
  simp only [start]
  unfold depositSingle
  by_cases h : bal s.balances env.caller t + n < 2 ^ 256
  · rw [failIf_neg (fun hc => (can_false hn).1 hc h), ok_bind, if_pos h, single_failure]
  · rw [failIf_pos ((can_false hn).2 h), if_neg h]; rfl

/-- C111, `deposit_token_pair`: refused for two equal tokens, if a balance would not fit, and for the reasons of
`sendReason`. -/
theorem C111_deposit_pair (hn : n < 2 ^ 256) (hm : m < 2 ^ 256) : failure (start env r s (.depositPair t n u m)) =
    if t = u then some (.inv .TokensAreSame)
    else if bal s.balances env.caller t + n < 2 ^ 256 ∧ bal s.balances env.caller u + m < 2 ^ 256 then
      sendReason .deposit r env.caller t n u m
    else some (.inv .FailedToChangeTokenBalance) := by
  simp only [start]
  unfold depositPair
  by_cases h0 : t = u
  · rw [failIf_pos h0, if_pos h0]; rfl
  rw [failIf_neg h0, if_neg h0, ok_bind]
  by_cases h : bal s.balances env.caller t + n < 2 ^ 256 ∧ bal s.balances env.caller u + m < 2 ^ 256
  · rw [failIf_neg (by rw [can_false hn, can_false hm]; tauto), ok_bind, if_pos h, both_failure]
  · rw [failIf_pos (by rw [can_false hn, can_false hm]; tauto), if_neg h]; rfl

private theorem decrease_failure {b : Balances} {c : ActorId} (hb : BalWF b) :
    failure (decreaseTokenBalance b t c (some n)) = lack b c t n := by
  unfold lack
  cases n with
  | zero => rw [if_pos (Nat.zero_le _)]; rfl
  | succ n =>
    unfold decreaseTokenBalance bal
    cases hg : b.get (c, t) with
    | none =>
      simp only [Option.getD_none]
      rw [if_neg (by omega), if_pos trivial]
      rfl
    | some v =>
      have := (hb _ _ hg).1
      simp only [Option.getD_some, okOr, ok_bind]
      by_cases hv : n + 1 ≠ v
      · rw [if_pos hv]
        unfold subC
        by_cases hle : n + 1 ≤ v
        · rw [if_pos hle, if_pos hle]; rfl
        · rw [if_neg hle, if_neg hle, if_neg this]; rfl
      · rw [if_neg hv, if_pos (by omega)]; rfl

/-- what a debit that succeeds takes -/
private theorem decrease_amount {b : Balances} {c : ActorId} {o : Option Nat} {d : Balances × Nat}
    (h : decreaseTokenBalance b t c o = .ok d) : d.2 = amountOf b c t o := by
  cases o with
  | some n => exact (decrease_bal h c t).2
  | none =>
    obtain ⟨v, hv, rfl⟩ := decrease_none_ok.1 h
    simp [amountOf, bal, hv]

private theorem decrease_none {b : Balances} {c : ActorId} {e : Err}
    (h : decreaseTokenBalance b t c none = .error e) : e = .inv .NoBalanceForTheToken ∧ bal b c t = 0 := by
  unfold decreaseTokenBalance at h
  cases hg : b.get (c, t) with
  | none =>
    rw [hg] at h
    simp only [okOr] at h
    cases h
    simp [bal, hg]
  | some v => rw [hg] at h; cases h

/-- C111, `withdraw_single_token`: refused for an amount of zero, an amount above the balance, and for the reasons of
`singleReason`; without an amount everything is taken, and if there is nothing, nothing is asked for. -/
theorem C111_withdraw (hr : Reach s) (o : Option Nat) : failure (start env r s (.withdrawSingle t o)) =
    if o = some 0 then some (.inv .AmountIsZero)
    else match lackOf s.balances env.caller t o with
      | some e => some e
      | none =>
        if amountOf s.balances env.caller t o = 0 then none
        else singleReason .withdrawal r env.caller t (amountOf s.balances env.caller t o) := by
  have hb := reach_balWF hr
  simp only [start]
  unfold withdrawSingle
  cases o with
  | some n =>
    by_cases h0 : n = 0
    · subst h0
      rw [if_pos rfl]
      rfl
    rw [if_neg (fun h => h0 (Option.some.inj h))]
    have hd := decrease_failure (t := t) (n := n) (c := env.caller) hb
    simp only [lackOf, takeSingle, ← hd]
    rw [failIf_neg h0, ok_bind]
    cases h : decreaseTokenBalance s.balances t env.caller (some n) with
    | error e => rfl
    | ok d =>
      have e := decrease_amount h
      rw [ok_bind, failure_ok]
      simp only [e, amountOf]
      rw [if_pos h0, single_failure]
      exact (if_neg h0).symm
  | none =>
    rw [if_neg (fun h => by cases h)]
    simp only [lackOf, takeSingle]
    cases h : decreaseTokenBalance s.balances t env.caller none with
    | error e =>
      have h0 := (decrease_none h).2
      rw [if_pos (show amountOf s.balances env.caller t none = 0 from h0)]
      rfl
    | ok d =>
      have e := decrease_amount h
      simp only [ok_bind, e]
      by_cases h0 : amountOf s.balances env.caller t none = 0
      · rw [if_neg (fun hc => hc h0), if_pos h0]; rfl
      · rw [if_pos h0, if_neg h0, single_failure]

private theorem leg_failure {b : Balances} {c : ActorId} (hb : BalWF b) (o : Option Nat) :
    (∃ e, (takeLeg b t c o).2 = .error e ∧ lackOf b c t o = some e) ∨
    ((takeLeg b t c o).2 = .ok (amountOf b c t o) ∧ lackOf b c t o = none) := by
  unfold takeLeg
  cases h : decreaseTokenBalance b t c o with
  | ok d =>
    right
    refine ⟨by rw [← decrease_amount h], ?_⟩
    cases o with
    | none => rfl
    | some n => rw [lackOf, ← decrease_failure hb, h]; rfl
  | error e =>
    cases o with
    | none =>
      obtain ⟨rfl, h0⟩ := decrease_none h
      right
      refine ⟨?_, rfl⟩
      dsimp only
      rw [if_pos ⟨rfl, rfl⟩, amountOf, h0]
    | some n =>
      left
      refine ⟨e, ?_, ?_⟩
      · dsimp only
        rw [if_neg (fun hc => by cases hc.2)]
      · rw [lackOf, ← decrease_failure hb, h]; rfl

private theorem leg_state {b : Balances} {c : ActorId} (hb : BalWF b) (o : Option Nat) :
    BalWF (takeLeg b t c o).1 ∧ ∀ w, w ≠ t → bal (takeLeg b t c o).1 c w = bal b c w := by
  unfold takeLeg
  cases hd : decreaseTokenBalance b t c o with
  | ok d =>
    dsimp only
    refine ⟨balWF_dec hb hd, fun w h => ?_⟩
    unfold bal
    rw [decrease_other hd (k := (c, w)) (fun e => h (by injection e))]
  | error e =>
    dsimp only
    split <;> exact ⟨hb, fun _ _ => rfl⟩

/-- C111, `withdraw_token_pair`: refused for two equal tokens, for a lack of the first, then of the second token, and
for the reasons of `sendReason`. -/
theorem C111_withdraw_pair (hr : Reach s) (o p : Option Nat) : failure (start env r s (.withdrawPair t o u p)) =
    if t = u then some (.inv .TokensAreSame)
    else match lackOf s.balances env.caller t o, lackOf s.balances env.caller u p with
      | some e, _ => some e
      | none, some e => some e
      | none, none => sendReason .withdrawal r env.caller t (amountOf s.balances env.caller t o) u
          (amountOf s.balances env.caller u p) := by
  have hb := reach_balWF hr
  simp only [start]
  unfold withdrawPair
  by_cases h0 : t = u
  · rw [failIf_pos h0, if_pos h0]; rfl
  rw [failIf_neg h0, if_neg h0, ok_bind]
  dsimp only
  obtain ⟨hb', hbal⟩ := leg_state (t := t) (c := env.caller) hb o
  have e1 : lackOf (takeLeg s.balances t env.caller o).1 env.caller u p = lackOf s.balances env.caller u p := by
    cases p with
    | none => rfl
    | some n => simp only [lackOf, lack, hbal u (Ne.symm h0)]
  have e2 : amountOf (takeLeg s.balances t env.caller o).1 env.caller u p = amountOf s.balances env.caller u p := by
    cases p with
    | none => exact hbal u (Ne.symm h0)
    | some n => rfl
  have hy := leg_failure (t := u) (c := env.caller) hb' p
  rw [e1, e2] at hy
  rcases leg_failure (t := t) (c := env.caller) hb o with ⟨e, hx, hl⟩ | ⟨hx, hl⟩
  · rw [hx, hl]; rfl
  rw [hx, hl, ok_bind]
  rcases hy with ⟨e, hy, hl'⟩ | ⟨hy, hl'⟩
  · rw [hy, hl']; rfl
  · rw [hy, hl', ok_bind, both_failure]

/-! ## The end of a transfer -/

variable {w : World} {k : Nat}

private theorem done_not_failed {l : Leg} (h : Done w l) : ¬ Failed w l := by
  obtain ⟨p, h1, h2⟩ := h
  rintro ⟨q, h3, h4⟩
  rw [h1] at h3
  cases h3
  rcases h4 with h4 | h4
  · exact not_pos_neg h2 h4
  · exact not_pos_panic h2 h4

private theorem settled (h : Hist w) {legs : List Leg} (ht : w.tasks.get k = some legs) {l : Leg} (hl : l ∈ legs) :
    (Pending w l ∧ (w.inv.awaiting.get (l.id, l.token)).isSome) ∨
    (¬ Pending w l ∧ w.inv.awaiting.get (l.id, l.token) = none ∧ (Done w l ∨ Failed w l)) := by
  cases ha : w.inv.awaiting.get (l.id, l.token) with
  | some a =>
    left
    refine ⟨?_, rfl⟩
    obtain ⟨ans, h1⟩ := (hist_inv h).tasks k legs ht l hl
    obtain ⟨m, h2, -, h3⟩ := (hist_inv h).aw _ _ _ ha
    rw [h1] at h2
    cases h2
    unfold Pending
    rw [ha, h3]
  | none =>
    right
    refine ⟨by unfold Pending; rw [ha]; simp, rfl, ?_⟩
    obtain ⟨p, h1, h2⟩ := (hist_told h).read k legs ht l hl ha
    have hs : said w l = some p := by unfold said; rw [h1]; rfl
    rcases h2 with h2 | h2 | h2
    · exact .inl ⟨p, hs, h2⟩
    · exact .inr ⟨p, hs, .inl h2⟩
    · exact .inr ⟨p, hs, .inr h2⟩

/-- C111: a command waits for one transfer or for two of the same kind, and each of them is still in the books or was
confirmed, refused or failed at the token contract. -/
theorem C111_waiting (h : Hist w) {legs : List Leg} (ht : w.tasks.get k = some legs) :
    ((∃ l, legs = [l]) ∨ ∃ x y, legs = [x, y] ∧ x.kind = y.kind) ∧
    ∀ l ∈ legs, Pending w l ∨ Done w l ∨ Failed w l := by
  refine ⟨?_, fun l hl => ?_⟩
  · rcases ((hist_told h).tasks k legs ht).2 with ⟨l, e, -⟩ | ⟨x, y, e, -, -, e'⟩
    · exact .inl ⟨l, e⟩
    · exact .inr ⟨x, y, e, e'⟩
  · rcases settled h ht hl with ⟨h, -⟩ | ⟨-, -, h⟩
    · exact .inl h
    · exact .inr h

/-- the error for a transfer that was not done -/
def Spec.failErr : TransferType → InvErr
  | .deposit => .UnrecoverableTransferError
  | .withdrawal => .RecoverableTransferError

private theorem result_of (h : Hist w) {legs : List Leg} (ht : w.tasks.get k = some legs) {l : Leg} (hl : l ∈ legs)
    {m : Option Bool} (hh : Heard w l m) (s : Inv) (hs : s.awaiting.get (l.id, l.token) = w.inv.awaiting.get (l.id, l.token)) :
    (Pending w l ∧ (handleTransferResult s m l).2 = .error .ReplyHandlingFailed) ∨
    (¬ Pending w l ∧ Done w l ∧ (handleTransferResult s m l).2 = .ok ()) ∨
    (¬ Pending w l ∧ Failed w l ∧ (handleTransferResult s m l).2 = .error (failErr l.kind)) := by
  unfold handleTransferResult
  rw [hs]
  rcases settled h ht hl with ⟨h1, h2⟩ | ⟨h1, h2, h3 | h3⟩
  · obtain ⟨a, ha⟩ := Option.isSome_iff_exists.1 h2
    rw [ha]
    exact .inl ⟨h1, rfl⟩
  · rw [h2]
    dsimp only
    rw [if_pos (hh.2 h3)]
    exact .inr (.inl ⟨h1, h3, rfl⟩)
  · rw [h2]
    dsimp only
    rw [if_neg (fun hc => done_not_failed (hh.1 hc) h3)]
    refine .inr (.inr ⟨h1, h3, ?_⟩)
    cases l.kind <;> rfl

/-- C111: the end of a single transfer. The caller is told of a mishandled reply exactly if the transfer is still in
the books, of success exactly if the token contract has confirmed, and of failure exactly if it has refused or
failed. -/
theorem C111_single (h : Hist w) {l : Leg} (ht : w.tasks.get k = some [l]) {m : Option Bool} (hh : Heard w l m) :
    ((resumeSingle w.inv l m).2 = .left ↔ Pending w l) ∧
    ((resumeSingle w.inv l m).2 = .done ↔ ¬ Pending w l ∧ Done w l) ∧
    (∀ e, (resumeSingle w.inv l m).2 = .panicked e ↔ ¬ Pending w l ∧ Failed w l ∧ e = failErr l.kind) := by
  unfold resumeSingle
  rcases result_of h ht (l := l) (by simp) hh w.inv rfl with ⟨h1, h2⟩ | ⟨h1, h2, h3⟩ | ⟨h1, h2, h3⟩
  · simp [h1, h2]
  · have := done_not_failed h2
    simp [h1, h2, h3, this]
  · have : ¬ Done w l := fun hc => done_not_failed hc h2
    cases hk : l.kind <;> rw [hk] at h3 <;> simp [h1, h2, h3, this, failErr, eq_comm]

/-- C111: the end of two transfers. The caller is told of a mishandled reply exactly if one of them is still in the
books, of success exactly if both were confirmed. An unrecoverable failure is a deposit of which nothing was
confirmed; in all other cases the failure is called recoverable, and one of the two transfers may have been done. -/
theorem C111_pair (h : Hist w) {x y : Leg} (ht : w.tasks.get k = some [x, y]) {mx my : Option Bool}
    (hx : Heard w x mx) (hy : Heard w y my) :
    ((resumePair w.inv x y mx my).2 = .left ↔ Pending w x ∨ Pending w y) ∧
    ((resumePair w.inv x y mx my).2 = .done ↔ ¬ Pending w x ∧ ¬ Pending w y ∧ Done w x ∧ Done w y) ∧
    (∀ e, (resumePair w.inv x y mx my).2 = .panicked e ↔ ¬ Pending w x ∧ ¬ Pending w y ∧
      (Failed w x ∧ Failed w y ∧ e = failErr x.kind ∨
        (Done w x ∧ Failed w y ∨ Failed w x ∧ Done w y) ∧ e = .RecoverableTransferError)) := by
  have hne : (y.id, y.token) ≠ (x.id, x.token) := by
    intro e
    rcases ((hist_told h).tasks k _ ht).2 with ⟨l, e', -⟩ | ⟨a, b, e', h1, h2, -⟩
    · cases e'
    · cases e'
      have := congrArg Prod.fst e
      simp only at this
      omega
  have hs : (handleTransferResult w.inv mx x).1.awaiting.get (y.id, y.token) =
      w.inv.awaiting.get (y.id, y.token) := by
    unfold handleTransferResult
    split
    · exact Map.get_erase_ne _ hne
    · rfl
  unfold resumePair
  dsimp only
  rcases result_of h ht (l := x) (by simp) hx w.inv rfl with ⟨a1, a2⟩ | ⟨a1, a2, a3⟩ | ⟨a1, a2, a3⟩ <;>
  rcases result_of h ht (l := y) (by simp) hy _ hs with ⟨b1, b2⟩ | ⟨b1, b2, b3⟩ | ⟨b1, b2, b3⟩
  · simp [a1, b1, a2, b2]
  · simp [a1, b1, a2]
  · simp [a1, b1, a2]
  · simp [a1, b1, b2]
  · have c1 := done_not_failed a2
    have c2 := done_not_failed b2
    simp [a1, b1, a2, b2, a3, b3, c1, c2]
  · have c1 := done_not_failed a2
    have c2 : ¬ Done w y := fun hc => done_not_failed hc b2
    cases hk : y.kind <;> rw [hk] at b3 <;> simp [a1, b1, a2, b2, a3, b3, c1, c2, failErr, eq_comm]
  · simp [a1, b1, b2]
  · have c1 : ¬ Done w x := fun hc => done_not_failed hc a2
    have c2 := done_not_failed b2
    cases hk : x.kind <;> rw [hk] at a3 <;> simp [a1, b1, a2, b2, a3, b3, c1, c2, failErr, eq_comm]
  · have c1 : ¬ Done w x := fun hc => done_not_failed hc a2
    have c2 : ¬ Done w y := fun hc => done_not_failed hc b2
    cases hk : x.kind <;> cases hk' : y.kind <;> rw [hk] at a3 <;> rw [hk'] at b3 <;>
      simp [a1, b1, a2, b2, a3, b3, c1, c2, failErr, eq_comm]

/-- account 2 has 100 of token 5: it cannot withdraw 200 of it, nor any of token 6, nor zero, nor the native coin by the
token command, nor with too little gas -/
example : let s := Async.deposited.inv
    let ask := fun gas c => failure (start (Async.by_ 2) ⟨9, gas, 2, true, true⟩ s c)
    ask (10 ^ 12) (.withdrawSingle 5 (some 200)) = some (.inv .FailedToChangeTokenBalance) ∧
    ask (10 ^ 12) (.withdrawSingle 6 (some 200)) = some (.inv .NoBalanceForTheToken) ∧
    ask (10 ^ 12) (.withdrawSingle 6 none) = none ∧
    ask (10 ^ 12) (.withdrawSingle 5 (some 0)) = some (.inv .AmountIsZero) ∧
    ask (10 ^ 12) (.depositSingle VARA 7) = some (.inv .InvalidVaraDepositAttempt) ∧
    ask 42400199999 (.withdrawSingle 5 (some 60)) = some (.inv .NotEnoughGasToExecute) ∧
    ask 42400200000 (.withdrawSingle 5 (some 60)) = none ∧
    ask 42400200000 (.depositPair 5 3 6 4) = some (.inv .NotEnoughGasToExecute) ∧
    ask 42400200000 (.depositPair 5 3 6 0) = none ∧
    ask (10 ^ 12) (.withdrawPair 6 (some 1) 5 (some 200)) = some (.inv .NoBalanceForTheToken) := by decide +kernel

/-- account 2 deposits 3 of token 5 and 4 of token 6. Token 5 confirms, token 6 refuses: a recoverable failure, and 3 have
been credited. Token 6 confirms, too, but its reply is not handled: this is what the caller is told. Both refuse: an
unrecoverable failure. -/
example : let w := Async.both.steps [.answer 2 Async.yes 103, .answer 3 Async.no 0, .deliver 2 true, .deliver 3 true]
    let v := Async.both.steps [.answer 2 Async.yes 103, .answer 3 Async.yes 4, .deliver 2 true, .deliver 3 false]
    let u := Async.both.steps [.answer 2 Async.no 100, .answer 3 Async.no 0, .deliver 2 true, .deliver 3 true]
    (w.tasks.get 2).map (fun l => l.map (·.id)) = some [2, 3] ∧ bal w.inv.balances 2 5 = 103 ∧
    (w.tasks.get 2).bind (fun l => match l with
      | [x, y] => some (resumePair w.inv x y (some true) (some false)).2
      | _ => none) = some (.panicked .RecoverableTransferError) ∧
    (v.tasks.get 2).bind (fun l => match l with
      | [x, y] => some (resumePair v.inv x y (some true) (some true)).2
      | _ => none) = some .left ∧
    (u.tasks.get 2).bind (fun l => match l with
      | [x, y] => some (resumePair u.inv x y (some false) (some false)).2
      | _ => none) = some (.panicked .UnrecoverableTransferError) := by decide +kernel

end Verif
