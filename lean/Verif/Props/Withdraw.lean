import Verif.Props.Async
import Verif.Props.Exploit

/-! # C44, C45, C48: withdrawals and conservation of tokens -/

namespace Verif
open Service Spec Async

private theorem bal_eq (b : Balances) (w t : ActorId) : Spec.bal b w t = balOf b w t := by
  unfold Spec.bal balOf
  cases b.get (w, t) <;> rfl

variable {w : World}

/-- sum of the amounts of a token in a list of requests -/
def Spec.requested (legs : List Leg) (t : ActorId) : Nat :=
  (legs.map fun l => if l.token = t then l.amount else 0).sum

/-! ## C44 -/

/-- C44: a withdrawal takes exactly the amounts it requests from the token contracts out of the caller's
balances, in the same step as it sends the requests; every request is for the caller, is recorded as
pending, and nothing else changes. -/
theorem C44_taken_first (env : Env) (r : SendEnv) (s s' : Inv) (c : ACall) (legs : List Leg)
    (hc : (∃ t n, c = .withdrawSingle t n) ∨ ∃ t n u m, c = .withdrawPair t n u m)
    (hs : start env r s c = .ok (s', legs)) :
    (∀ t, bal s.balances env.caller t = bal s'.balances env.caller t + requested legs t) ∧
    (∀ a t, a ≠ env.caller → s'.balances.get (a, t) = s.balances.get (a, t)) ∧
    (∀ l ∈ legs, l.kind = .withdrawal ∧ l.src = r.program ∧ l.dst = env.caller ∧ l.amount ≠ 0 ∧
      s'.awaiting.get (l.id, l.token) = some ⟨env.caller, l.amount, .withdrawal⟩) ∧
    s' = { s with balances := s'.balances, awaiting := s'.awaiting } := by
  have h := start_ok hs
  have hk : ACall.kind c = .withdrawal := by
    rcases hc with ⟨t, n, rfl⟩ | ⟨t, n, u, m, rfl⟩ <;> rfl
  simp only [hk] at h
  refine ⟨?_, fun a t ha => h.ops.other ha, ?_, ?_⟩
  · intro t
    have := h.bal rfl env.caller t
    rw [bal_eq, bal_eq, this, if_pos rfl]
    rfl
  · intro l hl
    obtain ⟨h1, _, h3, h4, _⟩ := h.sent.each l hl
    simp only [ends, Prod.mk.injEq] at h4
    have hu := h.sent.user l hl
    refine ⟨h1, h4.1, h4.2, h3, ?_⟩
    rw [h.eq]
    simp only
    rw [addAwait_mem h.sent.distinct hl, hu, h1]
  · conv_lhs => rw [h.eq]
    congr 1
    rw [h.eq]

/-- C44 where it is true: if the withdrawal is still pending when a negative answer or an error text is
handled, exactly the amount is returned to the user, and it is settled. The full claim has no such
condition; see `C44_negation`. -/
theorem C44_returned_partial {l : Leg} {p : Bytes}
    (hm : w.msgs.get l.id = some ⟨l, some p⟩) (hk : l.kind = .withdrawal) (hp : Pending w l)
    (hneg : Negative p ∨ Panic p) (hfit : bal w.inv.balances l.dst l.token + l.amount < 2 ^ 256) :
    bal (w.step (.deliver l.id true)).inv.balances l.dst l.token =
      bal w.inv.balances l.dst l.token + l.amount ∧
    (∀ a u, (a, u) ≠ (l.dst, l.token) →
      (w.step (.deliver l.id true)).inv.balances.get (a, u) = w.inv.balances.get (a, u)) ∧
    ¬ Pending (w.step (.deliver l.id true)) l := by
  have hu : user l = l.dst := by unfold user; rw [hk]
  unfold Pending at hp ⊢
  have hd : (w.step (.deliver l.id true)).inv = replyHandler w.inv l.token l.id p := by
    simp only [World.step, hm, if_true]
  rw [hd]
  rcases replyHandler_some (p := p) hp with ⟨_, hc, e⟩ | ⟨_, hc, e⟩ | ⟨hc, e⟩
  · rw [e, hu]
    rw [bal_eq] at hfit
    have hi : increaseTokenBalance w.inv.balances l.token l.dst l.amount =
        .ok (if l.amount = 0 then w.inv.balances else
          w.inv.balances.insert (l.dst, l.token) (balOf w.inv.balances l.dst l.token + l.amount)) := by
      rw [increase_ok]
      by_cases hn : l.amount = 0
      · exact .inl ⟨hn, if_pos hn⟩
      · exact .inr ⟨hn, hfit, if_neg hn⟩
    have hcr : (creditOrLog w.inv l.token l.dst l.amount).balances =
        (if l.amount = 0 then w.inv.balances else
          w.inv.balances.insert (l.dst, l.token) (balOf w.inv.balances l.dst l.token + l.amount)) := by
      unfold creditOrLog
      rw [hi]
    refine ⟨?_, ?_, by simp⟩
    · simp only
      rw [hcr, bal_eq, bal_eq, increase_bal hi]
      simp
    · intro a u hne
      simp only
      rw [hcr]
      exact increase_other hi hne
  · exact absurd (show Credits l.kind p by rw [hk]; exact hneg) hc
  · exact absurd (.inr hneg) hc

/-- C44: a positive answer settles the withdrawal without returning anything (and by
`C46_settled_forever` nothing is returned later). -/
theorem C44_paid (h : Hist w) {l : Leg} {p : Bytes}
    (hm : w.msgs.get l.id = some ⟨l, some p⟩) (hk : l.kind = .withdrawal) (hpos : Positive p) :
    (w.step (.deliver l.id true)).inv.balances = w.inv.balances ∧
    ¬ Pending (w.step (.deliver l.id true)) l := by
  have hd : (w.step (.deliver l.id true)).inv = replyHandler w.inv l.token l.id p := by
    simp only [World.step, hm, if_true]
  unfold Pending
  rw [hd]
  cases ha : w.inv.awaiting.get (l.id, l.token) with
  | none => rw [replyHandler_none ha, ha]; simp
  | some a =>
    obtain ⟨m, h1, _, h3⟩ := (hist_inv h).aw _ _ _ ha
    rw [hm] at h1
    cases h1
    rcases replyHandler_some (p := p) ha with ⟨_, hc, e⟩ | ⟨_, hc, e⟩ | ⟨hc, e⟩
    · exfalso
      rw [h3] at hc
      simp only [hk] at hc
      exact hc.elim (not_pos_neg hpos) (not_pos_panic hpos)
    · rw [e]; simp
    · exact absurd (.inl hpos) hc

theorem hist_steps (es : List Event) : ∀ {w : World}, Hist w → Hist (w.steps es) := by
  induction es with
  | nil => exact fun h => h
  | cons e es ih => exact fun h => ih (.step e h)

/-- C44 is false as stated: if the waiting period ends before the token answers, the entry is dropped;
the negative answer that is handled afterwards returns nothing, then or ever, and the user has lost
the amount. -/
theorem C44_negation : ¬ ∀ (w : World) (l : Leg) (p : Bytes), Hist w → l.kind = .withdrawal →
    w.msgs.get l.id = some ⟨l, some p⟩ → Negative p →
    bal (w.step (.deliver l.id true)).inv.balances l.dst l.token =
      bal w.inv.balances l.dst l.token + l.amount := by
  intro h
  have h1 := h (Async.asked.steps [.resume 2 [none], .answer 2 Async.no 100]) ⟨2, 5, 9, 2, 60, .withdrawal⟩
    Async.no (hist_steps _ (.step _ (hist_steps _ (.step _ (.init ..))))) rfl
    (by
      have : ((Async.asked.steps [.resume 2 [none], .answer 2 Async.no 100]).msgs.get 2).map
          (fun m => (m.leg, m.answer)) = some (⟨2, 5, 9, 2, 60, .withdrawal⟩, some Async.no) := by
        decide +kernel
      cases hg : (Async.asked.steps [.resume 2 [none], .answer 2 Async.no 100]).msgs.get 2 with
      | none => rw [hg] at this; cases this
      | some m =>
        obtain ⟨l, a⟩ := m
        rw [hg] at this
        simp only [Option.map_some, Option.some.injEq, Prod.mk.injEq] at this
        rw [this.1, this.2])
    (by decide)
  revert h1
  decide +kernel

/-- the ordinary course of events: the deposit arrives, the withdrawal is taken; a negative answer
returns it, a positive one does not, an unreadable one leaves it pending -/
example : bal Async.deposited.inv.balances 2 5 = 100 ∧ bal Async.asked.inv.balances 2 5 = 40 ∧
    bal (Async.asked.steps [.answer 2 Async.no 100, .deliver 2 true]).inv.balances 2 5 = 100 ∧
    bal (Async.asked.steps [.answer 2 Async.no 100, .deliver 2 true, .deliver 2 true]).inv.balances 2 5 = 100 ∧
    bal (Async.asked.steps [.answer 2 Async.yes 40, .deliver 2 true]).inv.balances 2 5 = 40 ∧
    bal (Async.asked.steps [.answer 2 [99, 1] 100, .deliver 2 true]).inv.balances 2 5 = 40 ∧
    ((Async.asked.steps [.answer 2 [99, 1] 100, .deliver 2 true]).inv.awaiting.get (2, 5)).isSome := by
  decide +kernel

/-! ## C45 -/

/-- C45, the part that concerns the transfers: for an honest token, no event other than a synchronous
call ever raises the internal balances together with what is still owed by more than the holdings. -/
theorem C45_transfers_conserve {t : ActorId} (h : Hist w) (e : Event) (he : ∀ env c, e ≠ .call env c)
    (hh : Honest t w e) :
    total (w.step e).inv.balances t + owed (w.step e) t + w.held t ≤
      total w.inv.balances t + owed w t + (w.step e).held t := by
  have h1 := step_conserve (hist_inv h) t e hh
  have h2 : (w.step e).booked = w.booked := by
    cases e with
    | call env c => exact absurd rfl (he env c)
    | drift u n => rfl
    | start => simp only [World.step]; split <;> rfl
    | answer => simp only [World.step]; split <;> rfl
    | resume => simp only [World.step]; split <;> rfl
    | deliver => simp only [World.step]; split <;> [split <;> rfl; rfl]
  rw [h2] at h1
  omega

/-- C45 where it is true: in every history in which token `t` is honest, its holdings cover the
internal balances and everything owed by unresolved transfers, except for what synchronous calls have
booked from the pools (`booked`). The full claim is this with `booked` left out; the liquidity pools
refute that, see `C37_negation`. -/
theorem C45_holdings_partial {t : ActorId} (h : HonestHist t w) :
    (total w.inv.balances t : Int) + owed w t ≤ w.held t + w.booked t := honest_conserve h

/-- C45 for histories in which the balances of the token are only moved by transfers or between users
and into pools: the holdings cover everything. -/
theorem C45_holdings_if_booked {t : ActorId} (h : HonestHist t w) (hb : w.booked t ≤ 0) :
    total w.inv.balances t + owed w t ≤ w.held t := by
  have := honest_conserve h
  omega

namespace Async

/-- the token contract `t` is honest in this event -/
def honestB (t : ActorId) (w : World) : Event → Bool
  | .answer id p h =>
    match w.msgs.get id with
    | some ⟨l, none⟩ =>
      if l.token ≠ t then true
      else if Positive p then
        match l.kind with
        | .deposit => h = w.held t + l.amount
        | .withdrawal => h + l.amount = w.held t
      else h = w.held t
    | _ => true
  | .drift u h => if u = t then decide (w.held t ≤ h) else true
  | _ => true

def honestAll (t : ActorId) : World → List Event → Bool
  | _, [] => true
  | w, e :: l => honestB t w e && honestAll t (w.step e) l

/-- the history of `Exploit` with the deposits made through the token contracts -/
def exploit : List Event :=
  [.start (by_ 2) (10 ^ 12) true true (.depositSingle 5 (10 ^ 6)), .answer 0 yes (10 ^ 6),
   .deliver 0 true, .resume 0 [some true],
   .start (by_ 2) (10 ^ 12) true true (.depositSingle 7 (10 ^ 9)), .answer 2 yes (10 ^ 9),
   .deliver 2 true, .resume 2 [some true],
   .start (by_ 3) (10 ^ 12) true true (.depositSingle 5 (10 ^ 9)), .answer 4 yes (10 ^ 9 + 10 ^ 6),
   .deliver 4 true, .resume 4 [some true],
   .call (by_ 1) (.addFeeTier Exploit.tier), .call (by_ 2) (.createPool 5 7 Exploit.tier (10 ^ 24) 0),
   .call (by_ 2) (.createPosition Exploit.key 0 10 (10 ^ 14) 0 (10 ^ 25)),
   .call (by_ 2) (.swap Exploit.key false 500101 true Exploit.p10),
   .call (by_ 2) (.swap Exploit.key false (10 ^ 8) true (2 * 10 ^ 24)),
   .call (by_ 2) (.removePosition 0)]

end Async

theorem honest_of {t : ActorId} {e : Event} (h : honestB t w e = true) : Honest t w e := by
  cases e with
  | answer id p n =>
    intro l hl ht
    simp only [honestB, hl, ht, ne_eq, not_true_eq_false, if_false] at h
    split
    · next hp =>
      rw [if_pos hp] at h
      split
      · next hk => rw [hk] at h; simpa using h
      · next hk => rw [hk] at h; simpa using h
    · next hp => rw [if_neg hp] at h; simpa using h
  | drift u n =>
    intro hu
    simp only [honestB, if_pos hu] at h
    simpa using h
  | _ => trivial

private theorem honest_all {t : ActorId} (l : List Event) : ∀ {w : World}, HonestHist t w →
    honestAll t w l = true → HonestHist t (w.steps l) := by
  induction l with
  | nil => exact fun h _ => h
  | cons e l ih =>
    intro w h ha
    simp only [honestAll, Bool.and_eq_true] at ha
    exact ih (.step e h (honest_of ha.1)) ha.2

/-- C45 is false as stated, because of what the pools credit (the history of `C37_negation`): the
internal balances exceed the holdings of an honest token. -/
theorem C45_negation : ¬ ∀ t w, HonestHist t w → total w.inv.balances t + owed w t ≤ w.held t := by
  intro h
  have h1 := h 5 ((World.init 9 1 0 fun _ => 0).steps Async.exploit)
    (honest_all _ (.init ..) (by decide +kernel))
  have h2 : total ((World.init 9 1 0 fun _ => 0).steps Async.exploit).inv.balances 5 = 1091822352 := by
    decide +kernel
  have h3 : ((World.init 9 1 0 fun _ => 0).steps Async.exploit).held 5 = 1001000000 := by decide +kernel
  omega

/-- 100 deposited, 60 on the way back: 40 in the books, 60 owed, 100 held; after the payment 40 held -/
example : total Async.asked.inv.balances 5 = 40 ∧ owed Async.asked 5 = 60 ∧ Async.asked.held 5 = 100 ∧
    owed (Async.asked.step (.answer 2 Async.yes 40)) 5 = 0 ∧
    (Async.asked.step (.answer 2 Async.yes 40)).held 5 = 40 := by decide +kernel

/-! ## C48 -/

/-- C48: withdrawing without an amount requests exactly the caller's balance (nothing if there is none)
and leaves none. -/
theorem C48_all_single (env : Env) (r : SendEnv) (s s' : Inv) (t : ActorId) (legs : List Leg)
    (hs : start env r s (.withdrawSingle t none) = .ok (s', legs)) :
    bal s'.balances env.caller t = 0 ∧ requested legs t = bal s.balances env.caller t ∧
    (bal s.balances env.caller t = 0 → legs = []) := by
  simp only [start, withdrawSingle, takeSingle, bind_ok_iff] at hs
  obtain ⟨d, hd, hs⟩ := hs
  cases hdec : decreaseTokenBalance s.balances t env.caller none with
  | error e =>
    rw [hdec] at hd
    simp only [Except.ok.injEq] at hd
    subst hd
    simp only [ne_eq, not_true_eq_false, if_false, pure_ok_iff, Prod.mk.injEq] at hs
    obtain ⟨rfl, rfl⟩ := hs
    have hz : s.balances.get (env.caller, t) = none := by
      cases hg : s.balances.get (env.caller, t) with
      | none => rfl
      | some v => rw [decreaseTokenBalance, hg] at hdec; cases hdec
    simp [bal, hz, requested]
  | ok q =>
    rw [hdec] at hd
    simp only [Except.ok.injEq] at hd
    subst hd
    obtain ⟨v, hv, rfl⟩ := decrease_none_ok.1 hdec
    have hb : bal s.balances env.caller t = v := by simp [bal, hv]
    simp only at hs
    split at hs
    · next hne =>
      obtain ⟨h1, _, l, rfl, rfl, h3⟩ := transferSingle_ok hs
      simp only at h1 h3
      refine ⟨?_, ?_, ?_⟩
      · rw [h1]; simp [bal]
      · simp [requested, h3, hb]
      · intro h0; omega
    · next h0 =>
      have h0 : v = 0 := by simpa using h0
      simp only [pure_ok_iff, Prod.mk.injEq] at hs
      obtain ⟨rfl, rfl⟩ := hs
      refine ⟨by simp [bal], ?_, fun _ => rfl⟩
      simp [requested, hb, h0]

/-- C48: the same for the native coin. -/
theorem C48_all_vara (env : Env) (s s' : Inv) (v : Nat)
    (hs : Service.withdrawVara env s none = .ok (s', v)) :
    v = bal s.balances env.caller VARA ∧ bal s'.balances env.caller VARA = 0 := by
  simp only [withdrawVara, bind_ok_iff, fit_ok_iff, pure_ok_iff, Prod.mk.injEq] at hs
  obtain ⟨d, hd, x, ⟨_, rfl⟩, rfl, rfl⟩ := hs
  cases hdec : decreaseTokenBalance s.balances VARA env.caller none with
  | error e =>
    rw [hdec] at hd
    simp only [Except.ok.injEq] at hd
    subst hd
    have hz : s.balances.get (env.caller, VARA) = none := by
      cases hg : s.balances.get (env.caller, VARA) with
      | none => rfl
      | some v => rw [decreaseTokenBalance, hg] at hdec; cases hdec
    simp [bal, hz]
  | ok q =>
    rw [hdec] at hd
    simp only [Except.ok.injEq] at hd
    subst hd
    obtain ⟨v, hv, rfl⟩ := decrease_none_ok.1 hdec
    simp [bal, hv]

private theorem takeLeg_none (b : Balances) (t who : ActorId) :
    takeLeg b t who none = (b.erase (who, t), .ok (balOf b who t)) := by
  unfold takeLeg decreaseTokenBalance balOf
  cases hg : b.get (who, t) with
  | none => simp [okOr, Map.erase_eq_self hg, bind, Except.bind]
  | some v => simp [okOr, bind, Except.bind, pure, Except.pure]

/-- C48: a two-token withdrawal without amounts requests exactly both balances and leaves none. -/
theorem C48_all_pair (env : Env) (r : SendEnv) (s s' : Inv) (t u : ActorId) (legs : List Leg)
    (hs : start env r s (.withdrawPair t none u none) = .ok (s', legs)) :
    bal s'.balances env.caller t = 0 ∧ bal s'.balances env.caller u = 0 ∧
    requested legs t = bal s.balances env.caller t ∧
    requested legs u = bal s.balances env.caller u := by
  have h := C44_taken_first env r s s' _ legs (.inr ⟨t, none, u, none, rfl⟩) hs
  have h1 := h.1 t
  have h2 := h.1 u
  simp only [start, withdrawPair, bind_ok_iff, failIf_ok_iff, takeLeg_none] at hs
  obtain ⟨_, hne, x, hx, y, hy, hs⟩ := hs
  obtain ⟨e, _, _⟩ := transferBoth_ok hs
  simp only at e
  have b1 : bal s'.balances env.caller t = 0 := by rw [e]; simp [bal, Map.get_erase]
  have b2 : bal s'.balances env.caller u = 0 := by rw [e]; simp [bal]
  exact ⟨b1, b2, by omega, by omega⟩

/-- C48: an explicit amount above the balance makes the whole withdrawal fail. -/
theorem C48_too_much (env : Env) (r : SendEnv) (s : Inv) (t u : ActorId) (n : Nat)
    (m : Option Nat) (hn : bal s.balances env.caller t < n) :
    (start env r s (.withdrawSingle t (some n))).isOk = false ∧
    (start env r s (.withdrawPair t (some n) u m)).isOk = false ∧
    (start env r s (.withdrawPair u m t (some n))).isOk = false := by
  have key : ∀ {b : Balances} {q : Balances × Nat}, bal b env.caller t < n →
      decreaseTokenBalance b t env.caller (some n) ≠ .ok q := by
    intro b q hb hd
    rcases decrease_some_ok.1 hd with ⟨rfl, _⟩ | ⟨_, v, hv, hle, _⟩
    · omega
    · have : bal b env.caller t = v := by simp [bal, hv]
      omega
  have kl : ∀ {b : Balances} {v : Nat}, bal b env.caller t < n →
      (takeLeg b t env.caller (some n)).2 ≠ .ok v := by
    intro b v hb h
    unfold takeLeg at h
    split at h
    · next q hq => exact key hb hq
    · split at h
      · next hc => cases hc.2
      · cases h
  have no : ∀ {α : Type} (x : M α), (∀ a, x ≠ .ok a) → x.isOk = false := by
    intro α x hx
    cases x with
    | ok a => exact absurd rfl (hx a)
    | error e => rfl
  refine ⟨no _ ?_, no _ ?_, no _ ?_⟩
  · intro a h
    simp only [start, withdrawSingle, takeSingle, bind_ok_iff, failIf_ok_iff] at h
    obtain ⟨q, ⟨_, _, hq⟩, _⟩ := h
    exact key hn hq
  · intro a h
    simp only [start, withdrawPair, bind_ok_iff, failIf_ok_iff] at h
    obtain ⟨_, _, x, hx, _⟩ := h
    exact kl hn hx
  · intro a h
    simp only [start, withdrawPair, bind_ok_iff, failIf_ok_iff] at h
    obtain ⟨_, hne, x, hx, y, hy, _⟩ := h
    refine kl ?_ hy
    have hb := (takeLeg_took hx).bal env.caller t
    rw [bal_eq] at hn ⊢
    rw [if_neg (fun h => hne h.2.symm)] at hb
    omega

/-- everything of token 5: 100; then nothing is left to ask for -/
example : (match start (Async.by_ 2) ⟨9, 10 ^ 12, 7, true, true⟩ Async.deposited.inv (.withdrawSingle 5 none) with
      | .ok (s, legs) => some (legs, bal s.balances 2 5)
      | .error _ => none) = some ([⟨7, 5, 9, 2, 100, .withdrawal⟩], 0) ∧
    (match start (Async.by_ 3) ⟨9, 10 ^ 12, 7, true, true⟩ Async.deposited.inv (.withdrawSingle 5 none) with
      | .ok (s, legs) => some (legs, bal s.balances 2 5)
      | .error _ => none) = some ([], 100) ∧
    (start (Async.by_ 2) ⟨9, 10 ^ 12, 7, true, true⟩ Async.deposited.inv
      (.withdrawPair 6 none 5 (some 101))).isOk = false := by decide +kernel

end Verif
