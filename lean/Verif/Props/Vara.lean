import Verif.Props.Withdraw

/-! # C47: the native coin -/

namespace Verif
open Service Spec Async

private theorem bal_eq (b : Balances) (w t : ActorId) : Spec.bal b w t = balOf b w t := by
  unfold Spec.bal balOf
  cases b.get (w, t) <;> rfl

/-- no pool trades the token -/
def Spec.Untraded (s : Inv) (t : ActorId) : Prop :=
  ∀ k, (s.pools.get k).isSome → k.tokenX ≠ t ∧ k.tokenY ≠ t

/-- C47: nothing that happens around token transfers (requests, replies, timeouts) changes anybody's
balance of the native coin. -/
theorem C47_transfers {w : World} (h : Hist w) (e : Event) (he : ∀ env c, e ≠ .call env c)
    (who : ActorId) :
    bal (w.step e).inv.balances who VARA = bal w.inv.balances who VARA := by
  have hw := hist_inv h
  have hle : ¬ bal w.inv.balances who VARA < bal (w.step e).inv.balances who VARA := by
    intro hr
    obtain ⟨l, p, _, hm, _, ht, _⟩ := C43_cause h e he who VARA hr
    exact (hw.ids _ _ hm).2.2.1 ht
  cases e with
  | call env c => exact absurd rfl (he env c)
  | drift u n => rfl
  | answer id p n => simp only [World.step]; split <;> rfl
  | resume k ms => rw [(C46_resume k ms).1]
  | deliver id runs =>
    cases hm : w.msgs.get id with
    | none => simp only [World.step, hm]
    | some m =>
      obtain ⟨l, a⟩ := m
      obtain ⟨_, hid, hv, _⟩ := hw.ids _ _ hm
      simp only at hid hv
      subst hid
      have := (C46_independent h hm runs).1 (who, VARA) (by
        intro e
        simp only [Prod.mk.injEq] at e
        exact hv e.2.symm)
      unfold bal
      rw [this]
  | start env gas b1 b2 c =>
    simp only [World.step]
    split
    · rfl
    · next s legs hs =>
      have hs := start_ok hs
      simp only at hs ⊢
      cases hk : ACall.kind c with
      | deposit => rw [hs.dep hk]
      | withdrawal =>
        have hb := hs.bal hk who VARA
        have hz : legSum legs VARA = 0 := by
          unfold legSum
          rw [List.sum_eq_zero_iff]
          intro x hx
          rw [List.mem_map] at hx
          obtain ⟨l, hl, rfl⟩ := hx
          exact if_neg (hs.sent.each l hl).2.1
        rw [hz] at hb
        rw [bal_eq, bal_eq, hb]
        simp

/-- C47: a request to a token contract never names the native coin, never has amount zero and never
goes from the program to itself. -/
theorem C47_requests (env : Env) (r : SendEnv) (s s' : Inv) (c : ACall) (legs : List Leg)
    (hs : start env r s c = .ok (s', legs)) :
    ∀ l ∈ legs, l.token ≠ VARA ∧ l.amount ≠ 0 ∧ l.src ≠ l.dst := by
  intro l hl
  obtain ⟨_, h2, h3, h4, h5⟩ := (start_ok hs).sent.each l hl
  refine ⟨h2, h3, ?_⟩
  cases hk : ACall.kind c <;> rw [hk] at h4 <;> simp only [ends, Prod.mk.injEq] at h4 <;>
    rw [h4.1, h4.2]
  · exact h5
  · exact h5.symm

private theorem isOk_false {α : Type} {x : M α} (h : ∀ a, x ≠ .ok a) : x.isOk = false := by
  cases x with
  | ok a => exact absurd rfl (h a)
  | error e => rfl

private theorem single_bad {r : SendEnv} {s : Inv} {t c : ActorId} {n : Nat} {k : TransferType}
    {a : Inv × List Leg} (h : t = VARA ∨ n = 0 ∨ c = r.program) :
    transferSingle r s t c n k ≠ .ok a := by
  intro hs
  obtain ⟨_, h2, l, h3, h4, h5⟩ := transferSingle_ok hs
  obtain ⟨_, b, c', _, e⟩ := h2.each l (by rw [h3]; simp)
  rcases h with h | h | h
  · exact b (h4 ▸ h)
  · exact c' (h5 ▸ h)
  · exact e h

/-- C47: deposits and withdrawals of the native coin through the token interface are refused, as are
explicit zero amounts; so is everything the program would send to itself. -/
theorem C47_refused (env : Env) (r : SendEnv) (s : Inv) (t : ActorId) (n : Nat)
    (h : t = VARA ∨ n = 0 ∨ env.caller = r.program) :
    (start env r s (.depositSingle t n)).isOk = false ∧
    (start env r s (.withdrawSingle t (some n))).isOk = false := by
  refine ⟨isOk_false ?_, isOk_false ?_⟩
  · intro a hs
    simp only [start, depositSingle, bind_ok_iff, failIf_ok_iff] at hs
    obtain ⟨_, _, hs⟩ := hs
    exact single_bad h hs
  · intro a hs
    simp only [start, withdrawSingle, takeSingle, bind_ok_iff, failIf_ok_iff] at hs
    obtain ⟨q, ⟨_, hn, hq⟩, hs⟩ := hs
    have hq2 : q.2 = n := (decrease_bal hq env.caller t).2
    rw [hq2, if_pos hn] at hs
    exact single_bad h hs

/-- C47, for the two tokens of a pair: the full statement is

    ∀ env r s t n u m, t = VARA ∨ u = VARA ∨ n = 0 ∨ m = 0 ∨ env.caller = r.program →
      (start env r s (.depositPair t n u m)).isOk = false ∧
      (start env r s (.withdrawPair t (some n) u (some m))).isOk = false

which is false (`C47_negation`). Proved: a token is refused if its own amount is not zero. -/
theorem C47_refused_pair_partial (env : Env) (r : SendEnv) (s : Inv) (t u : ActorId) (n m : Nat)
    (h : ((t = VARA ∨ env.caller = r.program) ∧ n ≠ 0) ∨ ((u = VARA ∨ env.caller = r.program) ∧ m ≠ 0)) :
    (start env r s (.depositPair t n u m)).isOk = false ∧
    (start env r s (.withdrawPair t (some n) u (some m))).isOk = false := by
  have key : ∀ {s : Inv} {k : TransferType} {a : Inv × List Leg},
      transferBoth r s env.caller t n u m k ≠ .ok a := by
    intro s k a hs
    unfold transferBoth at hs
    split at hs
    · next hnm =>
      obtain ⟨_, h2, x, y, h3, h4⟩ := transferPair_ok hs
      have hx := h2.each x (by rw [h3]; simp)
      have hy := h2.each y (by rw [h3]; simp)
      simp_all
    · split at hs
      · next h1 h2 =>
        refine single_bad ?_ hs
        rcases h with ⟨h | h, _⟩ | ⟨_, hm⟩
        · exact .inl h
        · exact .inr (.inr h)
        · exact absurd ⟨h2, hm⟩ h1
      · next h1 h2 =>
        have hm : m ≠ 0 := by
          rcases h with ⟨_, hn⟩ | ⟨_, hm⟩
          · exact absurd hn h2
          · exact hm
        rw [if_pos hm] at hs
        refine single_bad ?_ hs
        rcases h with ⟨_, hn⟩ | ⟨h | h, _⟩
        · exact absurd hn h2
        · exact .inl h
        · exact .inr (.inr h)
  refine ⟨isOk_false ?_, isOk_false ?_⟩
  · intro a hs
    simp only [start, depositPair, bind_ok_iff, failIf_ok_iff] at hs
    obtain ⟨_, _, _, _, hs⟩ := hs
    exact key hs
  · intro a hs
    simp only [start, withdrawPair, bind_ok_iff, failIf_ok_iff] at hs
    obtain ⟨_, _, x, hx, y, hy, hs⟩ := hs
    have leg : ∀ {b : Balances} {v : ActorId} {i j : Nat},
        (takeLeg b v env.caller (some i)).2 = .ok j → j = i := by
      intro b v i j hj
      unfold takeLeg at hj
      split at hj
      · next q hq =>
        simp only [Except.ok.injEq] at hj
        rw [← hj]
        exact (decrease_bal hq env.caller v).2
      · split at hj
        · next hc => cases hc.2
        · cases hj
    rw [leg hx, leg hy] at hs
    exact key hs

/-- C47: `deposit_vara` credits the caller with exactly the attached value, and changes nothing else. -/
theorem C47_deposit (env : Env) (s s' : Inv) (v : Nat) (h : Service.depositVara env s = .ok (s', v)) :
    v = env.value ∧ (∀ a t, bal s'.balances a t =
      bal s.balances a t + if a = env.caller ∧ t = VARA then env.value else 0) ∧
    s' = { s with balances := s'.balances } := by
  obtain ⟨b, hb, e⟩ := depositVara_ok h
  simp only [Prod.mk.injEq] at e
  obtain ⟨rfl, rfl⟩ := e
  refine ⟨rfl, ?_, rfl⟩
  intro a t
  rw [bal_eq, bal_eq, increase_bal hb]

/-- C47: `withdraw_vara` takes exactly the value it sends back from the caller's balance, and changes
nothing else. -/
theorem C47_withdraw (env : Env) (s s' : Inv) (n : Option Nat) (v : Nat)
    (h : Service.withdrawVara env s n = .ok (s', v)) :
    (∀ m, n = some m → v = m ∧ m ≠ 0) ∧ (∀ a t, bal s.balances a t =
      bal s'.balances a t + if a = env.caller ∧ t = VARA then v else 0) ∧
    s' = { s with balances := s'.balances } := by
  obtain ⟨b, e, _, hc⟩ := withdrawVara_ok h
  simp only [Prod.mk.injEq, and_true] at e
  subst e
  simp only [and_true] at hc ⊢
  rcases hc with ⟨m, rfl, hm, hd⟩ | ⟨rfl, hd⟩ | ⟨rfl, hz, rfl, rfl⟩
  · have hb := decrease_bal hd
    refine ⟨?_, ?_⟩
    · intro m' e
      cases e
      exact ⟨(hb env.caller VARA).2, hm⟩
    · intro a t
      have h1 := (hb a t).1
      have h2 : v = m := (hb a t).2
      rw [bal_eq, bal_eq, h1, h2]
  · refine ⟨by simp, ?_⟩
    obtain ⟨x, hx, e⟩ := decrease_none_ok.1 hd
    simp only [Prod.mk.injEq] at e
    obtain ⟨rfl, rfl⟩ := e
    intro a t
    by_cases hat : a = env.caller ∧ t = VARA
    · obtain ⟨rfl, rfl⟩ := hat
      simp [bal, hx]
    · have : (a, t) ≠ (env.caller, VARA) := by simpa using hat
      rw [if_neg hat]
      simp [bal, Map.get_erase_ne _ this]
  · exact ⟨by simp, by simp⟩

/-- C47: all other synchronous calls leave every balance alone in a token that no pool trades. With
`C47_deposit`, `C47_withdraw` and `C47_transfers` this lists every way the native coin can move. -/
theorem C47_other_calls (env : Env) (s s' : Inv) (c : Call) (t : ActorId) (hu : Untraded s t)
    (h1 : c ≠ .depositVara) (h2 : ∀ v, c ≠ .withdrawVara v) (h : step env s c = .ok s') :
    ∀ a, bal s'.balances a t = bal s.balances a t := by
  have main : ∀ (s s' : Inv) (c : Call), (∀ a e sl h, c ≠ .swapRoute a e sl h) →
      c ≠ .depositVara → (∀ v, c ≠ .withdrawVara v) → Untraded s t →
      step env s c = .ok s' → ∀ a, s'.balances.get (a, t) = s.balances.get (a, t) := by
    clear h h1 h2 hu s s' c
    intro s s' c hc h1 h2 hu h a
    have use : ∀ {k p}, s.pools.get k = some p →
        (∀ b, (a, t) ≠ (b, k.tokenX)) ∧ ∀ b, (a, t) ≠ (b, k.tokenY) := by
      intro k p hk
      have := hu k (by rw [hk]; rfl)
      constructor <;> (intro b e; simp only [Prod.mk.injEq] at e)
      · exact this.1 e.2.symm
      · exact this.2 e.2.symm
    cases c with
    | changeProtocolFee f =>
      simp only [step, changeProtocolFee, bind_ok_iff, failIf_ok_iff, pure_ok_iff] at h
      obtain ⟨_, ⟨_, _, rfl⟩, rfl⟩ := h
      rfl
    | addFeeTier t =>
      simp only [step, addFeeTier, bind_ok_iff, failIf_ok_iff, pure_ok_iff] at h
      obtain ⟨_, ⟨_, _, _, _, _, _, _, _, rfl⟩, rfl⟩ := h
      rfl
    | removeFeeTier t =>
      simp only [step, removeFeeTier, bind_ok_iff, failIf_ok_iff, pure_ok_iff] at h
      obtain ⟨_, ⟨_, _, _, _, rfl⟩, rfl⟩ := h
      rfl
    | createPool x y t p i =>
      obtain ⟨_, _, _, _, _, _, _, rfl⟩ := createPool_ok h
      rfl
    | changeFeeReceiver k r =>
      obtain ⟨_, _, _, rfl⟩ := changeFeeReceiver_ok h
      rfl
    | createPosition k l u d x y =>
      simp only [step, bind_ok_iff, pure_ok_iff] at h
      obtain ⟨r, h, rfl⟩ := h
      obtain ⟨_, _, _, _, _, _, _, _, _, hp, _, _, _, hx, hy, g1, g2, _⟩ := createPosition_ok h
      rw [putTicks_eq g1 g2]
      simp only
      rw [decrease_other hy ((use hp).2 _), decrease_other hx ((use hp).1 _)]
    | removePosition i =>
      simp only [step, bind_ok_iff, pure_ok_iff] at h
      obtain ⟨r, h, rfl⟩ := h
      obtain ⟨_, _, _, _, _, _, _, _, _, _, _, _, _, hp, _, g1, g2, _, hx, hy, rfl⟩ :=
        removePosition_ok h
      have e := dropTicks_eq g1 g2
      rw [e] at hx
      simp only
      rw [increase_other hy ((use hp).2 _), increase_other hx ((use hp).1 _)]
    | transferPosition i r =>
      obtain ⟨_, _, _, rfl⟩ := transferPosition_ok h
      rfl
    | swap k d x b l =>
      simp only [step, bind_ok_iff, pure_ok_iff] at h
      obtain ⟨r, h, rfl⟩ := h
      obtain ⟨_, _, _, g1, _, hx, hy, e⟩ := swap_ok h
      obtain ⟨p, hp, _⟩ := calculateSwap_pool g1
      rw [e]
      simp only
      cases d <;> simp only [Bool.false_eq_true, if_false, if_true] at hx hy
      · rw [increase_other hy ((use hp).1 _), decrease_other hx ((use hp).2 _)]
      · rw [increase_other hy ((use hp).2 _), decrease_other hx ((use hp).1 _)]
    | swapRoute a e sl hp => exact absurd rfl (hc a e sl hp)
    | claimFee i =>
      simp only [step, bind_ok_iff, pure_ok_iff] at h
      obtain ⟨r, h, rfl⟩ := h
      obtain ⟨_, _, _, _, _, _, _, _, _, _, _, hp, _, _, hx, hy, rfl⟩ := claimFee_ok h
      simp only
      rw [increase_other hy ((use hp).2 _), increase_other hx ((use hp).1 _)]
    | withdrawProtocolFee k =>
      simp only [step, bind_ok_iff, pure_ok_iff] at h
      obtain ⟨r, h, rfl⟩ := h
      obtain ⟨_, _, _, hp, _, hx, hy, rfl⟩ := withdrawProtocolFee_ok h
      simp only
      rw [increase_other hy ((use hp).2 _), increase_other hx ((use hp).1 _)]
    | depositVara => exact absurd rfl h1
    | withdrawVara v => exact absurd rfl (h2 v)
  suffices hs : ∀ a, s'.balances.get (a, t) = s.balances.get (a, t) by
    intro a; unfold bal; rw [hs a]
  by_cases hc : ∃ a e sl hp, c = .swapRoute a e sl hp
  · obtain ⟨x, e, sl, hp, rfl⟩ := hc
    simp only [step, bind_ok_iff, pure_ok_iff] at h
    obtain ⟨r, h, rfl⟩ := h
    have := route_induction (env := env)
      (R := fun s s' => Untraded s t → Untraded s' t ∧ ∀ a, s'.balances.get (a, t) = s.balances.get (a, t))
      (fun _ h => ⟨h, fun _ => rfl⟩)
      (fun _ _ _ g1 g2 h => ⟨(g2 (g1 h).1).1, fun a => ((g2 (g1 h).1).2 a).trans ((g1 h).2 a)⟩) ?_ hp s x r
      (swapRoute_ok h).1
    · exact (this hu).2
    · intro s key d a l r hr hu
      have hst : step env s (.swap key d a true l) = .ok r.1 := by
        simp only [step, bind_ok_iff, pure_ok_iff]
        exact ⟨r, hr, rfl⟩
      refine ⟨?_, main s r.1 _ (by simp) (by simp) (by simp) hu hst⟩
      intro k hk
      exact hu k (by rw [← (step_poolsFrame (by simp) hst).dom k]; exact hk)
  · push Not at hc
    exact main s s' c hc h1 h2 hu h

/-- C47 is not literally true of pairs: a zero amount of one token (even of the native coin) beside a
nonzero amount of the other is accepted; only the nonzero transfer is requested. -/
theorem C47_pair_with_zero_accepted (env : Env) (r : SendEnv) (s : Inv) (u : ActorId) (m : Nat)
    (hu : u ≠ VARA) (hm : m ≠ 0) (hg : TRANSFER_COST ≤ r.gas) (hc : env.caller ≠ r.program)
    (h1 : r.sent1 = true) (hfit : bal s.balances env.caller u + m < 2 ^ 256)
    (hv : bal s.balances env.caller VARA < 2 ^ 256) :
    ∃ s', start env r s (.depositPair VARA 0 u m) =
      .ok (s', [⟨r.next, u, env.caller, r.program, m, .deposit⟩]) := by
  have fits : ∀ {t n}, bal s.balances env.caller t + n < 2 ^ 256 →
      canIncreaseTokenBalance s.balances t env.caller n = true := by
    intro t n h
    unfold bal at h
    unfold canIncreaseTokenBalance
    cases hg : s.balances.get (env.caller, t) with
    | none => rfl
    | some v => rw [hg] at h; simpa using h
  have c1 : canIncreaseTokenBalance s.balances VARA env.caller 0 = true := fits (by simpa using hv)
  have c2 : canIncreaseTokenBalance s.balances u env.caller m = true := fits hfit
  have hg' : ¬ r.gas < TRANSFER_COST := by omega
  simp [start, depositPair, transferBoth, transferSingle, sendTransfer, ends, mapErr, failIf, c1, c2,
    hu, Ne.symm hu, hm, hg', hc, h1, bind, Except.bind, pure, Except.pure]

/-- C47 fails for a pair one of whose amounts is zero: account 2 deposits nothing of the native coin and 5
units of token 5 in one call, and withdraws nothing of the native coin and 3 units of token 5 in one call. -/
theorem C47_negation :
    ¬ (∀ (env : Env) (r : SendEnv) (s : Inv) (t u : ActorId) (n m : Nat),
      t = VARA ∨ u = VARA ∨ n = 0 ∨ m = 0 ∨ env.caller = r.program →
      (start env r s (.depositPair t n u m)).isOk = false) ∧
    ¬ (∀ (env : Env) (r : SendEnv) (s : Inv) (t u : ActorId) (n m : Nat),
      t = VARA ∨ u = VARA ∨ n = 0 ∨ m = 0 ∨ env.caller = r.program →
      (start env r s (.withdrawPair t (some n) u (some m))).isOk = false) := by
  constructor <;> intro h
  · exact absurd (h (Async.by_ 2) ⟨9, 10 ^ 12, 7, true, true⟩ (Inv.init 1 0) VARA 5 0 5 (.inl rfl))
      (by decide +kernel)
  · exact absurd (h (Async.by_ 2) ⟨9, 10 ^ 12, 7, true, true⟩
      { Inv.init 1 0 with balances := (∅ : Balances).insert (2, 5) 4 } VARA 5 0 3 (.inl rfl))
      (by decide +kernel)

/-- 7 units of the native coin deposited and 5 withdrawn; a token deposit of it is refused -/
example : ((Service.depositVara { Async.by_ 2 with value := 7 } (Inv.init 1 0)).toOption.map
      fun r => (bal r.1.balances 2 VARA, r.2)) = some (7, 7) ∧
    ((Service.withdrawVara (Async.by_ 2)
      (run { Async.by_ 2 with value := 7 } (Inv.init 1 0) .depositVara) (some 5)).toOption.map
        fun r => (bal r.1.balances 2 VARA, r.2)) = some (2, 5) ∧
    (start (Async.by_ 2) ⟨9, 10 ^ 12, 7, true, true⟩ (Inv.init 1 0) (.depositSingle VARA 5)).isOk = false ∧
    (start (Async.by_ 2) ⟨9, 10 ^ 12, 7, true, true⟩ (Inv.init 1 0) (.depositSingle 5 5)).isOk = true ∧
    (start (Async.by_ 9) ⟨9, 10 ^ 12, 7, true, true⟩ (Inv.init 1 0) (.depositSingle 5 5)).isOk = false := by
  decide +kernel

end Verif
