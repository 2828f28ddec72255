import Verif.Proofs.Reasons
import Verif.Props.Terminate
import Verif.Props.SwapAccept

/-!
# Property C109: a refused swap names its reason

A swap or quote that is refused says why, and what it says is true: the amount is zero, there is no such pool, the limit
is on the wrong side of the price, the limit was reached (and it lies within the range of prices of the pool), the end of
the range of prices was reached (and the limit lies beyond it), an exact input was too small for any output, or the
caller cannot pay. The first three are given exactly when they apply, in this order.
-/

namespace Verif
open Service Spec

variable {env : Env} {s : Inv} {key : PoolKey} {xToY byIn : Bool} {amount limit now : Nat} {e : InvErr}

/-- C109, the computation of a swap, hence also a quote -/
theorem C109_quote (hr : Reach s)
    (h : calculateSwap s now key xToY amount byIn limit = .error (.inv e)) :
    Reason s key xToY amount byIn limit e := by
  unfold calculateSwap at h
  rw [bind_inv_iff] at h
  rcases h with h | ⟨pool, h1, h⟩
  · simp only [swapStart, bind_inv_iff, failIf_inv, failIf_ok_iff, poolsGet_ok] at h
    rcases h with ⟨h, he⟩ | ⟨_, h0, h⟩
    · injection he with he; subst he
      exact h
    rcases h with h | ⟨pool, hp, h⟩
    · unfold poolsGet okOr at h
      split at h
      · cases h
      · next hn => cases h; exact hn
    have hag := (reach_agree s hr key pool hp).price
    unfold PriceOK at hag
    rcases h with ⟨⟨hx, h⟩, he⟩ | ⟨_, h1, h⟩
    · injection he with he; subst he
      exact ⟨pool, hp, by rw [if_pos hx]; omega⟩
    rcases h with ⟨⟨hx, h⟩, he⟩ | ⟨_, h1, h⟩
    · injection he with he; subst he
      exact ⟨pool, hp, by rw [if_neg (by simp [hx])]; omega⟩
    · exact absurd h pure_inv
  · have h1' := h1
    simp only [bind_ok_iff, swapStart, failIf_ok_iff, poolsGet_ok, pure_ok_iff] at h1'
    obtain ⟨_, h0, p, hp, _, h2, _, h3, rfl⟩ := h1'
    have ht := ((reach_tiers hr).pools key (by rw [hp]; rfl)).1
    have hs : Spacing key.feeTier.tickSpacing := ⟨ht.1, ht.2.1⟩
    have side : SwapSide ⟨key, xToY, byIn, limit, now⟩ p.sqrtPrice
        { pool := p, ticks := [], remaining := amount, totalIn := 0, totalOut := 0, fee := 0 } := by
      refine ⟨reach_agree s hr key p hp, ?_, ?_⟩
      · dsimp only; split <;> exact le_rfl
      · dsimp only
        cases xToY
        · simp at h3 ⊢; omega
        · simp at h2 ⊢; omega
    have hfuel := C38_fuel (byIn := byIn) (now := now) hr h1
    rw [bind_inv_iff] at h
    rcases h with h | ⟨st, hst, h⟩
    · cases hl : swapLoop s ⟨key, xToY, byIn, limit, now⟩ swapFuel ⟨p, [], amount, 0, 0, 0⟩ with
      | none => exact absurd hl hfuel
      | some x =>
        rw [hl] at h
        simp only [Option.getD_some] at h
        subst h
        obtain ⟨st, hP, h5, h6⟩ := swapLoop_inv
          (P := SwapSide ⟨key, xToY, byIn, limit, now⟩ p.sqrtPrice)
          (fun st st' hP h0 hi => iter_side (reach_wf s hr) hs hP h0 hi) _ _ side hl
        rcases iter_reason (reach_wf s hr) hs hP h5 (swapIter_inv h6) with ⟨rfl, h7⟩ | ⟨rfl, h7⟩
        · obtain ⟨i, hi, h7⟩ := h7
          refine ⟨p, hp, ?_, i, _, hi, calculateSqrtPrice_eq hi.min hi.max, h7⟩
          cases xToY
          · simp at h3 ⊢; omega
          · simp at h2 ⊢; omega
        · exact h7
    · simp only [bind_inv_iff, failIf_inv, pure_inv, and_false, exists_false, or_false] at h
      obtain ⟨hz, he⟩ := h
      injection he with he; subst he
      refine ⟨?_, h0⟩
      by_contra hb
      have hb : byIn = false := by simpa using hb
      cases hl : swapLoop s ⟨key, xToY, byIn, limit, now⟩ swapFuel ⟨p, [], amount, 0, 0, 0⟩ with
      | none => exact absurd hl hfuel
      | some x =>
        rw [hl] at hst
        simp only [Option.getD_some] at hst
        subst hst
        obtain ⟨h5, h6⟩ := swapLoop_ind (P := fun st => st.totalOut + st.remaining = amount)
          (fun st st' hP _ hi => (iter_exactOut hi hb).trans hP) _ _ _ (by simp) hl
        omega

/-- C109, the swap: the reasons of the computation, or the balances of the caller do not allow the amounts computed -/
theorem C109 (hr : Reach s) (h : swap env s key xToY amount byIn limit = .error (.inv e)) :
    (calculateSwap s env.now key xToY amount byIn limit = .error (.inv e) ∧
      Reason s key xToY amount byIn limit e) ∨
    ∃ r, calculateSwap s env.now key xToY amount byIn limit = .ok r ∧
      ReasonBalance s.balances env.caller (tokenIn key xToY) (tokenOut key xToY) r.amountIn r.amountOut e := by
  unfold swap at h
  rw [bind_inv_iff] at h
  rcases h with h | ⟨r, h1, h⟩
  · exact .inl ⟨h, C109_quote hr h⟩
  right
  refine ⟨r, h1, ?_⟩
  obtain ⟨pool, hp, _⟩ := calculateSwap_pool h1
  have hne : tokenIn key xToY ≠ tokenOut key xToY := by
    have := ((reach_tiers hr).pools key (by rw [hp]; rfl)).2
    unfold tokenIn tokenOut
    cases xToY
    · simpa using this.ne'
    · simpa using this.ne
  obtain ⟨m, hm⟩ := updateTicks_total (key := key) r.ticks s.ticks (fun t ht =>
    Option.isSome_iff_exists.1 ((calculateSwap_crossed hr h1 hp).2.2 t ht).1)
  rw [hm] at h
  simp only [bind_inv_iff, reduceCtorEq, false_or, Except.ok.injEq, exists_eq_left', poolsUpdate, poolsGet, hp, okOr,
    pure_inv, and_false, exists_false, or_false] at h
  obtain ⟨_, _, h | ⟨b, hb, h⟩⟩ := h
  · rcases decrease_inv h with ⟨rfl, h'⟩ | ⟨rfl, h'⟩
    · exact h'
    · exact .inl h'
  · obtain ⟨rfl, h'⟩ := increase_inv h
    refine .inr ?_
    change 2 ^ 256 ≤ bal b.1 env.caller (tokenOut key xToY) + r.amountOut at h'
    unfold bal at h' ⊢
    rw [decrease_get hb hne] at h'
    exact h'

/-- C109, the first three reasons are given exactly when they apply -/
theorem C109_iff (hr : Reach s) :
    (swap env s key xToY amount byIn limit = .error (.inv .AmountIsZero) ↔ amount = 0) ∧
    (swap env s key xToY amount byIn limit = .error (.inv .PoolNotFound) ↔
      amount ≠ 0 ∧ s.pools.get key = none) ∧
    (swap env s key xToY amount byIn limit = .error (.inv .WrongLimit) ↔
      amount ≠ 0 ∧ ∃ pool, s.pools.get key = some pool ∧
        if xToY then pool.sqrtPrice ≤ limit else limit ≤ pool.sqrtPrice) := by
  have zero : amount = 0 → swap env s key xToY amount byIn limit = .error (.inv .AmountIsZero) := by
    intro h
    unfold swap calculateSwap swapStart failIf
    rw [if_pos h]
    rfl
  have back : ∀ {e}, swap env s key xToY amount byIn limit = .error (.inv e) →
      (∀ b who tin tout p g, ¬ ReasonBalance b who tin tout p g e) → Reason s key xToY amount byIn limit e := by
    intro e h hn
    rcases C109 hr h with h | ⟨r, _, h⟩
    · exact h.2
    · exact absurd h (hn _ _ _ _ _ _)
  have nz : ∀ {e}, swap env s key xToY amount byIn limit = .error (.inv e) → e ≠ .AmountIsZero → amount ≠ 0 := by
    intro e h hn h0
    rw [zero h0] at h
    simp only [Except.error.injEq, Err.inv.injEq] at h
    exact hn h.symm
  refine ⟨⟨fun h => back h (fun _ _ _ _ _ _ h => h), zero⟩,
    ⟨fun h => ⟨nz h (by decide), back h (fun _ _ _ _ _ _ h => h)⟩, ?_⟩,
    ⟨fun h => ⟨nz h (by decide), back h (fun _ _ _ _ _ _ h => h)⟩, ?_⟩⟩
  · rintro ⟨h0, hp⟩
    unfold swap calculateSwap swapStart failIf poolsGet
    rw [if_neg h0, hp]
    rfl
  · rintro ⟨h0, pool, hp, hl⟩
    unfold swap calculateSwap swapStart failIf poolsGet
    rw [if_neg h0, hp]
    cases xToY
    · simp only [Bool.false_eq_true, if_false] at hl
      simp [okOr, bind, Except.bind, hl]
    · simp only [if_true] at hl
      simp [okOr, bind, Except.bind, hl]

/-- the reasons in the demo pool, one after another -/
example :
    failure (swap (Demo.by_ 2) Demo.start Demo.key true 0 true 0) = some (.inv .AmountIsZero) ∧
    failure (swap (Demo.by_ 2) Demo.start ⟨6, 7, Demo.tier⟩ true 5 true 0) = some (.inv .PoolNotFound) ∧
    failure (swap (Demo.by_ 2) Demo.start Demo.key true 5 true (10 ^ 24)) = some (.inv .WrongLimit) ∧
    failure (swap (Demo.by_ 2) Demo.start Demo.key true (22 * 10 ^ 6) true (9995 * 10 ^ 20)) =
      some (.inv .PriceLimitReached) ∧
    failure (swap (Demo.by_ 2) Demo.start Demo.key true (10 ^ 9) true MIN_SQRT_PRICE) = some (.inv .TickLimitReached) ∧
    failure (swap (Demo.by_ 2) Demo.start Demo.key true 1 true MIN_SQRT_PRICE) = some (.inv .NoGainSwap) ∧
    failure (swap (Demo.by_ 9) Demo.start Demo.key true (10 ^ 6) true MIN_SQRT_PRICE) =
      some (.inv .NoBalanceForTheToken) := by decide +kernel

end Verif
