import Verif.Proofs.Market
import Verif.Props.Active

/-!
# C98: a trade depends on the market only

Not on the fees collected, the protocol fee, the clock, the caller, the tokens, the accounts behind the liquidity or how
they divided it.
-/

namespace Verif
open Service Spec

namespace Market

variable {s s' s₁ s₂ : Inv} {k k' : PoolKey} {env env' : Env} {xToY byIn : Bool} {amount limit n m : Nat}

private theorem pool_some {now : Nat} {r : CalculateSwapResult}
    (h : calculateSwap s now k xToY amount byIn limit = .ok r) : (s.pools.get k).isSome := by
  obtain ⟨p, st, h1, _⟩ := calculateSwap_ok h
  rw [h1]; rfl

/-- C98, swaps: in pools with the same market the same order leads to the same trade, and to the same market again.
Callers, tokens, times, protocol fees and everything else may differ. -/
theorem C98_swap {r r' : CalculateSwapResult} (hr : Reach s) (hr' : Reach s') (h : SameMarket s k s' k')
    (h1 : swap env s k xToY amount byIn limit = .ok (s₁, r))
    (h2 : swap env' s' k' xToY amount byIn limit = .ok (s₂, r')) :
    SameDeal r r' ∧ SameMarket s₁ k s₂ k' := by
  obtain ⟨t1, _, _, a1, a2, _, _, a3⟩ := swap_ok h1
  obtain ⟨t2, _, _, b1, b2, _, _, b3⟩ := swap_ok h2
  dsimp only at a1 a2 a3 b1 b2 b3
  have hm := mkt_of hr hr' h (pool_some a1)
  have hp := calculateSwap_pair hm (xToY := xToY) (byIn := byIn) (amount := amount) (limit := limit) (n := env.now)
    (m := env'.now)
  rw [a1, b1] at hp
  cases hp with
  | ok hres =>
    refine ⟨hres.trade, h.tier, ?_, ?_⟩
    · rw [a3, b3]
      dsimp only
      rw [Map.get_insert_self, Map.get_insert_self]
      exact .some hres.pool
    · intro i
      rw [a3, b3]
      dsimp only
      have := updateTicks_pair hres.ticks hm.ticks a2 b2 i
      revert this
      generalize t1.get (k, i) = x
      generalize t2.get (k', i) = y
      intro this
      cases this with
      | none => exact .none
      | some e => exact .some e.2

/-- C98, quotes: the same answer. -/
theorem C98_quote {q q' : QuoteResult} (hr : Reach s) (hr' : Reach s') (h : SameMarket s k s' k')
    (h1 : quote s n k xToY amount byIn limit = .ok q) (h2 : quote s' m k' xToY amount byIn limit = .ok q') :
    q'.amountIn = q.amountIn ∧ q'.amountOut = q.amountOut ∧ q'.targetSqrtPrice = q.targetSqrtPrice ∧
    q'.ticks.map (·.index) = q.ticks.map (·.index) := by
  unfold quote at h1 h2
  simp only [bind_ok_iff, pure_ok_iff] at h1 h2
  obtain ⟨a, h1, rfl⟩ := h1
  obtain ⟨b, h2, rfl⟩ := h2
  have hp := calculateSwap_pair (mkt_of hr hr' h (pool_some h1)) (xToY := xToY) (byIn := byIn) (amount := amount)
    (limit := limit) (n := n) (m := m)
  rw [h1, h2] at hp
  cases hp with
  | ok hres => exact ⟨hres.trade.amountIn, hres.trade.amountOut, hres.pool.1, hres.trade.ticks⟩

/-- C98, refusals: what is refused for an announced reason on one of the pools is not traded on the other. -/
theorem C98_refused {v : InvErr} {q : QuoteResult} (hr : Reach s) (hr' : Reach s') (h : SameMarket s k s' k')
    (h1 : quote s n k xToY amount byIn limit = .error (.inv v)) :
    quote s' m k' xToY amount byIn limit ≠ .ok q := by
  intro h2
  unfold quote at h1 h2
  simp only [bind_ok_iff, pure_ok_iff] at h2
  obtain ⟨b, h2, rfl⟩ := h2
  have hs : (s.pools.get k).isSome := by
    have h3 := pool_some h2
    have := h.pool
    revert this h3
    generalize s.pools.get k = x
    generalize s'.pools.get k' = y
    intro h3 this
    cases this with
    | none => cases h3
    | some _ => rfl
  have hp := calculateSwap_pair (mkt_of hr hr' h hs) (xToY := xToY) (byIn := byIn) (amount := amount)
    (limit := limit) (n := n) (m := m)
  rw [h2] at hp
  cases ha : calculateSwap s n k xToY amount byIn limit with
  | ok a => rw [ha] at h1; cases h1
  | error e =>
    rw [ha] at h1 hp
    have he : e = .inv v := by injection h1
    cases hp with
    | left hne => exact hne v he

/-- C98, the protocol fee: it is taken from the fees of the providers, the trader pays and gets the same. -/
theorem C98_protocol_fee {f : Nat} {r r' : CalculateSwapResult} {env₀ : Env} (hr : Reach s)
    (h0 : step env₀ s (.changeProtocolFee f) = .ok s')
    (h1 : swap env s k xToY amount byIn limit = .ok (s₁, r))
    (h2 : swap env' s' k xToY amount byIn limit = .ok (s₂, r')) : SameDeal r r' := by
  refine (C98_swap hr (.call hr h0) ?_ h1 h2).1
  simp only [step, changeProtocolFee, bind_ok_iff, failIf_ok_iff, pure_ok_iff] at h0
  obtain ⟨_, ⟨_, _, rfl⟩, rfl⟩ := h0
  refine ⟨rfl, ?_, ?_⟩
  · dsimp only
    cases s.pools.get k with
    | none => exact .none
    | some p => exact .some ⟨rfl, rfl, rfl⟩
  · intro i
    dsimp only
    cases s.ticks.get (k, i) with
    | none => exact .none
    | some t => exact .some rfl

/-! ### an example -/

private theorem same_of_all (ht : k'.feeTier = k.feeTier)
    (hp : (s.pools.get k).map (fun p => (p.sqrtPrice, p.currentTickIndex, p.liquidity)) =
      (s'.pools.get k').map (fun p => (p.sqrtPrice, p.currentTickIndex, p.liquidity)))
    (h1 : s.ticks.entries.all (fun e => decide (e.1.1 = k →
      (s'.ticks.get (k', e.1.2)).map netLiq = some (netLiq e.2))) = true)
    (h2 : s'.ticks.entries.all (fun e => decide (e.1.1 = k' → (s.ticks.get (k, e.1.2)).isSome)) = true) :
    SameMarket s k s' k' := by
  refine ⟨ht, ?_, fun i => ?_⟩
  · revert hp
    generalize s.pools.get k = x
    generalize s'.pools.get k' = y
    intro hp
    cases x with
    | none =>
      cases y with
      | none => exact .none
      | some q => cases hp
    | some p =>
      cases y with
      | none => cases hp
      | some q =>
        simp only [Option.map_some, Option.some.injEq, Prod.mk.injEq] at hp
        exact .some ⟨hp.1.symm, hp.2.1.symm, hp.2.2.symm⟩
  cases ha : s.ticks.get (k, i) with
  | some t =>
    have := of_decide_eq_true (List.all_eq_true.1 h1 _ ((Map.get_mem _ _ _).1 ha)) rfl
    dsimp only at this
    cases hb : s'.ticks.get (k', i) with
    | none => rw [hb] at this; cases this
    | some u =>
      rw [hb] at this
      injection this with this
      exact .some this
  | none =>
    cases hb : s'.ticks.get (k', i) with
    | none => exact .none
    | some u =>
      have := of_decide_eq_true (List.all_eq_true.1 h2 _ ((Map.get_mem _ _ _).1 hb)) rfl
      dsimp only at this
      rw [ha] at this
      cases this

private def other : PoolKey := ⟨5, 9, Demo.tier⟩

/-- another history: other tokens, no protocol fee, the liquidity of the demo in other hands and other parts -/
private def elsewhere : Inv :=
  runAll { Inv.init 4 0 with
      balances := ((∅ : Balances).insert (8, 5) (10 ^ 20)).insert (8, 9) (10 ^ 20) }
    [(Demo.by_ 4, .addFeeTier Demo.tier), (⟨8, 5000, 9, 0⟩, .createPool 5 9 Demo.tier (10 ^ 24) 0),
     (Demo.by_ 8, .createPosition other (-20) (-10) (10 ^ 15) 0 (10 ^ 25)),
     (Demo.by_ 8, .createPosition other (-10) 10 (4 * 10 ^ 15) 0 (10 ^ 25)),
     (Demo.by_ 8, .createPosition other 10 20 (10 ^ 15) 0 (10 ^ 25))]

/-- the two pools have the same market -/
example : SameMarket Demo.start Demo.key elsewhere other :=
  same_of_all rfl (by decide +kernel) (by decide +kernel) (by decide +kernel)

/-- a swap that crosses a tick, at different times: the same trade; the protocol gets something in one of them -/
example : (swap (Demo.by_ 2) Demo.start Demo.key true (22 * 10 ^ 6) true MIN_SQRT_PRICE).toOption.map
      (fun r => (r.2.amountIn, r.2.amountOut, r.2.targetSqrtPrice, r.2.fee, r.2.pool.feeProtocolTokenX)) =
      some (22000000, 21965657, 999302984359663232683739, 21981, 2199) ∧
    (swap ⟨8, 9999, 77, 0⟩ elsewhere other true (22 * 10 ^ 6) true MIN_SQRT_PRICE).toOption.map
      (fun r => (r.2.amountIn, r.2.amountOut, r.2.targetSqrtPrice, r.2.fee, r.2.pool.feeProtocolTokenX)) =
      some (22000000, 21965657, 999302984359663232683739, 21981, 0) := by
  decide +kernel

end Market
end Verif
