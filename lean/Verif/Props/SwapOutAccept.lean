import Verif.Proofs.SwapAcceptOut
import Verif.Props.SwapAccept

/-!
# Property C75: an exact-output swap is not aborted

Full statement: in a healthy pool, a swap for a given output amount that the caller can pay either succeeds, and then
pays out exactly this amount, or is refused because the price limit or the last tick is reached first. It is never
aborted.

This holds if at every tick on the way the liquidity before the tick, continued beyond it, could pay the whole amount
(the pool is deep). Without this condition it is false: the check made at the tick fails and the swap is aborted,
although the liquidity behind the tick would pay the rest.
-/

set_option exponentiation.threshold 1000

namespace Verif
open Service Spec

/-- a swap for an exact output is done, or refused for one of two announced reasons -/
def Spec.AnsweredOut {α : Type} (r : M α) : Prop :=
  (∃ x, r = .ok x) ∨ r = .error (.inv .PriceLimitReached) ∨ r = .error (.inv .TickLimitReached)

/-- pools and calls that should work -/
structure Spec.SwapOutAllowed (env : Env) (s : Inv) (key : PoolKey) (xToY : Bool) (amount limit : Nat) (pool : Pool)
    (B : Nat) : Prop where
  clear : Clear s
  stored : s.pools.get key = some pool
  /-- `B` bounds the active liquidity everywhere -/
  active : ∀ t, activeLiq s key t ≤ B
  bound : B < 2 ^ 230
  fee : key.feeTier.fee ≤ 10 ^ 12
  proto : s.protocolFee ≤ 10 ^ 12
  now : pool.startTimestamp ≤ env.now
  amt : amount ≠ 0
  /-- the uncollected protocol fees are far from an overflow -/
  room : (if xToY then pool.feeProtocolTokenX else pool.feeProtocolTokenY) < 2 ^ 255
  /-- the limit is on the right side -/
  side : if xToY then limit < pool.sqrtPrice else pool.sqrtPrice < limit
  /-- the balance of the output token does not overflow -/
  takes : bal s.balances env.caller (tokenOut key xToY) + amount < 2 ^ 256

/-- At every tick of the grid that the swap may reach, the active liquidity before the tick is absent, or it could pay
the amount if it went on beyond the tick: taking Y it has `p · L` of it left, taking X it has `L / p` left, of which
half is enough here. -/
def Spec.Deep (s : Inv) (key : PoolKey) (xToY : Bool) (amount limit start : Nat) : Prop :=
  ∀ i p, Grid key.feeTier.tickSpacing i → calculateSqrtPrice i = .ok p →
    if xToY then limit ≤ p → p ≤ start →
      activeLiq s key i = 0 ∨ (amount : ℚ) ≤ price p * liq (activeLiq s key i)
    else start ≤ p → p ≤ limit →
      activeLiq s key (i - 1) = 0 ∨ 2 * (amount : ℚ) ≤ liq (activeLiq s key (i - 1)) / price p

variable {env : Env} {s : Inv} {key : PoolKey} {xToY : Bool} {amount limit B : Nat} {pool : Pool}

private theorem deep_y {p L : Nat} (h : (amount : ℚ) ≤ price p * liq L) : amount * 10 ^ 29 ≤ p * L := by
  have e : price p * liq L = ((p * L : Nat) : ℚ) / ((10 ^ 29 : Nat) : ℚ) := by
    unfold price liq
    push_cast
    rw [div_mul_div_comm]
    norm_num
  rw [e, le_div_iff₀ (by positivity)] at h
  exact_mod_cast h

private theorem deep_x {p L : Nat} (hp : 0 < p) (h : 2 * (amount : ℚ) ≤ liq L / price p) :
    2 * (p * amount) ≤ L * 10 ^ 19 := by
  have hp' : (0 : ℚ) < p := by exact_mod_cast hp
  have e : liq L / price p = ((L * 10 ^ 19 : Nat) : ℚ) / (p : ℚ) := by
    unfold price liq
    push_cast
    field_simp
    norm_num
  rw [e, le_div_iff₀ hp'] at h
  have h2 : 2 * amount * p ≤ L * 10 ^ 19 := by exact_mod_cast h
  calc 2 * (p * amount) = 2 * amount * p := by ring
    _ ≤ _ := h2

private theorem outcome (h : SwapOutAllowed env s key xToY amount limit pool B)
    (hd : Deep s key xToY amount limit pool.sqrtPrice) :
    (∃ c, calculateSwap s env.now key xToY amount false limit = .ok c ∧ c.amountOut = amount ∧ c.amountIn < 2 ^ 255) ∨
    (∃ e, (e = .PriceLimitReached ∨ e = .TickLimitReached) ∧
      calculateSwap s env.now key xToY amount false limit = .error (.inv e)) := by
  have hr32 := clear_reach32 s h.clear
  have hr := (reach32_reach s hr32).1
  have hp := h.stored
  have htier := ((reach_tiers hr).pools key (by rw [hp]; rfl)).1
  have hag := reach_agree s hr key pool hp
  have hlim := h.side
  have hstart : swapStart s key xToY amount limit = .ok pool := by
    have hmax := hag.price.2
    have hmin := hag.price.1
    simp only [swapStart, bind_ok_iff, failIf_ok_iff, poolsGet_ok, pure_ok_iff]
    refine ⟨(), h.amt, pool, hp, (), ?_, (), ?_, rfl⟩
    · rintro ⟨hx, hc⟩
      rw [if_pos hx] at hlim
      omega
    · rintro ⟨hx, hc⟩
      rw [if_neg (by rw [hx]; decide)] at hlim
      omega
  have hh : HealthyOut s ⟨key, xToY, false, limit, env.now⟩ pool.sqrtPrice amount B
      (if xToY then pool.feeProtocolTokenX else pool.feeProtocolTokenY) :=
    { wf := reach_wf s hr
      ledger := reach32_ledger s hr32
      spacing := ⟨htier.1, htier.2.1⟩
      byOut := rfl
      proto := h.proto
      fee := h.fee
      startOK := hag.price
      amt := by have := h.takes; omega
      pos := h.amt
      act := h.active
      bound := h.bound
      room := h.room
      low := by
        intro hx i hg h1 h2
        dsimp only at hx
        have := hd i _ hg (calculateSqrtPrice_eq hg.min hg.max)
        rw [if_pos hx] at this
        exact (this h1 h2).imp id deep_y
      high := by
        intro hx i hg h1 h2
        dsimp only at hx
        have := hd i _ hg (calculateSqrtPrice_eq hg.min hg.max)
        rw [if_neg (by rw [hx]; decide)] at this
        exact (this h1 h2).imp id (deep_x (lt_of_lt_of_le hag.price.pos h1)) }
  have hv : LiveOut s ⟨key, xToY, false, limit, env.now⟩ pool.sqrtPrice amount B
      (if xToY then pool.feeProtocolTokenX else pool.feeProtocolTokenY) 0 ⟨pool, [], amount, 0, 0, 0⟩ :=
    { liq := ⟨⟨hag, by dsimp only; split <;> exact le_rfl, by
          dsimp only
          cases xToY
          · simp at hlim ⊢; omega
          · simp at hlim ⊢; omega⟩, .inl (clear_liqOK s h.clear key pool hp)⟩
      sum := Nat.zero_add _
      fee := le_rfl
      cap := by
        unfold inCap
        dsimp only
        split
        · simp
        · have := amountY_nonneg pool.sqrtPrice pool.sqrtPrice B
          push_cast
          linarith
      proto := by dsimp only; omega
      now := h.now }
  exact calc_total_out hr hh hstart hv

/-- C75 for the quote: it is answered, and a quote names exactly the amount asked for. (Full statement: without
`Deep`.) -/
theorem C75_quote_partial (h : SwapOutAllowed env s key xToY amount limit pool B)
    (hd : Deep s key xToY amount limit pool.sqrtPrice) :
    AnsweredOut (quote s env.now key xToY amount false limit) ∧
    ∀ q, quote s env.now key xToY amount false limit = .ok q → q.amountOut = amount ∧ q.amountIn < 2 ^ 255 := by
  rcases outcome h hd with ⟨c, hc, h1, h2⟩ | ⟨e, he, hc⟩
  · have hq : quote s env.now key xToY amount false limit = .ok ⟨c.amountIn, c.amountOut, c.pool.sqrtPrice, c.ticks⟩ := by
      unfold quote
      rw [hc]
      rfl
    refine ⟨.inl ⟨_, hq⟩, ?_⟩
    intro q h3
    rw [hq] at h3
    cases h3
    exact ⟨h1, h2⟩
  · have hq : quote s env.now key xToY amount false limit = .error (.inv e) := by
      unfold quote
      rw [hc]
      rfl
    refine ⟨?_, ?_⟩
    · rcases he with rfl | rfl
      · exact .inr (.inl hq)
      · exact .inr (.inr hq)
    · intro q h3
      rw [hq] at h3
      cases h3

/-- C75 for the swap, if the caller owns what the quote names. (Full statement: without `Deep`.) -/
theorem C75_swap_partial (h : SwapOutAllowed env s key xToY amount limit pool B)
    (hd : Deep s key xToY amount limit pool.sqrtPrice)
    (hpay : ∀ q, quote s env.now key xToY amount false limit = .ok q →
      q.amountIn ≤ bal s.balances env.caller (tokenIn key xToY)) :
    AnsweredOut (swap env s key xToY amount false limit) ∧
    ∀ s' r, swap env s key xToY amount false limit = .ok (s', r) → r.amountOut = amount := by
  have hr := (reach32_reach s (clear_reach32 s h.clear)).1
  obtain ⟨h1, h2⟩ := C75_quote_partial h hd
  have hex : ∀ s' r, swap env s key xToY amount false limit = .ok (s', r) → r.amountOut = amount :=
    fun s' r h3 => (C29_exact h3).2 rfl
  refine ⟨?_, hex⟩
  have lift : ∀ e, quote s env.now key xToY amount false limit = .error (.inv e) →
      swap env s key xToY amount false limit = .error (.inv e) := by
    intro e hq
    unfold quote at hq
    unfold swap
    cases hc : calculateSwap s env.now key xToY amount false limit with
    | ok c => rw [hc] at hq; cases hq
    | error e' =>
      rw [hc] at hq
      cases hq
      rfl
  rcases h1 with ⟨q, hq⟩ | hq | hq
  · obtain ⟨s', r, hs, _⟩ := C30_swap_of_quote (env := env) hr hq (hpay q hq) (by rw [(h2 q hq).1]; exact h.takes)
    exact .inl ⟨_, hs⟩
  · exact .inr (.inl (lift _ hq))
  · exact .inr (.inr (lift _ hq))

/-! ### the pool of the examples is deep -/

/-- where liquidity is active there is a position -/
private theorem active_pos {t : Int} (h : activeLiq s key t ≠ 0) : ∃ k p, s.positions.map.get k = some p ∧
    p.poolKey = key ∧ p.lowerTickIndex ≤ t ∧ t < p.upperTickIndex ∧ p.liquidity ≤ activeLiq s key t := by
  by_contra hc
  apply h
  unfold activeLiq
  refine Eq.trans (Map.sum_congr (g := fun _ _ => 0) fun k p hp => if_neg ?_) (Map.sum_zero _)
  rintro ⟨h1, h2, h3⟩
  refine hc ⟨k, p, hp, h1, h2, h3, ?_⟩
  have := Map.le_sum (f := fun (_ : ActorId × Nat) (p : Position) =>
    if p.poolKey = key ∧ p.lowerTickIndex ≤ t ∧ t < p.upperTickIndex then p.liquidity else 0)
    (fun _ _ _ => Nat.zero_le _) hp
  rwa [if_pos ⟨h1, h2, h3⟩] at this

/-- a pool is deep if every single position is -/
theorem deep_of_positions {lo hi : Int} {m : Nat} (start : Nat) (hlo : MIN_TICK ≤ lo) (hhi : hi ≤ MAX_TICK)
    (hall : s.positions.map.entries.all (fun e => decide (e.2.poolKey = key →
      lo ≤ e.2.lowerTickIndex ∧ e.2.upperTickIndex ≤ hi ∧ m ≤ e.2.liquidity)) = true)
    (h : if xToY then amount * 10 ^ 29 ≤ priceOf lo * m else 2 * (priceOf hi * amount) ≤ m * 10 ^ 19) :
    Deep s key xToY amount limit start := by
  intro i p hg hp
  rw [calculateSqrtPrice_eq hg.min hg.max] at hp
  cases hp
  have get : ∀ t, activeLiq s key t ≠ 0 → lo ≤ t ∧ t < hi ∧ m ≤ activeLiq s key t := by
    intro t h0
    obtain ⟨k, p, hk, h1, h2, h3, h4⟩ := active_pos h0
    rw [Map.get_mem] at hk
    have := of_decide_eq_true (List.all_eq_true.1 hall _ hk) h1
    dsimp only at this
    omega
  have h10 : (0 : ℚ) < 10 ^ 24 := by positivity
  cases xToY
  · simp only [Bool.false_eq_true, if_false] at h ⊢
    intro _ _
    by_cases h0 : activeLiq s key (i - 1) = 0
    · exact .inl h0
    right
    obtain ⟨_, h2, h3⟩ := get _ h0
    have hle := priceOf_le hg.min hhi (by omega : i ≤ hi)
    have hpos : 0 < priceOf i := lt_of_lt_of_le (by norm_num [MIN_SQRT_PRICE]) (priceOf_ge_min hg.min hg.max)
    have hn : 2 * amount * priceOf i ≤ activeLiq s key (i - 1) * 10 ^ 19 := by
      calc 2 * amount * priceOf i ≤ 2 * amount * priceOf hi := Nat.mul_le_mul_left _ hle
        _ = 2 * (priceOf hi * amount) := by ring
        _ ≤ m * 10 ^ 19 := h
        _ ≤ _ := Nat.mul_le_mul_right _ h3
    have hp' : (0 : ℚ) < priceOf i := by exact_mod_cast hpos
    have e : liq (activeLiq s key (i - 1)) / price (priceOf i) =
        ((activeLiq s key (i - 1) * 10 ^ 19 : Nat) : ℚ) / (priceOf i : ℚ) := by
      unfold price liq
      push_cast
      field_simp
      norm_num
    rw [e, le_div_iff₀ hp']
    exact_mod_cast hn
  · simp only [if_true] at h ⊢
    intro _ _
    by_cases h0 : activeLiq s key i = 0
    · exact .inl h0
    right
    obtain ⟨h2, _, h3⟩ := get _ h0
    have hle := priceOf_le hlo hg.max h2
    have hn : amount * 10 ^ 29 ≤ priceOf i * activeLiq s key i := le_trans h (Nat.mul_le_mul hle h3)
    have e : price (priceOf i) * liq (activeLiq s key i) =
        ((priceOf i * activeLiq s key i : Nat) : ℚ) / ((10 ^ 29 : Nat) : ℚ) := by
      unfold price liq
      push_cast
      rw [div_mul_div_comm]
      norm_num
    rw [e, le_div_iff₀ (by positivity)]
    exact_mod_cast hn

theorem demo_out_allowed (limit : Nat) (hl : limit < 10 ^ 24) :
    SwapOutAllowed (Demo.by_ 2) Demo.start Demo.key true (22 * 10 ^ 6) limit
      ⟨4 * 10 ^ 15, 10 ^ 24, 0, 0, 0, 0, 0, 100, 100, 1⟩ (14 * 10 ^ 15) ∧
    Deep Demo.start Demo.key true (22 * 10 ^ 6) limit (10 ^ 24) ∧
    SwapOutAllowed (Demo.by_ 2) Demo.start Demo.key false (10 ^ 6) MAX_SQRT_PRICE
      ⟨4 * 10 ^ 15, 10 ^ 24, 0, 0, 0, 0, 0, 100, 100, 1⟩ (14 * 10 ^ 15) ∧
    Deep Demo.start Demo.key false (10 ^ 6) MAX_SQRT_PRICE (10 ^ 24) := by
  have hp : Demo.start.pools.get Demo.key =
    some ⟨4 * 10 ^ 15, 10 ^ 24, 0, 0, 0, 0, 0, 100, 100, 1⟩ := by decide +kernel
  have hB : ∀ t, activeLiq Demo.start Demo.key t ≤ 14 * 10 ^ 15 := fun t =>
    le_trans (activeLiq_le_total _ _ t) (by decide +kernel)
  have hf : Demo.start.protocolFee ≤ 10 ^ 12 := by decide +kernel
  refine ⟨⟨demo_start_clear, hp, hB, by norm_num, by decide, hf, by decide, by decide, by decide +kernel, ?_,
      by decide +kernel⟩, ?_, ⟨demo_start_clear, hp, hB, by norm_num, by decide, hf, by decide, by decide,
      by decide +kernel, by decide +kernel, by decide +kernel⟩, ?_⟩
  · rw [if_pos rfl]; exact hl
  · exact deep_of_positions (lo := -20) (hi := 20) (m := 10 ^ 15) _ (by decide) (by decide) (by decide +kernel)
      (by decide +kernel)
  · exact deep_of_positions (lo := -20) (hi := 20) (m := 10 ^ 15) _ (by decide) (by decide) (by decide +kernel)
      (by decide +kernel)

/-- both directions applied; what the swaps cost; the two refusals -/
example : AnsweredOut (swap (Demo.by_ 2) Demo.start Demo.key true (22 * 10 ^ 6) false MIN_SQRT_PRICE) ∧
    AnsweredOut (quote Demo.start 100 Demo.key false (10 ^ 6) false MAX_SQRT_PRICE) := by
  obtain ⟨h1, h2, h3, h4⟩ := demo_out_allowed MIN_SQRT_PRICE (by decide)
  refine ⟨(C75_swap_partial h1 h2 ?_).1, (C75_quote_partial h3 h4).1⟩
  intro q hq
  have e : (quote Demo.start (Demo.by_ 2).now Demo.key true (22 * 10 ^ 6) false MIN_SQRT_PRICE).toOption.map
      (fun q => decide (q.amountIn ≤ bal Demo.start.balances (Demo.by_ 2).caller (tokenIn Demo.key true))) =
      some true := by decide +kernel
  rw [hq] at e
  simpa [Except.toOption] using e

example :
    (swap (Demo.by_ 2) Demo.start Demo.key true (22 * 10 ^ 6) false MIN_SQRT_PRICE).toOption.map
      (fun r => (r.2.amountIn, r.2.amountOut)) = some (22034424, 22000000) ∧
    (swap (Demo.by_ 2) Demo.start Demo.key false (10 ^ 6) false MAX_SQRT_PRICE).toOption.map
      (fun r => (r.2.amountIn, r.2.amountOut)) = some (1001027, 1000000) ∧
    failure (swap (Demo.by_ 2) Demo.start Demo.key true (22 * 10 ^ 6) false (9995 * 10 ^ 20)) =
      some (.inv .PriceLimitReached) ∧
    failure (swap (Demo.by_ 2) Demo.start Demo.key true (10 ^ 9) false MIN_SQRT_PRICE) =
      some (.inv .TickLimitReached) := by
  decide +kernel

/-! ### without depth -/

/-- A pool in which every condition but the depth holds: asked for 10^12, more than the positions could ever pay, it
aborts instead of refusing; and asked for 10^6 in the pool with a thin interval, which it could pay, it aborts too. -/
theorem shallow :
    failure (swap (Demo.by_ 2) Demo.start Demo.key true (10 ^ 12) false MIN_SQRT_PRICE) = some .panic ∧
    failure (swap (Demo.by_ 2) Thin.s0 Demo.key true (10 ^ 6) false MIN_SQRT_PRICE) = some .panic ∧
    (swap (Demo.by_ 2) Thin.s0 Demo.key true 999000 true MIN_SQRT_PRICE).toOption.isSome = true := by
  decide +kernel

/-- C75 is false of the code without the depth. -/
theorem C75_negation : ¬ ∀ (env : Env) (s : Inv) (key : PoolKey) (xToY : Bool) (amount limit : Nat) (pool : Pool)
    (B : Nat), SwapOutAllowed env s key xToY amount limit pool B →
    (∀ q, quote s env.now key xToY amount false limit = .ok q →
      q.amountIn ≤ bal s.balances env.caller (tokenIn key xToY)) →
    AnsweredOut (swap env s key xToY amount false limit) := by
  intro h
  have hs := shallow.2.1
  have hp : Thin.s0.pools.get Demo.key =
    some ⟨10 ^ 10, 10 ^ 24, 0, 0, 0, 0, 0, 100, 100, 1⟩ := by decide +kernel
  have := h (Demo.by_ 2) Thin.s0 Demo.key true (10 ^ 6) MIN_SQRT_PRICE _ (3 * 10 ^ 15)
    ⟨Thin.s0_clear, hp, fun t => le_trans (activeLiq_le_total _ _ t) (by decide +kernel), by norm_num, by decide,
      by decide +kernel, by decide, by decide, by decide +kernel, by decide +kernel, by decide +kernel⟩ (by
      intro q hq
      have e : (quote Thin.s0 (Demo.by_ 2).now Demo.key true (10 ^ 6) false MIN_SQRT_PRICE).toOption.isSome = false := by
        decide +kernel
      rw [hq] at e
      cases e)
  rcases this with ⟨x, hx⟩ | hx | hx <;> rw [hx] at hs <;> cases hs

end Verif
