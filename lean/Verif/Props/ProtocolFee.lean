import Verif.Proofs.SwapSim
import Verif.Props.SwapCall
import Verif.Props.Active

/-!
# C41: swaps and the protocol fee
-/

set_option exponentiation.threshold 1000

namespace Verif
open Service Spec

variable {env : Env} {s s' : Inv} {key : PoolKey} {xToY byIn : Bool} {amount limit : Nat}
  {r : CalculateSwapResult}

/-- what the admin's call does: any value is accepted -/
theorem C41_accepted {fee : Nat} (h : env.caller = s.admin) :
    run env s (.changeProtocolFee fee) = { s with protocolFee := fee } := by
  unfold run step changeProtocolFee
  simp [failIf, h]

/-- C41 for protocol fees up to 100%: a swap that succeeds with protocol fee 0 succeeds with the same
input, output, fee, final price and balances, unless the protocol fee counter of the pool could
overflow 256 bits.
(Full statement: for every protocol fee the admin can set; refuted by `C41_negation`.) -/
theorem C41_swap_partial (hr : Reach s) {pf : Nat} (hpf : pf ≤ 10 ^ 12) {pool : Pool}
    (hp : s.pools.get key = some pool)
    (h : swap env { s with protocolFee := 0 } key xToY amount byIn limit = .ok (s', r))
    (hroom : (if xToY then pool.feeProtocolTokenX else pool.feeProtocolTokenY) + r.amountIn < 2 ^ 256) :
    ∃ s'' r', swap env { s with protocolFee := pf } key xToY amount byIn limit = .ok (s'', r') ∧
      r'.amountIn = r.amountIn ∧ r'.amountOut = r.amountOut ∧ r'.fee = r.fee ∧
      r'.targetSqrtPrice = r.targetSqrtPrice ∧ s''.balances = s'.balances := by
  obtain ⟨ticks, b1, b2, h1, h2, h3, h4, e⟩ := swap_ok h
  dsimp only at h1 h2 h3 h4 e
  have hc := h1
  obtain ⟨pool', st, k1, k2, k3, k4, k5, k6, rfl⟩ := calculateSwap_ok h1
  dsimp only at k1
  rw [hp] at k1
  cases k1
  dsimp only at hroom h3 h4
  obtain ⟨q', hq, hs⟩ := loop_sim (a := ⟨key, xToY, byIn, limit, env.now⟩) (pf := pf)
    (base := if xToY then pool.feeProtocolTokenX else pool.feeProtocolTokenY) hpf rfl swapFuel _ _
    { pool := pool, ticks := [], remaining := amount, totalIn := 0, totalOut := 0, fee := 0 }
    ⟨⟨rfl, rfl, rfl, rfl⟩, rfl, rfl, rfl, rfl, le_refl _, by simp⟩ k5 hroom
  have hcalc : calculateSwap { s with protocolFee := pf } env.now key xToY amount byIn limit = .ok
      { amountIn := q'.totalIn, amountOut := q'.totalOut, startSqrtPrice := pool.sqrtPrice,
        targetSqrtPrice := q'.pool.sqrtPrice, fee := q'.fee, pool := q'.pool, ticks := q'.ticks } := by
    simp only [calculateSwap, bind_ok_iff, swapStart, failIf_ok_iff, poolsGet_ok, pure_ok_iff]
    refine ⟨pool, ⟨(), k2, pool, hp, (), ?_, (), ?_, rfl⟩, q', ?_, (), ?_, rfl⟩
    · rintro ⟨hx, hh⟩
      obtain ⟨m1, m2⟩ := k3 hx
      omega
    · rintro ⟨hx, hh⟩
      obtain ⟨m1, m2⟩ := k4 hx
      omega
    · have : swapLoop { s with protocolFee := pf } ⟨key, xToY, byIn, limit, env.now⟩ swapFuel
        { pool := pool, ticks := [], remaining := amount, totalIn := 0, totalOut := 0, fee := 0 } =
          some (.ok q') := hq
      rw [this]
      rfl
    · rw [hs.totalOut]; exact k6
  obtain ⟨m', hm'⟩ := updateTicks_total (key := key) q'.ticks s.ticks (by
    intro t ht
    obtain ⟨i, q, g2, g3⟩ := ticks_swap hcalc t ht
    refine ⟨q, ?_⟩
    rw [g3.index, (reach_wf s hr).indexed key i q g2]
    exact g2)
  refine ⟨{ s with protocolFee := pf, ticks := m', pools := s.pools.insert key q'.pool, balances := b2 },
    { amountIn := q'.totalIn, amountOut := q'.totalOut, startSqrtPrice := pool.sqrtPrice,
      targetSqrtPrice := q'.pool.sqrtPrice, fee := q'.fee, pool := q'.pool, ticks := q'.ticks }, ?_,
    hs.totalIn, hs.totalOut, hs.fee, hs.pool.price, ?_⟩
  · simp only [swap, bind_ok_iff, pure_ok_iff, poolsUpdate_ok]
    refine ⟨_, hcalc, m', hm', _, ⟨⟨pool, hp⟩, rfl⟩, b1, ?_, b2, ?_, rfl⟩
    · dsimp only
      rw [hs.totalIn]; exact h3
    · dsimp only
      rw [hs.totalOut]; exact h4
  · rw [e]

/-- With a protocol fee above 100% every successful swap charges no fee at all: any swap that has to
charge one fails. -/
theorem C41_above_all (hpf : 10 ^ 12 < s.protocolFee)
    (h : swap env s key xToY amount byIn limit = .ok (s', r)) : r.fee = 0 := by
  obtain ⟨ticks, b1, b2, h1, _⟩ := swap_ok h
  dsimp only at h1
  obtain ⟨pool, hp, _⟩ := calculateSwap_pool h1
  obtain ⟨st, h2, _, _, e⟩ := calculateSwap_ind (P := fun st => st.fee = 0) h1 hp rfl
    (fun st st' hP _ hi => (iter_no_fee hpf hi).trans hP)
  rw [e]
  exact h2

/-- The admin may set a protocol fee of 200%; a swap that works with protocol fee 0 then fails, so C41
is false. -/
theorem C41_negation :
    ¬ ∀ (envA env : Env) (s s1 s' : Inv) (key : PoolKey) (xToY byIn : Bool) (amount limit fee : Nat)
      (r : CalculateSwapResult), Reach s → step envA s (.changeProtocolFee fee) = .ok s1 →
      swap env { s with protocolFee := 0 } key xToY amount byIn limit = .ok (s', r) →
      ∃ s'' r', swap env s1 key xToY amount byIn limit = .ok (s'', r') := by
  intro h
  have h1 : ∃ x, swap (Demo.by_ 2) { Demo.start with protocolFee := 0 } Demo.key true 1000000 true
      MIN_SQRT_PRICE = .ok x := by
    have : (swap (Demo.by_ 2) { Demo.start with protocolFee := 0 } Demo.key true 1000000 true
      MIN_SQRT_PRICE).toOption.isSome = true := by decide +kernel
    cases hx : swap (Demo.by_ 2) { Demo.start with protocolFee := 0 } Demo.key true 1000000 true
      MIN_SQRT_PRICE with
    | ok x => exact ⟨x, rfl⟩
    | error e => rw [hx] at this; cases this
  obtain ⟨⟨s', r⟩, h1⟩ := h1
  obtain ⟨s'', r', h2⟩ := h (Demo.by_ 1) (Demo.by_ 2) Demo.start
    { Demo.start with protocolFee := 2 * 10 ^ 12 } s' Demo.key true true 1000000 MIN_SQRT_PRICE
    (2 * 10 ^ 12) r (reach32_reach _ (clear_reach32 _ demo_start_clear)).1 (by
      have e : Demo.start.admin = (Demo.by_ 1).caller := by decide +kernel
      unfold step changeProtocolFee
      simp [failIf, e]) h1
  have h3 : (swap (Demo.by_ 2) { Demo.start with protocolFee := 2 * 10 ^ 12 } Demo.key true 1000000 true
      MIN_SQRT_PRICE).toOption.isSome = false := by decide +kernel
  rw [h2] at h3
  cases h3

/-- protocol fees of 0, 10% and 100%: the same swap -/
example : ((swap (Demo.by_ 2) { Demo.start with protocolFee := 0 } Demo.key true 1000000 true
      MIN_SQRT_PRICE).toOption.map (fun r => (r.2.amountIn, r.2.amountOut, r.2.fee))) =
      some (1000000, 998975, 1000) ∧
    ((swap (Demo.by_ 2) Demo.start Demo.key true 1000000 true
      MIN_SQRT_PRICE).toOption.map (fun r => (r.2.amountIn, r.2.amountOut, r.2.fee))) =
      some (1000000, 998975, 1000) ∧
    ((swap (Demo.by_ 2) { Demo.start with protocolFee := 10 ^ 12 } Demo.key true 1000000 true
      MIN_SQRT_PRICE).toOption.map (fun r => (r.2.amountIn, r.2.amountOut, r.2.fee))) =
      some (1000000, 998975, 1000) := by
  decide +kernel

end Verif
