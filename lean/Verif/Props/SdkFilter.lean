import Verif.Proofs.SdkFilter
import Verif.Props.Sdk

/-!
# Property C61: the filters of the SDK

`filterTickmap` and `filterTicks` cut the fetched data down to what a swap in one direction can meet. The SDK uses
them before a simulation.
-/

set_option exponentiation.threshold 1000

namespace Verif
open Service Spec

variable {env : Env} {s s' : Inv} {key : PoolKey} {xToY byIn : Bool} {amount limit : Nat}
  {c : CalculateSwapResult}

/-- a tick or chunk that a swap starting at `cur` in the given direction can meet -/
def Spec.ahead (xToY : Bool) (cur i : Int) : Bool := if xToY then decide (i ≤ cur) else decide (cur ≤ i)

private theorem wrong_eq (x : Bool) (i cur : Int) : (!Sdk.wrongSide x i cur) = ahead x cur i := by
  unfold Sdk.wrongSide ahead
  cases x
  · rw [if_neg (by decide), if_neg (by decide), ← decide_not, decide_eq_decide]; omega
  · rw [if_pos rfl, if_pos rfl, ← decide_not, decide_eq_decide]; omega

/-- C61 for ticks, where it is true: what is left is part of what was there, in the same order, and contains every
tick ahead. The full claim is that nothing else is left; see `C61_negation`. -/
theorem C61_ticks_partial (l : List LiquidityTick) (cur : Int) :
    (Sdk.filterTicks l cur xToY).Sublist l ∧
    (Sdk.filterTicks l cur xToY).filter (fun t => ahead xToY cur t.index) =
      l.filter (fun t => ahead xToY cur t.index) := by
  refine ⟨Sdk.filterLoop_sublist _ _ _ _ _, ?_⟩
  have := Sdk.filterLoop_keep cur xToY Sdk.MAX_SWAP_STEPS 0 l
  simp only [wrong_eq] at this
  exact this

/-- The full claim is false: of two consecutive ticks behind the price the second is left, because removing an
entry moves the following ones to the left of the iterator. -/
theorem C61_negation : ¬ ∀ (l : List LiquidityTick) (cur : Int) (xToY : Bool), l.length < 100 →
    Sdk.filterTicks l cur xToY = l.filter (fun t => ahead xToY cur t.index) := by
  intro h
  exact absurd (h [⟨-20, 1, true⟩, ⟨-10, 1, true⟩, ⟨10, 2, false⟩] 0 false (by decide)) (by decide +kernel)

/-- alternating ticks are filtered as intended -/
example : Sdk.filterTicks [⟨-20, 1, true⟩, ⟨10, 2, false⟩, ⟨20, 1, false⟩] 0 false =
    [⟨10, 2, false⟩, ⟨20, 1, false⟩] := by decide +kernel

/-- C61 for chunks: what is left is part of what was there and contains every chunk ahead; with at most 142 chunks
nothing else is left. -/
theorem C61_tickmap {bm r : List (Nat × Nat)} {sp : Nat} {cur : Int}
    (h : Sdk.filterTickmap bm sp cur xToY = .ok r) :
    ∃ chunk bit, tickToPosition cur sp = .ok (chunk, bit) ∧ r.Sublist bm ∧
      r.filter (fun e => ahead xToY chunk e.1) = bm.filter (fun e => ahead xToY chunk e.1) ∧
      (bm.length ≤ 142 → r = bm.filter (fun e => ahead xToY chunk e.1)) := by
  unfold Sdk.filterTickmap at h
  rw [bind_ok_iff] at h
  obtain ⟨⟨chunk, bit⟩, h1, h2⟩ := h
  simp only [pure_ok_iff] at h2
  subst h2
  refine ⟨chunk, bit, h1, Sdk.filterChunks_sublist _ _ _ _, ?_, ?_⟩
  · generalize Sdk.MAX_SWAP_STEPS = n
    induction bm generalizing n with
    | nil => cases n <;> rfl
    | cons e l ih =>
      cases n with
      | zero => rfl
      | succ n =>
        unfold Sdk.filterChunks
        have hw := wrong_eq xToY e.1 chunk
        split
        · next he =>
          rw [he] at hw
          rw [ih n, List.filter_cons, ← hw]
          rfl
        · rw [List.filter_cons, List.filter_cons, ih n]
  · intro hl
    rw [Sdk.filterChunks_eq chunk xToY Sdk.MAX_SWAP_STEPS _ hl]
    simp only [wrong_eq]

example : Sdk.filterTickmap [(100, 3), (346, 5), (400, 9)] 10 0 true = .ok [(100, 3), (346, 5)] := by
  decide +kernel

/-- the simulation as the SDK's own tests run it: on the filtered tick map, with the ticks fetched for it and then
filtered -/
def Spec.filteredSimulation (s : Inv) (key : PoolKey) (xToY : Bool) (amount : Nat) (byIn : Bool) (limit : Nat) :
    M Sdk.SimulateSwapResult := do
  let pool ← getPool s key.tokenX key.tokenY key.feeTier
  let bm ← Sdk.filterTickmap (getTickmap s key) key.feeTier.tickSpacing pool.currentTickIndex xToY
  let ticks ← Sdk.getAllLiquidityTicks s key bm
  Sdk.simulateInvariantSwap bm key.feeTier (Sdk.Pool.of pool)
    (Sdk.filterTicks ticks pool.currentTickIndex xToY) xToY amount byIn limit

/-- C61, the purpose: for every swap the contract accepts, the simulation on the filtered data succeeds without
reporting insufficient liquidity or outdated state, and unless it reports too many steps its results are those of
the swap. -/
theorem C61_simulation (hr : Reach s) (h : swap env s key xToY amount byIn limit = .ok (s', c)) :
    ∃ r, Spec.filteredSimulation s key xToY amount byIn limit = .ok r ∧
      r.globalInsufficientLiquidity = false ∧ r.stateOutdated = false ∧
      (r.maxSwapStepsReached = false → r.amountIn = c.amountIn ∧ r.amountOut = c.amountOut ∧
        r.fee = c.fee ∧ r.startSqrtPrice = c.startSqrtPrice ∧ r.targetSqrtPrice = c.targetSqrtPrice ∧
        r.crossedTicks = c.ticks.map fun t => ⟨t.index, t.liquidityChange, t.sign⟩) := by
  obtain ⟨_, _, _, h, -⟩ := swap_ok h
  have hw := reach_wf _ hr
  obtain ⟨pool, st, k1, k2, k3, k4, k5, k6, rfl⟩ := calculateSwap_ok h
  obtain ⟨ht, hlt⟩ := (reach_tiers hr).pools key (by rw [k1]; rfl)
  have ha := reach_agree s hr key pool k1
  have hsp : Spacing key.feeTier.tickSpacing := ⟨ht.1, ht.2.1⟩
  obtain ⟨ticks, h1, h2⟩ := Sdk.fetch_filtered (key := key) (x := xToY) hw ht.1 ha.grid Sdk.MAX_SWAP_STEPS
  have hstart : SwapSide ⟨key, xToY, byIn, limit, env.now⟩ pool.sqrtPrice
      { pool := pool, ticks := [], remaining := amount, totalIn := 0, totalOut := 0, fee := 0 } := by
    refine ⟨ha, ?_, ?_⟩
    · dsimp only; split <;> exact le_rfl
    · dsimp only
      cases xToY
      · simpa using (k4 rfl).1.le
      · simp only [if_true]; left; exact (k3 rfl).1.le
  obtain ⟨r, e1, e2, e3, e4⟩ := Sdk.loop_sim_side (a := ⟨key, xToY, byIn, limit, env.now⟩) (pool := pool)
    (bm := Sdk.filterChunks (bitmapIndex pool.currentTickIndex key.feeTier.tickSpacing / 64) xToY
      Sdk.MAX_SWAP_STEPS (getTickmap s key))
    (ticks := Sdk.filterTicks ticks pool.currentTickIndex xToY) hw hsp
    (fun c hc => by rw [Sdk.filterChunks_lookup (Sdk.wrongSide_onSide hc)]; exact Sdk.word_export hw ht.1 c)
    (fun i t hti hi => by
      rw [Sdk.filterTicks_find]
      · exact h2 i t hti hi
      · unfold Sdk.wrongSide
        cases xToY <;> simp at hi ⊢ <;> exact hi)
    hstart rfl swapFuel Sdk.MAX_SWAP_STEPS k5 (le_refl _)
  have hpool : getPool s key.tokenX key.tokenY key.feeTier = .ok pool := by
    unfold getPool PoolKey.new
    rw [if_neg (Nat.ne_of_lt hlt), if_pos hlt, ok_bind]
    exact poolsGet_ok.2 k1
  refine ⟨{ amountIn := r.totalIn, amountOut := r.totalOut, startSqrtPrice := pool.sqrtPrice,
            targetSqrtPrice := r.pool.sqrtPrice, fee := r.fee, crossedTicks := r.crossedTicks,
            globalInsufficientLiquidity := r.insufficient, maxSwapStepsReached := r.maxSteps,
            stateOutdated := r.outdated }, ?_, e2, e3, ?_⟩
  · unfold Spec.filteredSimulation Sdk.filterTickmap
    rw [hpool, ok_bind, tickToPosition_ok ha.grid, ok_bind]
    simp only [pure_bind]
    rw [h1, ok_bind]
    unfold Sdk.simulateInvariantSwap
    simp only [bind_ok_iff, failIf_ok_iff, pure_ok_iff]
    refine ⟨(), k2, (), ?_, (), ?_, r, e1, rfl⟩
    · rintro ⟨hx, hh⟩
      obtain ⟨m1, m2⟩ := k3 hx
      change pool.sqrtPrice ≤ limit ∨ _ at hh
      omega
    · rintro ⟨hx, hh⟩
      obtain ⟨m1, m2⟩ := k4 hx
      change pool.sqrtPrice ≥ limit ∨ _ at hh
      omega
  · intro hm
    rw [e4 hm]
    exact ⟨rfl, rfl, rfl, rfl, rfl, rfl⟩

/-- a swap that crosses a tick: contract and simulation on the filtered data -/
example : (swap (Demo.by_ 2) Demo.start Demo.key true (22 * 10 ^ 6) true MIN_SQRT_PRICE).toOption.map
      (fun r => (r.2.amountIn, r.2.amountOut, r.2.ticks.length)) =
    (filteredSimulation Demo.start Demo.key true (22 * 10 ^ 6) true MIN_SQRT_PRICE).toOption.map
      (fun r => (r.amountIn, r.amountOut, r.crossedTicks.length)) ∧
    (filteredSimulation Demo.start Demo.key true (22 * 10 ^ 6) true MIN_SQRT_PRICE).toOption.map
      (fun r => r.crossedTicks.length) = some 1 := by
  decide +kernel

end Verif
