import Verif.Proofs.SdkExport
import Verif.Props.ThinLiquidity

/-!
# C51: the SDK's simulation and the contract

The simulation is run on what the SDK fetches: the pool, the exported tick map, and all liquidity ticks
it decodes from that tick map.
-/

set_option exponentiation.threshold 1000

namespace Verif
open Service Spec

variable {env : Env} {s s' : Inv} {key : PoolKey} {pool : Pool} {xToY byIn : Bool} {amount limit : Nat}
  {c : CalculateSwapResult} {ticks : List LiquidityTick}

/-- the SDK's simulation on the state fetched from the contract -/
def Spec.simulation (s : Inv) (key : PoolKey) (xToY : Bool) (amount : Nat) (byIn : Bool) (limit : Nat) :
    M Sdk.SimulateSwapResult := do
  let pool ← getPool s key.tokenX key.tokenY key.feeTier
  let ticks ← Sdk.getAllLiquidityTicks s key (getTickmap s key)
  Sdk.simulateInvariantSwap (getTickmap s key) key.feeTier (Sdk.Pool.of pool) ticks xToY amount byIn limit

/-- the simulation raises none of its three flags -/
def Spec.NoFlag (r : Sdk.SimulateSwapResult) : Prop :=
  r.globalInsufficientLiquidity = false ∧ r.stateOutdated = false ∧ r.maxSwapStepsReached = false

/-- In every reachable state the SDK can fetch all liquidity ticks of a pool: no request fails, and
the result has exactly one entry for each initialised tick, with its index, change and sign. -/
theorem C51_fetch (hr : Reach s) (hp : s.pools.get key = some pool) :
    ∃ ticks, Sdk.getAllLiquidityTicks s key (getTickmap s key) = .ok ticks ∧
      (ticks.map (·.index)).Nodup ∧
      ∀ u, u ∈ ticks ↔ ∃ t, s.ticks.get (key, u.index) = some t ∧ u.liquidityChange = t.liquidityChange ∧
        u.sign = t.sign := by
  have hw := reach_wf _ hr
  have hs : 1 ≤ key.feeTier.tickSpacing := ((reach_tiers hr).pools key (by rw [hp]; rfl)).1.1
  obtain ⟨ticks, h1, -, h3⟩ := Sdk.fetchAll_ok (key := key) hw hs
  have hidx : ∀ i u, Sdk.readOne s key i = some u → u.index = i := by
    intro i u hu
    unfold Sdk.readOne at hu
    rw [Option.map_eq_some_iff] at hu
    obtain ⟨t, ht, rfl⟩ := hu
    exact (hw.tick key i t ht).1.index
  refine ⟨ticks, h1, ?_, ?_⟩
  · rw [h3]
    have hnd := Sdk.nodup_tickIndexes (s := s) hs
    generalize Sdk.tickIndexes (getTickmap s key) key.feeTier.tickSpacing = l at hnd
    induction l with
    | nil => simp
    | cons i l ih =>
      rw [List.nodup_cons] at hnd
      rw [List.filterMap_cons]
      cases hu : Sdk.readOne s key i with
      | none => exact ih hnd.2
      | some u =>
        simp only [List.map_cons, List.nodup_cons]
        refine ⟨?_, ih hnd.2⟩
        rw [hidx i u hu]
        intro hm
        obtain ⟨v, hv, hvi⟩ := List.mem_map.1 hm
        obtain ⟨j, hj, hjv⟩ := List.mem_filterMap.1 hv
        have := hidx j v hjv
        rw [this] at hvi
        rw [hvi] at hj
        exact hnd.1 hj
  · intro u
    rw [h3, List.mem_filterMap]
    constructor
    · rintro ⟨i, _, hu⟩
      have hi := hidx i u hu
      unfold Sdk.readOne at hu
      rw [Option.map_eq_some_iff] at hu
      obtain ⟨t, ht, rfl⟩ := hu
      exact ⟨t, by rw [hi]; exact ht, rfl, rfl⟩
    · rintro ⟨t, ht, e1, e2⟩
      refine ⟨u.index, (Sdk.mem_tickIndexes hw hs _).2 (by rw [ht]; rfl), ?_⟩
      unfold Sdk.readOne
      rw [ht]
      have := (hw.tick key _ t ht).1.index
      cases u
      simp only [LiquidityTick.ofTick, Option.map_some] at *
      rw [this, e1, e2]

/-- the four ticks of `Thin.s0` are fetched -/
example : (Sdk.getAllLiquidityTicks Thin.s0 Demo.key (getTickmap Thin.s0 Demo.key)).toOption.map
    List.length = some 4 := by
  decide +kernel

/-- C51, the requests: up to 21544 stored ticks are answered one by one in the order asked for, a longer list is refused,
and a tick that is not stored makes the request fail. -/
theorem C51_request (idx : List Int) :
    (getLiquidityTicks s key idx = .error (.inv .TickLimitReached) ↔ 21544 < idx.length) ∧
    (idx.length ≤ 21544 → ((∃ r, getLiquidityTicks s key idx = .ok r) ↔ ∀ i ∈ idx, (s.ticks.get (key, i)).isSome)) ∧
    ∀ r, getLiquidityTicks s key idx = .ok r →
      r = idx.filterMap fun i => (s.ticks.get (key, i)).map fun t => ⟨t.index, t.liquidityChange, t.sign⟩ := by
  have panic : ∀ l : List Int, ¬ (∀ i ∈ l, (s.ticks.get (key, i)).isSome) → readTicks s key l = .error .panic := by
    intro l
    induction l with
    | nil => intro h; exact absurd (fun i hi => absurd hi List.not_mem_nil) h
    | cons i l ih =>
      intro h
      unfold readTicks
      cases ht : s.ticks.get (key, i) with
      | none =>
        have : unwrap (ticksGet s.ticks key i) = .error .panic := by
          unfold ticksGet okOr
          rw [ht]; rfl
        rw [this]; rfl
      | some t =>
        have : unwrap (ticksGet s.ticks key i) = .ok t := by
          unfold ticksGet okOr
          rw [ht]; rfl
        rw [this, ok_bind, ih fun hl => h fun j hj => ?_]
        · rfl
        · rcases List.mem_cons.1 hj with rfl | hj
          · rw [ht]; rfl
          · exact hl j hj
  unfold getLiquidityTicks
  have e : LIQUIDITY_TICK_LIMIT = 21544 := rfl
  rw [e]
  by_cases hl : idx.length > 21544
  · have e1 : failIf (idx.length > 21544) (Err.inv .TickLimitReached) = .error (.inv .TickLimitReached) := by
      unfold failIf; rw [if_pos hl]
    rw [e1]
    exact ⟨⟨fun _ => hl, fun _ => rfl⟩, fun h => absurd hl (not_lt.2 h), fun r h => by cases h⟩
  · have e1 : failIf (idx.length > 21544) (Err.inv .TickLimitReached) = .ok () := by
      unfold failIf; rw [if_neg hl]
    rw [e1, ok_bind]
    by_cases ha : ∀ i ∈ idx, (s.ticks.get (key, i)).isSome
    · rw [Sdk.readTicks_ok idx ha]
      refine ⟨⟨fun h => (by cases h), fun h => absurd h hl⟩, fun _ => ⟨fun _ => ha, fun _ => ⟨_, rfl⟩⟩, fun r h => ?_⟩
      cases h
      rfl
    · rw [panic idx ha]
      exact ⟨⟨fun h => (by cases h), fun h => absurd h hl⟩, fun _ => ⟨fun ⟨r, h⟩ => (by cases h), fun h => absurd h ha⟩,
        fun r h => by cases h⟩

/-- two stored ticks are answered, a tick that is not stored is not -/
example : (getLiquidityTicks Demo.start Demo.key [20, -10]).toOption.map (·.map (fun t => (t.index, t.liquidityChange, t.sign))) =
      some [(20, 10 ^ 15, false), (-10, 3 * 10 ^ 15, true)] ∧
    (getLiquidityTicks Demo.start Demo.key [20, 30]).toOption = none := by
  decide +kernel

/-- C51 for swaps the contract accepts: the simulation succeeds without reporting insufficient
liquidity or outdated state, and unless it reports too many steps its input, output, fee, start price,
final price and crossed ticks are those of the swap.
(Full statement: whenever the simulation raises no flag, the contract accepts the swap and the results
agree; refuted by `C51_negation`.) -/
theorem C51_swap_partial (hr : Reach s) (h : swap env s key xToY amount byIn limit = .ok (s', c)) :
    ∃ r, Spec.simulation s key xToY amount byIn limit = .ok r ∧
      r.globalInsufficientLiquidity = false ∧ r.stateOutdated = false ∧
      (r.maxSwapStepsReached = false → r.amountIn = c.amountIn ∧ r.amountOut = c.amountOut ∧
        r.fee = c.fee ∧ r.startSqrtPrice = c.startSqrtPrice ∧ r.targetSqrtPrice = c.targetSqrtPrice ∧
        r.crossedTicks = c.ticks.map fun t => ⟨t.index, t.liquidityChange, t.sign⟩) := by
  obtain ⟨_, _, _, h, -⟩ := swap_ok h
  have hw := reach_wf _ hr
  obtain ⟨pool, st, k1, k2, k3, k4, k5, k6, rfl⟩ := calculateSwap_ok h
  obtain ⟨ht, hlt⟩ := (reach_tiers hr).pools key (by rw [k1]; rfl)
  have hs : 1 ≤ key.feeTier.tickSpacing := ht.1
  obtain ⟨ticks, h1, h2, -⟩ := Sdk.fetchAll_ok (key := key) hw hs
  obtain ⟨r, e1, e2, e3, e4⟩ := Sdk.loop_sim (a := ⟨key, xToY, byIn, limit, env.now⟩)
    (Sdk.word_export hw hs) h2 swapFuel Sdk.MAX_SWAP_STEPS _ _ k5 (le_refl _)
  have hpool : getPool s key.tokenX key.tokenY key.feeTier = .ok pool := by
    unfold getPool PoolKey.new
    rw [if_neg (Nat.ne_of_lt hlt), if_pos hlt, ok_bind]
    exact poolsGet_ok.2 k1
  refine ⟨{ amountIn := r.totalIn, amountOut := r.totalOut, startSqrtPrice := pool.sqrtPrice,
            targetSqrtPrice := r.pool.sqrtPrice, fee := r.fee, crossedTicks := r.crossedTicks,
            globalInsufficientLiquidity := r.insufficient, maxSwapStepsReached := r.maxSteps,
            stateOutdated := r.outdated }, ?_, e2, e3, ?_⟩
  · unfold Spec.simulation
    rw [hpool, ok_bind, h1, ok_bind]
    unfold Sdk.simulateInvariantSwap
    simp only [bind_ok_iff, failIf_ok_iff, pure_ok_iff]
    refine ⟨(), k2, (), ?_, (), ?_, r, e1, rfl⟩
    · rintro ⟨hx, hh⟩
      obtain ⟨m1, m2⟩ := k3 hx
      change pool.sqrtPrice ≤ limit ∨ _ at hh
      omega
    · rintro ⟨hx, hh⟩
      obtain ⟨m1, m2⟩ := k4 hx
      change pool.sqrtPrice ≥ limit ∨ _ at hh
      omega
  · intro hm
    rw [e4 hm]
    exact ⟨rfl, rfl, rfl, rfl, rfl, rfl⟩

/-- The full statement is false. In the reachable state `Thin.s0` of `C42_negation` the simulation of
an exact-output swap raises no flag, while the contract rejects both the quote and the swap: where the
contract's price computation fails, the SDK's saturates. -/
theorem C51_negation :
    ¬ ∀ (now : Nat) (s : Inv) (key : PoolKey) (xToY : Bool) (amount : Nat) (byIn : Bool) (limit : Nat)
      (r : Sdk.SimulateSwapResult), Reach s →
      Spec.simulation s key xToY amount byIn limit = .ok r → Spec.NoFlag r →
      ∃ q, quote s now key xToY amount byIn limit = .ok q := by
  intro h
  have e1 : (Spec.simulation Thin.s0 Demo.key true (10 ^ 6) false MIN_SQRT_PRICE).toOption.map
      (fun r => (r.globalInsufficientLiquidity, r.stateOutdated, r.maxSwapStepsReached))
        = some (false, false, false) := by
    decide +kernel
  have e2 : (quote Thin.s0 0 Demo.key true (10 ^ 6) false MIN_SQRT_PRICE).toOption.isSome
      = false := by
    decide +kernel
  cases k1 : Spec.simulation Thin.s0 Demo.key true (10 ^ 6) false MIN_SQRT_PRICE with
  | error e => rw [k1] at e1; cases e1
  | ok r =>
    rw [k1] at e1
    simp only [Except.toOption, Option.map_some, Option.some.injEq, Prod.mk.injEq] at e1
    obtain ⟨q, hq⟩ := h 0 _ _ _ _ _ _ r Thin.s0_reach k1 e1
    rw [hq] at e2
    cases e2

/-- what the simulation promises for that swap, and that its caller could pay for it: the same caller's
swap of that many units of input is accepted -/
example :
    (Spec.simulation Thin.s0 Demo.key true (10 ^ 6) false MIN_SQRT_PRICE).toOption.map
      (fun r => (r.amountIn, r.amountOut, r.fee)) = some (1002106, 1000000, 1003) ∧
    (swap (Demo.by_ 2) Thin.s0 Demo.key true (10 ^ 6) false MIN_SQRT_PRICE).toOption.isSome = false ∧
    (swap (Demo.by_ 2) Thin.s0 Demo.key true 1002106 true MIN_SQRT_PRICE).toOption.isSome = true := by
  decide +kernel

/-- a swap across ticks on which contract and simulation agree -/
example :
    (swap (Demo.by_ 2) Thin.s0 Demo.key true (10 ^ 6) true MIN_SQRT_PRICE).toOption.map
      (fun x => (x.2.amountIn, x.2.amountOut, x.2.fee, x.2.ticks.length)) =
    (Spec.simulation Thin.s0 Demo.key true (10 ^ 6) true MIN_SQRT_PRICE).toOption.map
      (fun r => (r.amountIn, r.amountOut, r.fee, r.crossedTicks.length)) ∧
    (Spec.simulation Thin.s0 Demo.key true (10 ^ 6) true MIN_SQRT_PRICE).toOption.map
      (fun r => (r.amountOut, r.crossedTicks.length)) = some (997898, 1) := by
  decide +kernel

/-- C51, the number of steps: with the contract's swap taking `m` rounds of its loop, the simulation reports too many
steps exactly if `m` exceeds 142; at least as many rounds are taken as ticks are crossed. -/
theorem C51_steps (hr : Reach s) (h : swap env s key xToY amount byIn limit = .ok (s', c)) :
    ∃ r m pool st, Spec.simulation s key xToY amount byIn limit = .ok r ∧ s.pools.get key = some pool ∧
      Sdk.Steps s ⟨key, xToY, byIn, limit, env.now⟩ m
        { pool := pool, ticks := [], remaining := amount, totalIn := 0, totalOut := 0, fee := 0 } st ∧
      c.pool = st.pool ∧ c.ticks = st.ticks ∧ c.ticks.length ≤ m ∧ r.maxSwapStepsReached = decide (142 < m) := by
  obtain ⟨r, h1, -⟩ := C51_swap_partial hr h
  obtain ⟨_, _, _, h, -⟩ := swap_ok h
  have hw := reach_wf _ hr
  obtain ⟨pool, st, k1, k2, k3, k4, k5, k6, rfl⟩ := calculateSwap_ok h
  obtain ⟨ht, hlt⟩ := (reach_tiers hr).pools key (by rw [k1]; rfl)
  have hs : 1 ≤ key.feeTier.tickSpacing := ht.1
  obtain ⟨ticks, h3, h4, -⟩ := Sdk.fetchAll_ok (key := key) hw hs
  obtain ⟨m, hm⟩ := Sdk.loop_steps _ _ _ k5
  refine ⟨r, m, pool, st, h1, k1, hm, rfl, rfl, ?_, ?_⟩
  · have := Sdk.steps_ticks hm
    simpa using this
  · have hpool : getPool s key.tokenX key.tokenY key.feeTier = .ok pool := by
      unfold getPool PoolKey.new
      rw [if_neg (Nat.ne_of_lt hlt), if_pos hlt, ok_bind]
      exact poolsGet_ok.2 k1
    unfold Spec.simulation at h1
    rw [hpool, ok_bind, h3, ok_bind] at h1
    unfold Sdk.simulateInvariantSwap at h1
    simp only [bind_ok_iff, failIf_ok_iff, pure_ok_iff] at h1
    obtain ⟨_, _, _, _, _, _, x, hx, rfl⟩ := h1
    exact Sdk.loop_flag (P := fun _ => True) (fun _ _ _ _ _ => trivial)
      (fun _ _ _ => Sdk.local_of_agree (Sdk.word_export hw hs) h4 _) hm Sdk.MAX_SWAP_STEPS x trivial (le_refl _) hx

/-! ### The price of a simulated step -/

private theorem unwrapOr_ok {v r : Nat} {x : M Nat} (h : Sdk.unwrapOr v x = .ok r) : x = .ok r ∨ r = v := by
  unfold Sdk.unwrapOr at h
  split at h
  · left; exact h
  · cases h
  · right; cases h; rfl

private theorem div_up_ok {n d q : Nat} (h : checkedBigDivValuesUp n d = .ok q) : 0 < d ∧ q = cdiv (n * 10 ^ 24) d := by
  unfold checkedBigDivValuesUp at h
  simp only [bind_ok_iff, mulC_ok_iff, subC_ok_iff, addC_ok_iff, divC_ok_iff, fit_ok_iff] at h
  obtain ⟨_, ⟨_, rfl⟩, _, ⟨_, rfl⟩, _, ⟨_, rfl⟩, _, ⟨_, rfl⟩, _, rfl⟩ := h
  refine ⟨by omega, ?_⟩
  unfold cdiv
  rw [show spOne = 10 ^ 24 from rfl]

private theorem xUp_side {p L x q : Nat} {add : Bool} (h1 : MIN_SQRT_PRICE ≤ p) (h2 : p ≤ MAX_SQRT_PRICE)
    (hL : 2 ≤ L) (hx : x < 2 ^ 256) (hL' : L < 2 ^ 256) (h : Sdk.getNextSqrtPriceXUp p L x add = .ok q) :
    if add then q ≤ p else p ≤ q := by
  unfold Sdk.getNextSqrtPriceXUp at h
  split at h
  · cases h; split <;> exact le_rfl
  next h0 =>
  simp only [bind_ok_iff] at h
  obtain ⟨d, hd, px, hpx, den, hden, num, hnum, h⟩ := h
  unfold liqToPriceValue at hd
  rw [mulC_ok_iff] at hd
  obtain ⟨_, rfl⟩ := hd
  have hpx := bigMulToValue_ok hpx
  have hnum := bigMulToValueUp_ok hnum
  rw [Nat.div_one] at hpx
  rw [liqOne_eq] at hnum
  rw [tenTo19] at hden
  subst hpx
  have n1 : p * L ≤ num * 10 ^ 5 := by rw [hnum]; exact le_cdiv_mul _ (by norm_num)
  have n2 : num * 10 ^ 5 < p * L + 10 ^ 5 := by rw [hnum]; exact cdiv_mul_lt _ (by norm_num)
  clear hnum
  have hp : 10 ^ 19 ≤ p := le_trans (by norm_num [MIN_SQRT_PRICE]) h1
  cases add
  · simp only [Bool.false_eq_true, if_false] at h hden ⊢
    rcases unwrapOr_ok h with h | rfl
    · obtain ⟨d0, rfl⟩ := div_up_ok h
      have hd : den ≤ L * 10 ^ 19 := by
        rcases unwrapOr_ok hden with e | rfl
        · rw [subC_ok_iff] at e
          omega
        · have : MIN_SQRT_PRICE ≤ 2 * 10 ^ 19 := by norm_num [MIN_SQRT_PRICE]
          exact le_trans this (Nat.mul_le_mul_right _ hL)
      by_contra hc
      rw [not_le, ← Nat.add_one_le_iff] at hc
      have h6 : p * den ≤ num * 10 ^ 24 := by
        calc p * den ≤ p * (L * 10 ^ 19) := Nat.mul_le_mul_left _ hd
          _ = p * L * 10 ^ 19 := by ring
          _ ≤ num * 10 ^ 5 * 10 ^ 19 := Nat.mul_le_mul_right _ n1
          _ = num * 10 ^ 24 := by ring
      have := le_cdiv_mul (num * 10 ^ 24) d0
      have h5 : (cdiv (num * 10 ^ 24) den + 1) * den ≤ p * den := Nat.mul_le_mul_right _ hc
      rw [Nat.add_mul, Nat.one_mul] at h5
      omega
    · exact h2
  · simp only [if_true] at h hden ⊢
    rcases unwrapOr_ok h with h | rfl
    · obtain ⟨d0, rfl⟩ := div_up_ok h
      have hd : den = L * 10 ^ 19 + p * x := by
        have hb : L * 10 ^ 19 + p * x < 2 ^ 384 := by
          have b1 : L * 10 ^ 19 ≤ 2 ^ 256 * 2 ^ 64 := Nat.mul_le_mul hL'.le (by norm_num)
          have b2 : p * x ≤ 2 ^ 96 * 2 ^ 256 := Nat.mul_le_mul (le_trans h2 (by norm_num [MAX_SQRT_PRICE])) hx.le
          have b3 : (2:Nat) ^ 256 * 2 ^ 64 + 2 ^ 96 * 2 ^ 256 < 2 ^ 384 := by norm_num
          exact lt_of_le_of_lt (Nat.add_le_add b1 b2) b3
        rw [addC_eq hb] at hden
        simp only [Sdk.unwrapOr, Except.ok.injEq] at hden
        exact hden.symm
      rw [cdiv_le_iff d0, hd]
      have h3 : 10 ^ 24 ≤ p * (p * x) := by
        calc 10 ^ 24 ≤ 10 ^ 19 * (10 ^ 19 * 1) := by norm_num
          _ ≤ p * (p * x) := Nat.mul_le_mul hp (Nat.mul_le_mul hp (by omega))
      calc num * 10 ^ 24 = num * 10 ^ 5 * 10 ^ 19 := by ring
        _ ≤ (p * L + 10 ^ 5) * 10 ^ 19 := Nat.mul_le_mul_right _ n2.le
        _ = p * (L * 10 ^ 19) + 10 ^ 24 := by ring
        _ ≤ p * (L * 10 ^ 19) + p * (p * x) := Nat.add_le_add_left h3 _
        _ = _ := by ring
    · exact h1

private theorem yDown_side {p L y q : Nat} {add : Bool} (h1 : MIN_SQRT_PRICE ≤ p) (h2 : p ≤ MAX_SQRT_PRICE)
    (h : Sdk.getNextSqrtPriceYDown p L y add = .ok q) : if add then p ≤ q else q ≤ p := by
  unfold Sdk.getNextSqrtPriceYDown at h
  simp only [bind_ok_iff] at h
  obtain ⟨_, _, _, _, h⟩ := h
  cases add
  · simp only [Bool.false_eq_true, if_false, bind_ok_iff] at h ⊢
    obtain ⟨_, _, h⟩ := h
    rcases unwrapOr_ok h with e | rfl
    · rw [subC_ok_iff] at e; omega
    · exact h1
  · simp only [if_true, bind_ok_iff] at h ⊢
    obtain ⟨_, _, h⟩ := h
    rcases unwrapOr_ok h with e | rfl
    · rw [addC_ok_iff] at e; omega
    · exact h2

/-- C51, the direction: also where the contract would abort, a simulated step moves the price to the side of its
target. (With one hundred-thousandth of a unit of liquidity, `L = 1`, the substituted denominator breaks this.) -/
theorem C51_direction {cur target L n fee : Nat} {r : SwapResult} (h1 : MIN_SQRT_PRICE ≤ cur) (h2 : cur ≤ MAX_SQRT_PRICE)
    (hL : L ≠ 1) (hL' : L < 2 ^ 256) (hn : n < 2 ^ 256)
    (h : Sdk.computeSwapStep cur target L n byIn fee = .ok r) :
    if target ≤ cur then r.nextSqrtPrice ≤ cur else cur ≤ r.nextSqrtPrice := by
  unfold Sdk.computeSwapStep at h
  split at h
  · cases h
    dsimp only
    split <;> omega
  next h0 =>
  have hL2 : 2 ≤ L := by omega
  simp only [bind_ok_iff, pure_ok_iff] at h
  obtain ⟨⟨next, i, o⟩, h, _, _, _, _, _, _, rfl⟩ := h
  dsimp only at h ⊢
  suffices hs : next = target ∨ (if decide (cur ≥ target) then next ≤ cur else cur ≤ next) by
    rcases hs with rfl | hs
    · split <;> omega
    · simpa using hs
  cases byIn
  · simp only [Bool.false_eq_true, if_false, bind_ok_iff, pure_ok_iff, Prod.mk.injEq, Prod.exists] at h
    obtain ⟨n', o', h, rfl, _, rfl⟩ := h
    unfold Sdk.stepByOut at h
    simp only [bind_ok_iff, pure_ok_iff, Prod.mk.injEq] at h
    obtain ⟨_, _, _, h, rfl, _⟩ := h
    split at h
    · cases h; left; rfl
    · right
      unfold Sdk.getNextSqrtPriceFromOutput at h
      split at h
      · next hx => rw [if_pos hx]; exact yDown_side h1 h2 h
      · next hx => rw [if_neg hx]; exact xUp_side h1 h2 hL2 hn hL' h
  · simp only [if_true, bind_ok_iff, pure_ok_iff, Prod.mk.injEq, Prod.exists] at h
    obtain ⟨n', o', h, rfl, _, rfl⟩ := h
    unfold Sdk.stepByIn at h
    simp only [bind_ok_iff, pure_ok_iff, Prod.mk.injEq] at h
    obtain ⟨k, hk, after, ha, _, _, _, h, rfl, _⟩ := h
    split at h
    · cases h; left; rfl
    · right
      have hb : after < 2 ^ 256 := by
        unfold tokMulPct bigMul at ha
        simp only [bind_ok_iff, mulC_ok_iff, fit_ok_iff] at ha
        obtain ⟨_, _, hb, rfl⟩ := ha
        exact hb
      unfold Sdk.getNextSqrtPriceFromInput at h
      split at h
      · next hx => rw [if_pos hx]; exact xUp_side h1 h2 hL2 hb hL' h
      · next hx => rw [if_neg hx]; exact yDown_side h1 h2 h

/-- removing more of X than the liquidity holds: the contract aborts, the simulated price goes up to the top -/
example : getNextSqrtPriceXUp (10 ^ 24) (10 ^ 5) 1 false = .error .track ∧
    Sdk.getNextSqrtPriceXUp (10 ^ 24) (10 ^ 5) 1 false = .ok MAX_SQRT_PRICE ∧
    Sdk.getNextSqrtPriceXUp (10 ^ 24) 1 1 false = .ok 655353860938629256621630 := by
  decide +kernel

end Verif
