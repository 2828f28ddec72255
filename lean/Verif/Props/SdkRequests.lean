import Verif.Model.SdkRequests
import Verif.Props.CreatePool
import Verif.Props.SdkPrices
import Verif.Props.PriceTick
import Verif.Props.Lookup
import Verif.Props.PositionCalls

/-!
# Property C118: pools and positions requested through the SDK

The SDK finds the initial tick of a pool itself, and turns the spot price and a tolerance into the price limits of a
position.
-/

namespace Verif
open Service Spec Sdk

variable {env : Env} {s s' : Inv} {key : PoolKey} {p : Nat}

/-- the price lies between two ticks of the grid, or on one -/
def Spec.Between (sp p : Nat) : Prop :=
  (∃ a q, Grid sp a ∧ calculateSqrtPrice a = .ok q ∧ q ≤ p) ∧ (∃ b q, Grid sp b ∧ calculateSqrtPrice b = .ok q ∧ p ≤ q)

private theorem grid_price {sp : Nat} {i : Int} (h : Grid sp i) : calculateSqrtPrice i = .ok (priceOf i) :=
  calculateSqrtPrice_eq h.2.1 h.2.2

/-- of two different ticks of the grid, the higher is at least a spacing higher -/
private theorem grid_gap {sp : Nat} {i j : Int} (hi : (sp : Int) ∣ i) (hj : (sp : Int) ∣ j) (h : i < j) : i + sp ≤ j := by
  obtain ⟨a, rfl⟩ := hi
  obtain ⟨b, rfl⟩ := hj
  have hab : a < b := by
    by_contra hc
    have := Int.mul_le_mul_of_nonneg_left (show b ≤ a by omega) (Int.natCast_nonneg sp)
    omega
  have := Int.mul_le_mul_of_nonneg_left (show a + 1 ≤ b from hab) (Int.natCast_nonneg sp)
  rw [Int.mul_add, Int.mul_one] at this
  exact this

private theorem at_between {sp : Nat} {i : Int} (hg : Grid sp i) (h : AtTick sp i p) : Between sp p := by
  obtain ⟨lo, e, hlo, hhi, htop⟩ := h
  refine ⟨⟨i, lo, hg, e, hlo⟩, ?_⟩
  by_cases hc : i + sp ≤ 221818
  · obtain ⟨hi, e2, h2⟩ := hhi hc
    exact ⟨i + sp, hi, ⟨dvd_add hg.1 (dvd_refl _), by have := hg.2.1; omega, hc⟩, e2, h2.le⟩
  · exact ⟨i, lo, hg, e, (htop (by omega)).le⟩

/-- the tick that the SDK finds is the tick of the price -/
private theorem between_at {sp : Nat} (hs : 1 ≤ sp) (h : Between sp p) :
    ∃ i, getTickAtSqrtPrice p sp = .ok i ∧ Grid sp i ∧ AtTick sp i p := by
  obtain ⟨⟨a, qa, ha, ea, hpa⟩, ⟨b, qb, hb, eb, hpb⟩⟩ := h
  rw [grid_price ha] at ea
  rw [grid_price hb] at eb
  cases ea; cases eb
  obtain ⟨i, hi⟩ := (C02_total p sp hs).2 ⟨le_trans (priceOf_ge_min ha.2.1 ha.2.2) hpa,
    le_trans hpb (priceOf_le_max hb.2.1 hb.2.2)⟩
  obtain ⟨hd, habove, hle, hlow, hhigh⟩ := C02_floor p sp i hs hi
  have hmin : -221818 ≤ i := by
    by_contra hc
    have h1 : i + sp ≤ a := grid_gap hd ha.1 (by have := ha.2.1; omega)
    have h2 : i + sp ≤ 221818 := le_trans h1 ha.2.2
    have h3 := hhigh _ h2 (calculateSqrtPrice_eq (by simp only [MIN_TICK]; omega) h2)
    have h4 := priceOf_le (t := i + sp) (u := a) (by simp only [MIN_TICK]; omega) ha.2.2 h1
    omega
  have hg : Grid sp i := ⟨hd, hmin, hle⟩
  have hlo := hlow _ hmin (grid_price hg)
  refine ⟨i, hi, hg, priceOf i, grid_price hg, hlo, fun hc => ?_, fun hc => ?_⟩
  · have e2 := calculateSqrtPrice_eq (t := i + sp) (by simp only [MIN_TICK]; omega) hc
    exact ⟨_, e2, hhigh _ hc e2⟩
  · have hbi : b ≤ i := by
      by_contra hn
      have := grid_gap hd hb.1 (by omega)
      have := hb.2.2
      omega
    have := priceOf_le (t := b) (u := i) hb.2.1 hle hbi
    omega

/-- C118, pools: a pool that may be made is made on request of the SDK exactly if the price lies between ticks of the grid.
It starts at the highest price of a tick of the grid that is not above the price asked for.
(Full statement: the pool is made for every price that a pool can have, and starts at this price. Refuted by
`C118_negation` and `C118_negation_price`.) -/
theorem C118_pool_partial (hr : Reach s) (ht : key.feeTier ∈ s.feeTiers) (hk : key.tokenX ≠ key.tokenY)
    (hn : s.pools.get ⟨min key.tokenX key.tokenY, max key.tokenX key.tokenY, key.feeTier⟩ = none) :
    ((∃ s', createPoolTx env s key p = .ok s') ↔ Between key.feeTier.tickSpacing p) ∧
    ∀ s', createPoolTx env s key p = .ok s' →
      ∃ pool, s'.pools.get ⟨min key.tokenX key.tokenY, max key.tokenX key.tokenY, key.feeTier⟩ = some pool ∧
        (∃ i, Grid key.feeTier.tickSpacing i ∧ pool.currentTickIndex = i ∧ calculateSqrtPrice i = .ok pool.sqrtPrice) ∧
        pool.sqrtPrice ≤ p ∧
        ∀ j q, Grid key.feeTier.tickSpacing j → calculateSqrtPrice j = .ok q → q ≤ p → q ≤ pool.sqrtPrice := by
  have hs : 1 ≤ key.feeTier.tickSpacing := ((reach_tiers hr).ok _ ht).1
  have hans : ∀ i, failure (createPool env s key.tokenX key.tokenY key.feeTier p i) = none ↔
      Grid key.feeTier.tickSpacing i ∧ AtTick key.feeTier.tickSpacing i p := by
    intro i
    rw [C76_answer hr]
    unfold refusal
    rw [if_neg (not_not.2 ht), if_neg hk, hn]
    by_cases hg : Grid key.feeTier.tickSpacing i <;> by_cases ha : AtTick key.feeTier.tickSpacing i p <;> simp [hg, ha]
  have hok : ∀ {i s'}, createPool env s key.tokenX key.tokenY key.feeTier p i = .ok s' →
      Grid key.feeTier.tickSpacing i ∧ AtTick key.feeTier.tickSpacing i p := by
    intro i s' h
    rw [← hans i, h]; rfl
  refine ⟨⟨?_, fun h => ?_⟩, ?_⟩
  · rintro ⟨s', h⟩
    obtain ⟨i, -, hc⟩ := bind_ok_iff.1 h
    obtain ⟨h1, h2⟩ := hok hc
    exact at_between h1 h2
  · obtain ⟨i, hi, hg, ha⟩ := between_at hs h
    have hf := (hans i).2 ⟨hg, ha⟩
    cases hc : createPool env s key.tokenX key.tokenY key.feeTier p i with
    | error e => rw [hc] at hf; cases hf
    | ok s' => exact ⟨s', bind_ok_iff.2 ⟨i, hi, hc⟩⟩
  · intro s' h
    obtain ⟨i, -, hc⟩ := bind_ok_iff.1 h
    obtain ⟨hg, lo, e1, hlo, hhi, htop⟩ := hok hc
    obtain ⟨pool, k, hk', -, hp, -, ht', hq, hle, -⟩ := C76_pool_partial hr hc
    rw [poolKeyNew_ok] at hk'
    rw [hk'.2] at *
    refine ⟨pool, hp, ⟨i, hg, ht', hq⟩, hle, fun j q hj ej hjp => ?_⟩
    rw [grid_price hj] at ej
    rw [grid_price hg] at hq
    cases ej
    rw [← Except.ok.inj hq]
    refine priceOf_le hj.2.1 hg.2.2 ?_
    by_contra hc'
    have h1 := grid_gap hg.1 hj.1 (by omega)
    have h2 : i + key.feeTier.tickSpacing ≤ 221818 := le_trans h1 hj.2.2
    obtain ⟨hi, e2, h3⟩ := hhi h2
    have hlow : MIN_TICK ≤ i + key.feeTier.tickSpacing := by have := hg.2.1; simp only [MIN_TICK]; omega
    rw [calculateSqrtPrice_eq hlow h2] at e2
    have h4 := priceOf_le hlow hj.2.2 h1
    rw [← Except.ok.inj e2] at h3
    omega

/-- C118, positions: sent at the price of the pool, with any tolerance up to 100 %, the request of the SDK has exactly the
outcome of a request without price limits. -/
theorem C118_position (hr : Reach s) {pool : Pool} (hp : s.pools.get key = some pool) {lower upper : Int}
    {delta slippage : Nat} (hs : slippage ≤ 10 ^ 12) :
    createPositionTx env s key lower upper delta pool.sqrtPrice slippage =
      createPosition env s key lower upper delta 0 (2 ^ 128 - 1) := by
  obtain ⟨h1, h2, -⟩ := C35_agree hr hp
  obtain ⟨lo, hi, e1, e2, h3, h4, -⟩ := C60_encloses h1 h2 hs
  unfold createPositionTx createPositionLimits
  rw [e1, e2]
  simp only [ok_bind, pure_bind]
  unfold createPosition Position.create poolsGet
  rw [hp]
  simp only [okOr, ok_bind]
  rw [failIf_neg (c := pool.sqrtPrice < lo ∨ pool.sqrtPrice > hi) (by omega),
    failIf_neg (c := pool.sqrtPrice < 0 ∨ pool.sqrtPrice > 2 ^ 128 - 1) (by omega)]

/-- C118, tolerance: if the price has moved since, the position is made only if the new price is within the tolerance of the
old one (prices are squares of the stored roots; the lower bound is true up to the rounding of the root). -/
theorem C118_tolerance (hr : Reach s) {lower upper : Int} {delta spot slippage : Nat} (hs : slippage ≤ 10 ^ 12)
    (hspot : spot < 2 ^ 128) {r : Inv × Position}
    (h : createPositionTx env s key lower upper delta spot slippage = .ok r) :
    ∃ pool, s.pools.get key = some pool ∧
      pool.sqrtPrice * pool.sqrtPrice * 10 ^ 12 ≤ spot * spot * (10 ^ 12 + slippage) ∧
      spot * spot * (10 ^ 12 - slippage) <
        (pool.sqrtPrice + 1) * (pool.sqrtPrice + 1) * 10 ^ 12 + 10 ^ 24 * (10 ^ 12 - slippage) := by
  obtain ⟨lo, e1, -, b1⟩ := C60_bound (up := false) (p := spot) (slippage := slippage) hspot (by omega) (fun _ => hs)
  obtain ⟨hi, e2, b2, -⟩ := C60_bound (up := true) (p := spot) (slippage := slippage) hspot (by omega) (fun h => by cases h)
  unfold createPositionTx createPositionLimits at h
  rw [e1, e2] at h
  simp only [ok_bind, pure_bind] at h
  obtain ⟨pool, _, _, _, _, _, hp, hl, hu, -⟩ := C39_create hr (show createPosition env s key lower upper delta lo hi = .ok (r.1, r.2) from h)
  refine ⟨pool, hp, ?_, ?_⟩
  · refine le_trans (Nat.mul_le_mul_right _ (Nat.mul_le_mul hu hu)) ?_
    simpa [factor] using b2
  · have b1' : spot * spot * (10 ^ 12 - slippage) < (lo + 1) * (lo + 1) * 10 ^ 12 + 10 ^ 24 * (10 ^ 12 - slippage) := by
      simpa [factor] using b1
    refine lt_of_lt_of_le b1' (Nat.add_le_add_right (Nat.mul_le_mul_right _ (Nat.mul_le_mul ?_ ?_)) _) <;> omega

/-! ### Examples and refutation -/

namespace SdkRequestsDemo

/-- a program with one fee tier of spacing 10 -/
def state : Inv := { Inv.init 1 0 with feeTiers := [Demo.tier] }

theorem reach : Reach state := Reach.call (env := Demo.by_ 1) (c := .addFeeTier Demo.tier) (Reach.init 1 0) rfl

end SdkRequestsDemo

open SdkRequestsDemo in
/-- The pool is not made for every price a pool can have: on a grid of 10 the lowest price belongs to no tick, and neither do
the prices above the last tick. -/
theorem C118_negation : ¬ ∀ (env : Env) (s : Inv) (key : PoolKey) (p : Nat), Reach s → key.feeTier ∈ s.feeTiers →
    key.tokenX ≠ key.tokenY → s.pools.get ⟨min key.tokenX key.tokenY, max key.tokenX key.tokenY, key.feeTier⟩ = none →
    15258932000000000000 ≤ p → p ≤ 65535383934512647000000000000 → ∃ s', createPoolTx env s key p = .ok s' := by
  intro h
  obtain ⟨s', hs⟩ := h (Demo.by_ 2) state Demo.key 15258932000000000000 reach (by decide) (by decide) rfl le_rfl (by norm_num)
  have : (createPoolTx (Demo.by_ 2) state Demo.key 15258932000000000000).toBool = false := by decide +kernel
  rw [hs] at this
  cases this

open SdkRequestsDemo in
/-- Nor does a pool that is made start at the price asked for: asked for at 1.0008 it starts at 1. -/
theorem C118_negation_price : ¬ ∀ (env : Env) (s s' : Inv) (key : PoolKey) (p : Nat) (pool : Pool), Reach s →
    createPoolTx env s key p = .ok s' → s'.pools.get key = some pool → pool.sqrtPrice = p := by
  intro h
  have h1 : (createPoolTx (Demo.by_ 2) state Demo.key 1000400060004000000000000).toOption.map
      (fun s' => (s'.pools.get Demo.key).map (·.sqrtPrice)) = some (some (10 ^ 24)) := by decide +kernel
  cases hs : createPoolTx (Demo.by_ 2) state Demo.key 1000400060004000000000000 with
  | error e => rw [hs] at h1; cases h1
  | ok s' =>
    rw [hs] at h1
    simp only [Except.toOption, Option.map_some, Option.some.injEq] at h1
    cases hp : s'.pools.get Demo.key with
    | none => rw [hp] at h1; cases h1
    | some pool =>
      rw [hp] at h1
      have := h _ _ _ _ _ pool reach hs hp
      simp only [Option.map_some, Option.some.injEq] at h1
      omega

open SdkRequestsDemo in
/-- What the SDK is told at the two ends of the grid: the tick below is not a tick; the price above the last tick is not its
price. -/
example : failure (createPoolTx (Demo.by_ 2) state Demo.key 15258932000000000000) = some (.inv .InvalidInitTick) ∧
    failure (createPoolTx (Demo.by_ 2) state Demo.key 65535383934512647000000000000) = some (.inv .InvalidInitSqrtPrice) ∧
    failure (createPoolTx (Demo.by_ 2) state Demo.key 65509176333123237000000000000) = none ∧
    failure (createPoolTx (Demo.by_ 2) state Demo.key (10 ^ 24 - 1)) = none ∧
    failure (createPoolTx (Demo.by_ 2) state Demo.key 1) = some .track := by decide +kernel

/-- The limits of a position with a tolerance of 1 %: a price of 1 that has moved to 1.02 refuses it, to 1.004 does not. -/
example : createPositionLimits (10 ^ 24) (10 ^ 10) = .ok (994987437106619954734479, 1004987562112089027021926) := by
  decide +kernel

open SdkRequestsDemo in
/-- A position at the price of the pool is made with any tolerance, even none, and refused at another price. -/
example : (createPositionTx (Demo.by_ 2) Demo.start Demo.key (-10) 10 1000000 (10 ^ 24) 0).toBool = true ∧
    failure (createPositionTx (Demo.by_ 2) Demo.start Demo.key (-10) 10 1000000 (10 ^ 24 + 10 ^ 21) 0) =
      some (.inv .PriceLimitReached) ∧
    (createPositionTx (Demo.by_ 2) Demo.start Demo.key (-10) 10 1000000 (10 ^ 24 + 10 ^ 21) (10 ^ 10)).toBool = true := by
  decide +kernel

end Verif
