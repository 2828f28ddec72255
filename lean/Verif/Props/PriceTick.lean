import Verif.Proofs.TickAgree
import Verif.Props.Exploit

/-!
# C35: price and tick agree; C28: direction and limit of a swap
-/

namespace Verif
open Service Spec

variable {env : Env} {s s' : Inv} {key : PoolKey} {xToY byIn : Bool} {amount limit : Nat}
  {r : CalculateSwapResult}

/-- C35: in every history the price of a pool is in the global range, its current tick is a tick of
its grid, and the price is between the prices of the current tick and of the next tick of the grid. -/
theorem C35_agree (hr : Reach s) {p : Pool} (hp : s.pools.get key = some p) :
    15258932000000000000 ≤ p.sqrtPrice ∧ p.sqrtPrice ≤ 65535383934512647000000000000 ∧
    Grid key.feeTier.tickSpacing p.currentTickIndex ∧
    (∀ q, calculateSqrtPrice p.currentTickIndex = .ok q → q ≤ p.sqrtPrice) ∧
    (∀ q, calculateSqrtPrice (p.currentTickIndex + key.feeTier.tickSpacing) = .ok q →
      p.sqrtPrice ≤ q) := by
  have h := reach_agree s hr key p hp
  refine ⟨h.price.1, h.price.2, h.grid, ?_, ?_⟩
  · intro q hq
    rw [calc_grid h.grid hq]; exact h.low
  · intro q hq
    have hmin := h.grid.min
    simp only [MIN_TICK] at hmin
    obtain ⟨-, h2, rfl⟩ := calculateSqrtPrice_ok hq (by omega)
    exact h.high h2

/-- C28, direction and reported prices: after a successful swap the price has not moved against the
direction of the swap, and the reported prices are those of the pool before and after. -/
theorem C28_direction (hr : Reach s) (h : swap env s key xToY amount byIn limit = .ok (s', r)) :
    ∃ p p', s.pools.get key = some p ∧ s'.pools.get key = some p' ∧
      r.startSqrtPrice = p.sqrtPrice ∧ r.targetSqrtPrice = p'.sqrtPrice ∧
      (xToY = true → p'.sqrtPrice ≤ p.sqrtPrice) ∧ (xToY = false → p.sqrtPrice ≤ p'.sqrtPrice) := by
  obtain ⟨ticks, b1, b2, h1, h2, h3, h4, e⟩ := swap_ok h
  obtain ⟨p, hp, _⟩ := calculateSwap_pool h1
  have ht := ((reach_tiers hr).pools key (by rw [hp]; rfl)).1
  obtain ⟨-, k1, k2, k3⟩ := calculateSwap_side (reach_wf s hr) ⟨ht.1, ht.2.1⟩ h1 hp
    (reach_agree s hr key p hp)
  have es : s'.pools.get key = some r.pool := by
    have : s' = _ := e
    rw [this]
    simp [Map.get_insert]
  refine ⟨p, r.pool, hp, es, k1, k2, ?_, ?_⟩
  · rintro rfl
    simp only [if_true] at k3
    exact k3.1
  · rintro rfl
    simp only [Bool.false_eq_true, if_false] at k3
    exact k3.1

/-- C28, limit: a swap from Y to X never ends above the caller's limit; a swap from X to Y with exact
output never ends below it; a swap from X to Y with exact input never ends below it if the limit is
above 1, and otherwise at most 65536 units of 10^-24 below it.
(Full statement: never below the limit in all modes; refuted by `C28_negation`.) -/
theorem C28_limit_partial (hr : Reach s) (h : swap env s key xToY amount byIn limit = .ok (s', r)) :
    (xToY = false → r.targetSqrtPrice ≤ limit) ∧
    (xToY = true → byIn = false → limit ≤ r.targetSqrtPrice) ∧
    (xToY = true → byIn = true → 10 ^ 24 < limit → limit ≤ r.targetSqrtPrice) ∧
    (xToY = true → limit ≤ r.targetSqrtPrice + 65536) := by
  obtain ⟨ticks, b1, b2, h1, h2, h3, h4, e⟩ := swap_ok h
  obtain ⟨p, hp, _⟩ := calculateSwap_pool h1
  have ht := ((reach_tiers hr).pools key (by rw [hp]; rfl)).1
  obtain ⟨-, k1, k2, k3⟩ := calculateSwap_side (reach_wf s hr) ⟨ht.1, ht.2.1⟩ h1 hp
    (reach_agree s hr key p hp)
  dsimp only at k2 k3
  rw [k2]
  refine ⟨?_, ?_, ?_, ?_⟩
  · rintro rfl
    simp only [Bool.false_eq_true, if_false] at k3
    exact k3.2
  · rintro rfl rfl
    simp only [if_true] at k3
    rcases k3.2 with h | ⟨h, _⟩
    · exact h
    · cases h
  · rintro rfl rfl hl
    simp only [if_true] at k3
    rcases k3.2 with h | ⟨_, _, h⟩
    · exact h
    · omega
  · rintro rfl
    simp only [if_true] at k3
    rcases k3.2 with h | ⟨_, h, _⟩ <;> omega

namespace Overshoot

def tier : FeeTier := ⟨10 ^ 10, 1⟩
def pk : PoolKey := ⟨5, 7, tier⟩
def s0 : Inv :=
  Exploit.credited (Exploit.credited (Inv.init 1 0) 5 2 (10 ^ 30)) 7 2 (10 ^ 30)
/-- a pool at tick -199900 with one wide position -/
def s1 : Inv := runAll s0 [(Exploit.by_ 1, .addFeeTier tier),
  (Exploit.by_ 2, .createPool 5 7 tier 45650304000000000000 (-199900)),
  (Exploit.by_ 2, .createPosition pk (-200200) (-199000) (10 ^ 25) 0 (2 ^ 128 - 1))]

theorem s1_reach : Reach s1 := by
  obtain ⟨_, b1, _⟩ := books_credited (.init 1 0) 5 2 (10 ^ 30)
  obtain ⟨_, b2, _⟩ := books_credited b1 7 2 (10 ^ 30)
  exact books_reach (books_runAll _ (by simp [NoVara]) b2)

end Overshoot
open Overshoot

/-- C28 is false: an exact-input swap from X to Y can end below the caller's limit (here by 63 units). -/
theorem C28_negation :
    ¬ ∀ (env : Env) (s s' : Inv) (key : PoolKey) (amount limit : Nat) (byIn : Bool)
      (r : CalculateSwapResult), Reach s → swap env s key true amount byIn limit = .ok (s', r) →
      limit ≤ r.targetSqrtPrice := by
  intro h
  have h1 : (swap (Exploit.by_ 2) s1 Overshoot.pk true 11090589327781316796771 true
      45422634000012345678).toOption.map (fun x => x.2.targetSqrtPrice) =
      some (45422634000012345678 - 63) := by decide +kernel
  cases hs : swap (Exploit.by_ 2) s1 Overshoot.pk true 11090589327781316796771 true
      45422634000012345678 with
  | error e => rw [hs] at h1; cases h1
  | ok x =>
    rw [hs] at h1
    have := h _ _ x.1 _ _ _ _ x.2 s1_reach hs
    simp only [Except.toOption, Option.map_some, Option.some.injEq] at h1
    omega

/-- after a swap that crosses the lower tick -10 of a position the tick is -20 and the price is between
the prices of -20 and -10 -/
example : (Demo.traded.pools.get Demo.key).map (fun p => (p.currentTickIndex, p.sqrtPrice)) =
    some (-20, 999302984359663232683739) ∧
    calculateSqrtPrice (-20) = .ok 999000549780000000000000 ∧
    calculateSqrtPrice (-10) = .ok 999500149965000000000000 := by decide +kernel

end Verif
