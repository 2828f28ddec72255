import Verif.Proofs.Pump
import Verif.Props.Ledger

/-!
# C12: what two ticks accept can still be too much for the pool

`C12_accept_partial` needs the hypothesis that the liquidity counter of the pool is right. Without it the statement is
false: the counter can be raised by the liquidity of a position, again and again, with two swaps each time.
-/

namespace Verif
open Verif.Service Verif.Spec
open Pump

/-- For every `n` up to 4436 there is a history of deposits and calls after which the counter of the pool is `n` times
the liquidity of the only position, which is not even active. -/
theorem C12_pump {n : Nat} (h0 : 1 ≤ n) (hn : n ≤ 4436) :
    ∃ s held p, Books s held ∧ s.pools.get key = some p ∧ p.liquidity = n * Pump.liq ∧
      grossLiq s key 100 = Pump.liq ∧ activeLiq s key p.currentTickIndex = 0 := by
  obtain ⟨s, h⟩ := pumped_all h0 hn
  obtain ⟨held, hb⟩ := h.books
  have e : ∀ t : Inv, t.positions = base.positions → activeLiq t key 100 = activeLiq base key 100 ∧
      grossLiq t key 100 = grossLiq base key 100 := by
    intro t ht
    unfold activeLiq grossLiq
    rw [ht]
    exact ⟨rfl, rfl⟩
  have e2 : activeLiq base key 100 = 0 ∧ grossLiq base key 100 = Pump.liq := by decide +kernel
  exact ⟨s, held, _, hb, h.pool, rfl, (e s h.pos).2.trans e2.2, (e s h.pos).1.trans e2.1⟩

/-- one round: the counter is doubled, and the attacker has lost one unit of each token -/
example : ((round 1 base).pools.get key).map (fun p => (p.liquidity, p.sqrtPrice, p.currentTickIndex)) =
      some (2 * Pump.liq, top, 100) ∧
    bal (round 1 base).balances 2 5 + 1 = bal base.balances 2 5 ∧
    bal (round 1 base).balances 2 7 + 1 = bal base.balances 2 7 := by decide +kernel

/-- C12 is false without the hypothesis on the counter: in a reachable state both ticks accept a deposit of 10000 units,
its amounts can be computed, and the pool refuses it. -/
theorem C12_negation : ¬ ∀ (s : Inv) (k : PoolKey) (p : Pool) (now delta : Nat) (lower upper : Int)
    (lt ut : Tick × Bool) (lt' ut' : Tick) (r : Nat × Nat × Bool),
    Reach s → s.pools.get k = some p → lower < upper →
    getOrCreateTick s now k lower = .ok lt → getOrCreateTick s now k upper = .ok ut →
    lt.1.update delta (calculateMaxLiquidityPerTick k.feeTier.tickSpacing) false true = .ok lt' →
    ut.1.update delta (calculateMaxLiquidityPerTick k.feeTier.tickSpacing) true true = .ok ut' →
    calculateAmountDelta p.currentTickIndex p.sqrtPrice delta true upper lower = .ok r →
    ∃ r', p.updateLiquidity delta true upper lower = .ok r' := by
  intro hall
  obtain ⟨s, h⟩ := pumped_all (n := 4436) (by norm_num) le_rfl
  obtain ⟨held, hb⟩ := h.books
  have new : ∀ (i : Int) (t : Tick), i ≠ 100 → base.ticks.get (key, i) = none → checkTick i 100 = .ok () →
      Tick.create i (pool (4436 * Pump.liq) top 100) 1000 = .ok t → getOrCreateTick s 1000 key i = .ok (t, true) := by
    intro i t hi hn hc ht
    unfold getOrCreateTick
    rw [h.other i hi, hn]
    simp only [bind_ok_iff, pure_ok_iff]
    refine ⟨t, unwrap_eq ?_, rfl⟩
    unfold createTick mapErr poolsGet
    rw [h.pool, show key.feeTier.tickSpacing = 100 from rfl, hc]
    exact ht
  have c1 : Tick.create (-100) (pool (4436 * Pump.liq) top 100) 1000 =
      .ok ⟨-100, true, 0, 0, 995012727930000000000000, 0, 0, 0⟩ := by decide +kernel
  have c2 : Tick.create 200 (pool (4436 * Pump.liq) top 100) 1000 =
      .ok ⟨200, true, 0, 0, 1010049662090000000000000, 0, 0, 0⟩ := by decide +kernel
  have n1 := new _ _ (by decide) (by decide +kernel) (by decide +kernel) c1
  have n2 := new _ _ (by decide) (by decide +kernel) (by decide +kernel) c2
  have u1 : Tick.update ⟨-100, true, 0, 0, 995012727930000000000000, 0, 0, 0⟩ 10000 (calculateMaxLiquidityPerTick 100)
      false true = .ok ⟨-100, true, 10000, 10000, 995012727930000000000000, 0, 0, 0⟩ := by decide +kernel
  have u2 : Tick.update ⟨200, true, 0, 0, 1010049662090000000000000, 0, 0, 0⟩ 10000 (calculateMaxLiquidityPerTick 100)
      true true = .ok ⟨200, false, 10000, 10000, 1010049662090000000000000, 0, 0, 0⟩ := by decide +kernel
  have a : calculateAmountDelta 100 top 10000 true 200 (-100) = .ok (1, 1, true) := by decide +kernel
  obtain ⟨r', hr⟩ := hall s key _ 1000 10000 (-100) 200 _ _ _ _ _ (books_reach hb) h.pool (by decide) n1 n2 u1 u2 a
  have f : (pool (4436 * Pump.liq) top 100).updateLiquidity 10000 true 200 (-100) = .error .track := by decide +kernel
  rw [f] at hr
  cases hr

/-- the same deposit one round earlier is accepted -/
example : ((pool (4435 * Pump.liq) top 100).updateLiquidity 10000 true 200 (-100)).toOption.isSome = true := by
  decide +kernel

end Verif
