import Verif.Model.State

/-!
# Specification: the rounds of a swap
-/

namespace Verif.Spec

/-- ticks crossed, search ranges walked, and two -/
def rounds (pool : Pool) (r : CalculateSwapResult) (spacing : Nat) : Nat :=
  r.ticks.length + 2 + (r.pool.currentTickIndex - pool.currentTickIndex).natAbs / (256 * spacing)

/-- `n` rounds of the loop of a swap lead from `st` to `st'` -/
inductive Made (s : Inv) (a : SwapArgs) : Nat → SwapState → SwapState → Prop
  | none (st : SwapState) : Made s a 0 st st
  | round {n : Nat} {st st' st'' : SwapState} : Made s a n st st' → st'.remaining ≠ 0 → swapIter s a st' = .ok st'' →
      Made s a (n + 1) st st''

/-- the swap `r` took `n` rounds -/
def TookRounds (s : Inv) (a : SwapArgs) (pool : Pool) (amount : Nat) (r : CalculateSwapResult) (n : Nat) : Prop :=
  ∃ st, Made s a n ⟨pool, [], amount, 0, 0, 0⟩ st ∧ st.remaining = 0 ∧
    r = ⟨st.totalIn, st.totalOut, pool.sqrtPrice, st.pool.sqrtPrice, st.fee, st.pool, st.ticks⟩

/-- the liquidity at the end of a swap, with that of the last tick it crossed -/
def endLiq (r : CalculateSwapResult) : Nat :=
  r.pool.liquidity + (r.ticks.getLast?.map (·.liquidityChange)).getD 0

end Verif.Spec
