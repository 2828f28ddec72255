import Verif.Proofs.Terminate
import Verif.Props.PositionCalls

/-!
# C38: every swap computation terminates

`swapIter` is one round of the loop of `calculate_swap`; the loop goes on as long as the remaining
amount is not zero and the round did not fail.
-/

namespace Verif
open Service Spec

variable {s : Inv} {key : PoolKey} {xToY byIn : Bool} {amount limit now : Nat} {pool : Pool}

/-- the local variables at the start of the loop -/
private abbrev loopStart (pool : Pool) (amount : Nat) : SwapState :=
  { pool := pool, ticks := [], remaining := amount, totalIn := 0, totalOut := 0, fee := 0 }

private theorem start_side (hr : Reach s) (h : swapStart s key xToY amount limit = .ok pool) :
    StoreWF s ∧ Spacing key.feeTier.tickSpacing ∧
    SwapSide ⟨key, xToY, byIn, limit, now⟩ pool.sqrtPrice (loopStart pool amount) := by
  simp only [bind_ok_iff, swapStart, failIf_ok_iff, poolsGet_ok, pure_ok_iff] at h
  obtain ⟨_, h0, p, h1, _, h2, _, h3, rfl⟩ := h
  have ht := ((reach_tiers hr).pools key (by rw [h1]; rfl)).1
  refine ⟨reach_wf s hr, ⟨ht.1, ht.2.1⟩, reach_agree s hr key p h1, ?_, ?_⟩
  · dsimp only; split <;> exact le_rfl
  · dsimp only
    cases xToY
    · simp at h3 ⊢; omega
    · simp at h2 ⊢; omega

/-- C38: in every reachable state and for all arguments that pass the initial checks there is no
infinite run of the loop. -/
theorem C38_terminates (hr : Reach s) (h : swapStart s key xToY amount limit = .ok pool) :
    ¬ ∃ f : Nat → SwapState, f 0 = ⟨pool, [], amount, 0, 0, 0⟩ ∧
      ∀ n, (f n).remaining ≠ 0 ∧ swapIter s ⟨key, xToY, byIn, limit, now⟩ (f n) = .ok (f (n + 1)) := by
  rintro ⟨f, f0, hf⟩
  obtain ⟨hw, hs, h0⟩ := start_side (byIn := byIn) (now := now) hr h
  have side : ∀ n, SwapSide ⟨key, xToY, byIn, limit, now⟩ pool.sqrtPrice (f n) := by
    intro n
    induction n with
    | zero => rw [f0]; exact h0
    | succ n ih => exact iter_side hw hs ih (hf n).1 (hf n).2
  have left : ∀ n, itersLeft ⟨key, xToY, byIn, limit, now⟩ (f n) + n ≤
      itersLeft ⟨key, xToY, byIn, limit, now⟩ (f 0) := by
    intro n
    induction n with
    | zero => exact le_rfl
    | succ n ih =>
      have := iter_left hw hs (side n) (hf n).1 (hf n).2 (hf (n + 1)).1
      omega
  have := left (itersLeft ⟨key, xToY, byIn, limit, now⟩ (f 0) + 1)
  omega

/-- C38, number of rounds: the loop ends with a result or an error after at most 443640 rounds, and
running it longer gives the same; only when a given amount of token X is taken out can it take more,
because a round may then stop short of its target with an amount left over, but the price has risen. -/
theorem C38_rounds (hr : Reach s) (h : swapStart s key xToY amount limit = .ok pool) :
    ∃ r, ∀ n, 443640 + (if xToY = false ∧ byIn = false then 65535383934512647000000000000 else 0) ≤ n →
      swapLoop s ⟨key, xToY, byIn, limit, now⟩ n ⟨pool, [], amount, 0, 0, 0⟩ = some r := by
  obtain ⟨hw, hs, h0⟩ := start_side (byIn := byIn) (now := now) hr h
  have g1 := h0.agree.grid.min
  have g2 := h0.agree.grid.max
  have hlt : itersLeft ⟨key, xToY, byIn, limit, now⟩ (loopStart pool amount) <
      443638 + (if xToY = false ∧ byIn = false then 65535383934512647000000000000 else 0) := by
    simp only [MIN_TICK, MAX_TICK] at g1 g2
    unfold itersLeft
    simp only [MIN_TICK, MAX_TICK, MAX_SQRT_PRICE]
    cases xToY
    · cases byIn
      · simp only [Bool.false_eq_true, if_false, and_self, if_true]; omega
      · simp only [Bool.false_eq_true, if_false, Bool.true_eq_false, and_false, if_true]; omega
    · simp only [if_true, Bool.true_eq_false, false_and, if_false]; omega
  obtain ⟨r, hr⟩ := swapLoop_ends hw hs _ _ h0 (fun _ => hlt)
  refine ⟨r, fun n hn => swapLoop_mono _ n _ _ ?_ hr⟩
  omega

/-- C38, model: the step bound used in the model of `calculate_swap` is never exhausted. -/
theorem C38_fuel (hr : Reach s) (h : swapStart s key xToY amount limit = .ok pool) :
    swapLoop s ⟨key, xToY, byIn, limit, now⟩ swapFuel ⟨pool, [], amount, 0, 0, 0⟩ ≠ none := by
  obtain ⟨r, h1⟩ := C38_rounds (byIn := byIn) (now := now) hr h
  rw [h1 swapFuel ?_]
  · exact Option.some_ne_none r
  · unfold swapFuel
    split <;> norm_num

/-- a swap through two ticks of the demo pool takes three rounds: after two there is no result yet -/
example : (Demo.start.pools.get Demo.key).map (fun p => [1, 2, 3, 4].map (fun n =>
      (swapLoop Demo.start ⟨Demo.key, true, true, MIN_SQRT_PRICE, 100⟩ n
        ⟨p, [], 22 * 10 ^ 6, 0, 0, 0⟩).isSome)) = some [false, false, true, true] := by
  decide +kernel

end Verif
