import Verif.Proofs.PriceLimit
import Verif.Props.More

/-!
# Property C86: the price limit only stops a swap

A swap that succeeded and ended before its price limit is the same with every limit further away: the same state, the
same amounts, the same price. In full this holds for an exact input in both directions and for an exact output of Y.
It is false for an exact output of X, where a limit further away can make the swap fail (`C86_negation`).
-/

namespace Verif
open Service Spec

variable {env : Env} {s s₁ : Inv} {key : PoolKey} {xToY byIn : Bool} {amount limit limit' : Nat}
  {r : CalculateSwapResult}

theorem calculateSwap_further {now : Nat} (hr : Reach s) (hm : byIn = true ∨ xToY = true)
    (h : calculateSwap s now key xToY amount byIn limit = .ok r)
    (hb : Before xToY r.targetSqrtPrice limit) (hf : Further xToY limit limit') :
    calculateSwap s now key xToY amount byIn limit' = .ok r := by
  obtain ⟨pool, st, hp, h0, l1, l2, hl, hout, rfl⟩ := calculateSwap_ok h
  have ht := ((reach_tiers hr).pools key (by rw [hp]; rfl)).1
  have hs : Spacing key.feeTier.tickSpacing := ⟨ht.1, ht.2.1⟩
  have side : SwapSide ⟨key, xToY, byIn, limit, now⟩ pool.sqrtPrice
      { pool := pool, ticks := [], remaining := amount, totalIn := 0, totalOut := 0, fee := 0 } := by
    refine ⟨reach_agree s hr key pool hp, ?_, ?_⟩
    · cases xToY <;> simp
    · cases hx : xToY
      · simpa using (l2 hx).1.le
      · simpa using .inl (l1 hx).1.le
  have hl' := loop_further (lb := limit') (reach_wf s hr) hs hm hf _ _ _ side (reach_liqLt s hr key pool hp)
    (Nat.le_refl 0) hb hl
  unfold Further at hf
  simp only [calculateSwap, bind_ok_iff, swapStart, failIf_ok_iff, poolsGet_ok, pure_ok_iff]
  refine ⟨pool, ⟨(), h0, pool, hp, (), ?_, (), ?_, rfl⟩, st, ?_, (), hout, rfl⟩
  · rintro ⟨hx, h⟩
    have := l1 hx
    rw [if_pos hx] at hf
    omega
  · rintro ⟨hx, h⟩
    have := l2 hx
    rw [if_neg (by simp [hx])] at hf
    omega
  · rw [hl']
    rfl

/-- C86 (full statement: without `hm`, that is also for an exact output of X; refuted by `C86_negation`). -/
theorem C86_partial (hr : Reach s) (hm : byIn = true ∨ xToY = true)
    (h : swap env s key xToY amount byIn limit = .ok (s₁, r))
    (hb : if xToY then limit < r.targetSqrtPrice else r.targetSqrtPrice < limit)
    (hf : if xToY then limit' ≤ limit else limit ≤ limit') :
    swap env s key xToY amount byIn limit' = .ok (s₁, r) := by
  have h' := h
  unfold swap at h ⊢
  rw [bind_ok_iff] at h
  obtain ⟨c, h1, h2⟩ := h
  obtain ⟨_, _, _, h3, _⟩ := swap_ok h'
  rw [h1] at h3
  cases h3
  rw [calculateSwap_further hr hm h1 hb hf, ok_bind]
  exact h2

/-- an exact input on the demo that ends before its limit, with that limit and with the last one -/
example :
    (swap (Demo.by_ 2) Demo.start Demo.key true (10 ^ 6) true 999000000000000000000000).toOption.map
      (fun x => (x.2.amountIn, x.2.amountOut, x.2.targetSqrtPrice)) =
      (swap (Demo.by_ 2) Demo.start Demo.key true (10 ^ 6) true MIN_SQRT_PRICE).toOption.map
        (fun x => (x.2.amountIn, x.2.amountOut, x.2.targetSqrtPrice)) ∧
    (swap (Demo.by_ 2) Demo.start Demo.key true (10 ^ 6) true 999000000000000000000000).toOption.map
      (fun x => decide (999000000000000000000000 < x.2.targetSqrtPrice)) = some true := by
  decide +kernel

namespace LimitDemo

/-- a purchase of exactly this much X, up to a price -/
def buy (limit : Nat) : M (Inv × CalculateSwapResult) :=
  swap (Demo.by_ 2) (MoreDemo.low (10 ^ 28)) Demo.key false 4284357447705700000000000 false limit

end LimitDemo

open LimitDemo

/-- C86 is false for an exact output of X: a purchase that ends 17 units before its limit is refused because of the
price limit if this limit is raised by 10 units. -/
theorem C86_negation : Reach (MoreDemo.low (10 ^ 28)) ∧
    (buy 15275026000000000000).toOption.map (fun x => (x.2.amountOut, x.2.targetSqrtPrice)) =
      some (4284357447705700000000000, 15275026000000000000 - 17) ∧
    (match buy (15275026000000000000 + 10) with | .error e => some e | .ok _ => none) =
      some (.inv .PriceLimitReached) :=
  ⟨MoreDemo.low_reach _, by decide +kernel⟩

end Verif
