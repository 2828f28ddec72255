import Verif.Proofs.Nearer
import Verif.Props.PriceLimit
import Verif.Props.SdkPrices
import Verif.Props.PriceTick

/-!
# Property C103: what was quoted can be had with the limit the SDK derives from the quote

A user asks for a quote, takes the price it ends at as the estimate and sends the swap with `swapWithSlippage`. While
the pool is as it was, an exact input has exactly the quoted outcome: for Y with every tolerance, for X with every
tolerance but none at all (`C103_negation`: the roundings can then bring the swap to its limit with a rest of the
input, and it is refused).
-/

namespace Verif
open Service Spec Sdk

section
variable {env : Env} {s s₁ : Inv} {key : PoolKey} {xToY : Bool} {amount limit limit' : Nat}
  {r : CalculateSwapResult}

theorem calculateSwap_nearer {now : Nat} (hr : Reach s)
    (h : calculateSwap s now key xToY amount true limit = .ok r)
    (hb : Leaves xToY r.targetSqrtPrice limit') (hf : Further xToY limit' limit) :
    calculateSwap s now key xToY amount true limit' = .ok r := by
  obtain ⟨pool, st, hp, h0, l1, l2, hl, hout, rfl⟩ := calculateSwap_ok h
  have ht := ((reach_tiers hr).pools key (by rw [hp]; rfl)).1
  have hs : Spacing key.feeTier.tickSpacing := ⟨ht.1, ht.2.1⟩
  have side : SwapSide ⟨key, xToY, true, limit, now⟩ pool.sqrtPrice
      { pool := pool, ticks := [], remaining := amount, totalIn := 0, totalOut := 0, fee := 0 } := by
    refine ⟨reach_agree s hr key pool hp, ?_, ?_⟩
    · cases xToY <;> simp
    · cases hx : xToY
      · simpa using (l2 hx).1.le
      · simpa using .inl (l1 hx).1.le
  have hl' := loop_nearer (la := limit') (reach_wf s hr) hs rfl hf _ _ _ side (reach_liqLt s hr key pool hp)
    (Nat.le_refl 0) hb hl
  have hon := (loop_onward (reach_wf s hr) hs side hl).price
  have hpp := (reach_agree s hr key pool hp).price
  have hbf := leaves_before hb
  unfold Before at hbf
  dsimp only at hbf hon
  simp only [calculateSwap, bind_ok_iff, swapStart, failIf_ok_iff, poolsGet_ok, pure_ok_iff]
  refine ⟨pool, ⟨(), h0, pool, hp, (), ?_, (), ?_, rfl⟩, st, ?_, (), hout, rfl⟩
  · rintro ⟨hx, h⟩
    have h2 := hpp.2
    rw [if_pos hx] at hbf hon
    omega
  · rintro ⟨hx, h⟩
    have h2 := hpp.1
    rw [if_neg (by simp [hx])] at hbf hon
    omega
  · rw [hl']
    rfl

/-- the same outcome of the quote, and of the swap with it -/
theorem swap_of_calculate {l l' : Nat} {byIn : Bool} {P : CalculateSwapResult → Prop}
    (h : ∀ r, calculateSwap s env.now key xToY amount byIn l = .ok r →
      P r → calculateSwap s env.now key xToY amount byIn l' = .ok r)
    (hs : swap env s key xToY amount byIn l = .ok (s₁, r)) (hP : P r) :
    swap env s key xToY amount byIn l' = .ok (s₁, r) := by
  have h' := hs
  unfold swap at hs ⊢
  rw [bind_ok_iff] at hs
  obtain ⟨c, h1, h2⟩ := hs
  obtain ⟨_, _, _, h3, _⟩ := swap_ok h'
  rw [h1] at h3
  cases h3
  rw [h _ h1 hP, ok_bind]
  exact h2

/-- C103, the contract: a swap of an exact input is the same with a nearer limit that it does not come to. For X the
limit must be 200001 units of 10^-24 away, because the roundings of the step can exceed one. (Full statement: whenever
the limit is strictly beyond the price the swap ends at; refuted by `C103_negation`.) -/
theorem C103_nearer_partial (hr : Reach s) (h : swap env s key xToY amount true limit = .ok (s₁, r))
    (hb : if xToY then limit' + 200001 ≤ r.targetSqrtPrice else r.targetSqrtPrice + 1 ≤ limit')
    (hf : if xToY then limit ≤ limit' else limit' ≤ limit) :
    swap env s key xToY amount true limit' = .ok (s₁, r) :=
  swap_of_calculate (P := fun r => Leaves xToY r.targetSqrtPrice limit')
    (fun _ h1 h2 => calculateSwap_nearer hr h1 h2 hf) h (by unfold Leaves room; simpa using hb)

/-- a price after slippage is clearly below the price -/
theorem slippage_room {p slippage lo : Nat} (h1 : 15258932000000000000 ≤ p) (hs0 : 0 < slippage)
    (hs : slippage ≤ 10 ^ 12) (h : lo * lo * 10 ^ 12 ≤ p * p * factor slippage false) : lo + 200000 ≤ p := by
  have hf : factor slippage false + slippage = 10 ^ 12 := by
    unfold factor; simp only [Bool.false_eq_true, if_false]; omega
  by_contra hc
  obtain ⟨k, rfl⟩ : ∃ k, p = k + 199999 := ⟨p - 199999, by omega⟩
  have h2 : k * k ≤ lo * lo := Nat.mul_le_mul (by omega) (by omega)
  have h3 : k * k * 10 ^ 12 ≤ (k + 199999) * (k + 199999) * (10 ^ 12 - 1) := by
    refine le_trans (Nat.mul_le_mul_right _ h2) (le_trans h (Nat.mul_le_mul_left _ ?_))
    omega
  have h4 : 15258931999999800001 ≤ k := by omega
  zify [show (1 : Nat) ≤ 10 ^ 12 by norm_num] at h3 h4
  nlinarith

theorem slippage_pos {p slippage lo : Nat} (h1 : 15258932000000000000 ≤ p) (hs : slippage < 10 ^ 12)
    (h : p * p * factor slippage false < (lo + 1) * (lo + 1) * 10 ^ 12 + 10 ^ 24 * factor slippage false) :
    1 ≤ lo := by
  have hf : 1 ≤ factor slippage false := by
    unfold factor; simp only [Bool.false_eq_true, if_false]; omega
  by_contra hc
  have : lo = 0 := by omega
  subst this
  generalize factor slippage false = f at *
  have h2 : 2 * 10 ^ 24 * f ≤ p * p * f :=
    Nat.mul_le_mul_right _ (le_trans (by norm_num) (Nat.mul_le_mul h1 h1))
  generalize p * p * f = z at *
  omega

theorem calculateSwap_price {now : Nat} {byIn : Bool} (hr : Reach s)
    (h : calculateSwap s now key xToY amount byIn limit = .ok r) :
    PriceOK r.targetSqrtPrice ∧ r.targetSqrtPrice = r.pool.sqrtPrice := by
  obtain ⟨pool, st, hp, _⟩ := calculateSwap_ok h
  have ht := ((reach_tiers hr).pools key (by rw [hp]; rfl)).1
  obtain ⟨h1, _, h2, _⟩ := calculateSwap_side (reach_wf s hr) ⟨ht.1, ht.2.1⟩ h hp (reach_agree s hr key pool hp)
  rw [h2]
  exact ⟨h1.price, rfl⟩

/-- the price limit enters the quote and the swap only through the computation -/
theorem same_outcome {l l' : Nat} {byIn : Bool}
    (h : calculateSwap s env.now key xToY amount byIn l' = calculateSwap s env.now key xToY amount byIn l) :
    quote s env.now key xToY amount byIn l' = quote s env.now key xToY amount byIn l ∧
    swap env s key xToY amount byIn l' = swap env s key xToY amount byIn l := by
  unfold quote swap
  rw [h]
  exact ⟨rfl, rfl⟩

/-- C103, Y for X with the SDK: with any tolerance up to 100% the limit can be sent, the quote with it is the same, and
the swap has the same outcome as with the limit of the quote. -/
theorem C103_buy {q : QuoteResult} (hr : Reach s) (h : quote s env.now key false amount true limit = .ok q)
    (hb : q.targetSqrtPrice < limit) {slippage : Nat} (hs : slippage ≤ 10 ^ 12) :
    ∃ l : Nat, swapLimit q.targetSqrtPrice slippage false = .ok l ∧ l < 2 ^ 128 ∧
      quote s env.now key false amount true l = .ok q ∧
      swap env s key false amount true l = swap env s key false amount true limit := by
  have hq := h
  unfold quote at h
  simp only [bind_ok_iff, pure_ok_iff] at h
  obtain ⟨r, h, rfl⟩ := h
  obtain ⟨hpr, e2⟩ := calculateSwap_price hr h
  dsimp only at hb ⊢
  rw [← e2] at hb hq ⊢
  obtain ⟨lo, hi, _, e1, _, hle, _, e3⟩ := C60_encloses hpr.1 hpr.2 hs
  obtain ⟨hi', e4, hb4, _⟩ := C60_bound (p := r.targetSqrtPrice) (slippage := slippage) (up := true)
    (lt_of_le_of_lt hpr.2 (by norm_num [MAX_SQRT_PRICE])) (by omega) (fun h => by cases h)
  rw [e1] at e4
  cases e4
  have main : calculateSwap s env.now key false amount true (hi + 1) = .ok r := by
    rcases Nat.le_total (hi + 1) limit with h1 | h1
    · refine calculateSwap_nearer hr h ?_ ?_
      · unfold Leaves room; simp only [Bool.false_eq_true, if_false]; omega
      · unfold Further; simpa using h1
    · refine calculateSwap_further hr (.inl rfl) h ?_ ?_
      · unfold Before; simpa using hb
      · unfold Further; simpa using h1
  obtain ⟨o1, o2⟩ := same_outcome (main.trans h.symm)
  refine ⟨hi + 1, by rw [e3]; push_cast; rfl, ?_, o1.trans hq, o2⟩
  by_contra hc
  have h1 : 2 ^ 128 - 1 ≤ hi := by omega
  have h2 : (2 ^ 128 - 1) * (2 ^ 128 - 1) ≤ hi * hi := Nat.mul_le_mul h1 h1
  have h3 : r.targetSqrtPrice * r.targetSqrtPrice ≤ MAX_SQRT_PRICE * MAX_SQRT_PRICE := Nat.mul_le_mul hpr.2 hpr.2
  have h4 : factor slippage true ≤ 2 * 10 ^ 12 := by unfold factor; simp only [if_true]; omega
  have h5 := Nat.mul_le_mul h3 h4
  have h6 := Nat.mul_le_mul_right (10 ^ 12) h2
  have h7 : (2 ^ 128 - 1) * (2 ^ 128 - 1) * 10 ^ 12 ≤ MAX_SQRT_PRICE * MAX_SQRT_PRICE * (2 * 10 ^ 12) :=
    h6.trans (hb4.trans h5)
  norm_num [MAX_SQRT_PRICE] at h7

/-- C103, X for Y with the SDK: with any tolerance above 0 and below 100% the limit can be sent, the quote with it is
the same, and the swap has the same outcome as with the limit of the quote. (Full statement: also with the tolerance 0;
refuted by `C103_negation`.) -/
theorem C103_sell_partial {q : QuoteResult} (hr : Reach s) (h : quote s env.now key true amount true limit = .ok q)
    (hb : limit < q.targetSqrtPrice) {slippage : Nat} (hs0 : 0 < slippage) (hs : slippage < 10 ^ 12) :
    ∃ l : Nat, swapLimit q.targetSqrtPrice slippage true = .ok l ∧ l < 2 ^ 128 ∧
      quote s env.now key true amount true l = .ok q ∧
      swap env s key true amount true l = swap env s key true amount true limit := by
  have hq := h
  unfold quote at h
  simp only [bind_ok_iff, pure_ok_iff] at h
  obtain ⟨r, h, rfl⟩ := h
  obtain ⟨hpr, e2⟩ := calculateSwap_price hr h
  dsimp only at hb ⊢
  rw [← e2] at hb hq ⊢
  have h128 := lt_of_le_of_lt hpr.2 (show MAX_SQRT_PRICE < 2 ^ 128 by norm_num [MAX_SQRT_PRICE])
  obtain ⟨lo, hi, e1, _, hle, _, e3, _⟩ := C60_encloses hpr.1 hpr.2 hs.le
  obtain ⟨lo', e4, hb4, hb5⟩ := C60_bound (p := r.targetSqrtPrice) (slippage := slippage) (up := false)
    h128 (by omega) (fun _ => hs.le)
  rw [e1] at e4
  cases e4
  have hroom := slippage_room hpr.1 hs0 hs.le hb4
  have hlo : 1 ≤ lo := slippage_pos hpr.1 hs hb5
  have main : calculateSwap s env.now key true amount true (lo - 1) = .ok r := by
    rcases Nat.le_total limit (lo - 1) with h1 | h1
    · refine calculateSwap_nearer hr h ?_ ?_
      · unfold Leaves room; simp only [if_true]; omega
      · unfold Further; simpa using h1
    · refine calculateSwap_further hr (.inl rfl) h ?_ ?_
      · unfold Before; simpa using hb
      · unfold Further; simpa using h1
  obtain ⟨o1, o2⟩ := same_outcome (main.trans h.symm)
  exact ⟨lo - 1, by rw [e3]; push_cast [hlo]; rfl, by omega, o1.trans hq, o2⟩

end

namespace NearDemo

/-- a fee of 1% -/
def tier : FeeTier := ⟨10 ^ 10, 10⟩
def key : PoolKey := ⟨5, 7, tier⟩

/-- a pool with little liquidity -/
def s0 : Inv := runAll MoreDemo.rich
  [(Demo.by_ 1, .addFeeTier tier), (Demo.by_ 2, .createPool 5 7 tier (10 ^ 24) 0),
   (Demo.by_ 3, .createPosition key (-1000) 1000 995766103 0 (10 ^ 30))]

theorem s0_reach : Reach s0 := ProviderDemo.reach_all _ _ MoreDemo.rich_reach

/-- a sale of 101 units of X -/
def sell (limit : Nat) : M (Inv × CalculateSwapResult) := swap (Demo.by_ 2) s0 key true 101 true limit

theorem sold : (sell MIN_SQRT_PRICE).toOption.map
    (fun x => (x.2.amountIn, x.2.amountOut, x.2.targetSqrtPrice)) = some (101, 98, 990155778373689502787190) := by
  decide +kernel

theorem quoted : (quote s0 (Demo.by_ 2).now key true 101 true MIN_SQRT_PRICE).toOption.map
    (fun q => q.targetSqrtPrice) = some 990155778373689502787190 := by
  decide +kernel

theorem refused : swapLimit 990155778373689502787190 0 true = .ok 990155778373689502787189 ∧
    (match sell 990155778373689502787189 with | .error e => some e | .ok _ => none) =
      some (.inv .PriceLimitReached) := by
  refine ⟨rfl, by decide +kernel⟩

end NearDemo

open NearDemo

/-- in the same pool with a tolerance of 0.1%: the quoted outcome -/
example : swapLimit 990155778373689502787190 (10 ^ 9) true = .ok 989660576653106920121265 ∧
    (sell 989660576653106920121265).toOption.map
      (fun x => (x.2.amountIn, x.2.amountOut, x.2.targetSqrtPrice)) = some (101, 98, 990155778373689502787190) := by
  refine ⟨by decide +kernel, by decide +kernel⟩

/-- a purchase there with the tolerance 0: the quoted outcome -/
example : swapLimit 1009942093801118273253774 0 false = .ok 1009942093801118273253775 ∧
    (swap (Demo.by_ 2) s0 NearDemo.key false 101 true 1009942093801118273253775).toOption.map
      (fun x => (x.2.amountIn, x.2.amountOut, x.2.targetSqrtPrice)) = some (101, 98, 1009942093801118273253774) := by
  refine ⟨by decide +kernel, by decide +kernel⟩

/-- C103 is false of a sale with the tolerance 0: the swap that was quoted is refused because of the price limit. -/
theorem C103_negation : ¬ ∀ (env : Env) (s : Inv) (key : PoolKey) (amount limit : Nat) (q : QuoteResult),
    Reach s → quote s env.now key true amount true limit = .ok q → limit < q.targetSqrtPrice →
    ∃ l : Nat, swapLimit q.targetSqrtPrice 0 true = .ok l ∧
      swap env s key true amount true l = swap env s key true amount true limit := by
  intro h
  have h1 := sold
  have hq := quoted
  cases hs : quote s0 (Demo.by_ 2).now key true 101 true MIN_SQRT_PRICE with
  | error e => rw [hs] at hq; cases hq
  | ok q =>
    rw [hs] at hq
    simp only [Except.toOption, Option.map_some, Option.some.injEq] at hq
    obtain ⟨l, hl, hw⟩ := h (Demo.by_ 2) _ _ _ _ q s0_reach hs (by rw [hq]; decide)
    rw [hq, refused.1] at hl
    have e : l = 990155778373689502787189 := by
      simp only [Except.ok.injEq] at hl
      omega
    have h3 := refused.2
    unfold sell at h1 h3
    rw [← e, hw] at h3
    cases h4 : swap (Demo.by_ 2) s0 key true 101 true MIN_SQRT_PRICE with
    | error e => rw [h4] at h1; cases h1
    | ok x => rw [h4] at h3; cases h3

end Verif
