import Verif.Proofs.MoreSwap
import Verif.Props.Provider

/-!
# Property C85: who puts in more gets no less, who asks for more pays no less

Two requests to the same state, with the same limit, one for a larger amount. In full this holds for an exact output
of Y. It is false for an exact input of Y at low prices, where one unit more can yield less X
(`C85_input_y_negation`), for an exact input of X below the price one (`C85_input_x_negation`) and for an exact output
of X (`C85_output_x_negation`).
-/

namespace Verif
open Service Spec

variable {env env' : Env} {s s₁ s₂ : Inv} {key : PoolKey} {limit amount amount' : Nat} {r r' : CalculateSwapResult}

theorem calculateSwap_more {now : Nat} {xToY byIn : Bool} (hr : Reach s) (hm : MoreMode ⟨key, xToY, byIn, limit, now⟩)
    (h : calculateSwap s now key xToY amount byIn limit = .ok r)
    (h' : calculateSwap s now key xToY amount' byIn limit = .ok r') (hle : amount ≤ amount') :
    (if xToY then r'.targetSqrtPrice ≤ r.targetSqrtPrice else r.targetSqrtPrice ≤ r'.targetSqrtPrice) ∧
    (byIn = true → xToY = true → r.amountOut ≤ r'.amountOut) ∧
    (byIn = true → xToY = false → (r.amountOut : ℚ) ≤ (1 + relX) * (r'.amountOut + 1)) ∧
    (byIn = false → r.amountIn ≤ r'.amountIn) := by
  obtain ⟨pool, st, hp, _, l1, l2, hl, _, rfl⟩ := calculateSwap_ok h
  obtain ⟨pool', st', hp', _, _, _, hl', _, rfl⟩ := calculateSwap_ok h'
  rw [hp] at hp'
  cases hp'
  have ht := ((reach_tiers hr).pools key (by rw [hp]; rfl)).1
  have hs : Spacing key.feeTier.tickSpacing := ⟨ht.1, ht.2.1⟩
  have ha := reach_agree s hr key pool hp
  have side : ∀ x, SwapSide ⟨key, xToY, byIn, limit, now⟩ pool.sqrtPrice
      { pool := pool, ticks := [], remaining := x, totalIn := 0, totalOut := 0, fee := 0 } := by
    intro x
    refine ⟨ha, ?_, ?_⟩
    · cases xToY <;> simp
    · cases hx : xToY
      · simpa using (l2 hx).1.le
      · simpa using .inl (l1 hx).1.le
  have := loop_more (reach_wf s hr) hs hm _ _ _ _ _ _ (side amount) (side amount') (.inl ⟨rfl, rfl, rfl, hle⟩) hl hl'
  exact ⟨this.price, this.out, this.outX, this.inp⟩

/-- C85 for an exact output of Y: who asks for more pays no less, and leaves the price no higher. -/
theorem C85_output_y (hr : Reach s) (h : swap env s key true amount false limit = .ok (s₁, r))
    (h' : swap env' s key true amount' false limit = .ok (s₂, r')) (hnow : env'.now = env.now)
    (hle : amount ≤ amount') : r.amountIn ≤ r'.amountIn ∧ r'.targetSqrtPrice ≤ r.targetSqrtPrice := by
  obtain ⟨_, _, _, h1, _⟩ := swap_ok h
  obtain ⟨_, _, _, h2, _⟩ := swap_ok h'
  rw [hnow] at h2
  obtain ⟨k1, -, -, k4⟩ := calculateSwap_more hr (.inr (.inr ⟨rfl, rfl⟩)) h1 h2 hle
  exact ⟨k4 rfl, k1⟩

/-- C85 for an exact input of X, with a limit above the price one (full statement: without this condition; refuted by
`C85_input_x_negation`). -/
theorem C85_input_x_partial (hr : Reach s) (h : swap env s key true amount true limit = .ok (s₁, r))
    (h' : swap env' s key true amount' true limit = .ok (s₂, r')) (hnow : env'.now = env.now)
    (hle : amount ≤ amount') (hlim : 10 ^ 24 < limit) :
    r.amountOut ≤ r'.amountOut ∧ r'.targetSqrtPrice ≤ r.targetSqrtPrice := by
  obtain ⟨_, _, _, h1, _⟩ := swap_ok h
  obtain ⟨_, _, _, h2, _⟩ := swap_ok h'
  rw [hnow] at h2
  obtain ⟨k1, k2, -⟩ := calculateSwap_more hr (.inl ⟨rfl, rfl, hlim⟩) h1 h2 hle
  exact ⟨k2 rfl rfl, k1⟩

/-- C85 for an exact input of Y, up to one unit and a relative error of 5·10^-15 (full statement: without them;
refuted by `C85_input_y_negation`). The price is no lower in any case. -/
theorem C85_input_y_partial (hr : Reach s) (h : swap env s key false amount true limit = .ok (s₁, r))
    (h' : swap env' s key false amount' true limit = .ok (s₂, r')) (hnow : env'.now = env.now)
    (hle : amount ≤ amount') :
    (r.amountOut : ℚ) ≤ (1 + 5 / 10 ^ 15) * (r'.amountOut + 1) ∧ r.targetSqrtPrice ≤ r'.targetSqrtPrice := by
  obtain ⟨_, _, _, h1, _⟩ := swap_ok h
  obtain ⟨_, _, _, h2, _⟩ := swap_ok h'
  rw [hnow] at h2
  obtain ⟨k1, -, k3, -⟩ := calculateSwap_more hr (.inr (.inl ⟨rfl, rfl⟩)) h1 h2 hle
  have k := k3 rfl rfl
  have e : (1 + relX : ℚ) = 1 + 5 / 10 ^ 15 := by norm_num [relX]
  rw [e] at k
  exact ⟨k, by simpa using k1⟩

/-- the three modes on the demo -/
example :
    ((swap (Demo.by_ 2) Demo.start Demo.key true (10 ^ 6) false MIN_SQRT_PRICE).toOption.map (·.2.amountIn),
      (swap (Demo.by_ 2) Demo.start Demo.key true (2 * 10 ^ 7) false MIN_SQRT_PRICE).toOption.map (·.2.amountIn)) =
      (some 1001027, some 20030019) ∧
    ((swap (Demo.by_ 2) Demo.start Demo.key false (10 ^ 6) true MAX_SQRT_PRICE).toOption.map (·.2.amountOut),
      (swap (Demo.by_ 2) Demo.start Demo.key false (2 * 10 ^ 7) true MAX_SQRT_PRICE).toOption.map (·.2.amountOut)) =
      (some 998975, some 19970024) ∧
    (let up := runAll Demo.start [(Demo.by_ 2, .swap Demo.key false (2 * 10 ^ 7) true MAX_SQRT_PRICE)];
      ((swap (Demo.by_ 2) up Demo.key true (10 ^ 6) true (10 ^ 24 + 1)).toOption.map (·.2.amountOut),
        (swap (Demo.by_ 2) up Demo.key true (10 ^ 7) true (10 ^ 24 + 1)).toOption.map (·.2.amountOut)) =
      (some 999973, some 9997484)) := by
  decide +kernel

namespace MoreDemo

/-- two accounts with many coins of both tokens -/
def rich : Inv :=
  { Inv.init 1 (10 ^ 11) with
    balances := ((((∅ : Balances).insert (2, 5) (10 ^ 40)).insert (2, 7) (10 ^ 40)).insert
      (3, 5) (10 ^ 40)).insert (3, 7) (10 ^ 40) }

theorem rich_reach : Reach rich := by
  refine .transfers (.init 1 (10 ^ 11)) ?_
  intro k v h
  have key : v = 10 ^ 40 := by
    simp only [Map.get_insert] at h
    split_ifs at h <;> first | (cases h; rfl) | simp at h
  rw [key]
  norm_num

/-- a pool at the tick -221810 with one position of the liquidity `L` -/
def low (L : Nat) : Inv := runAll rich
  [(Demo.by_ 1, .addFeeTier Demo.tier), (Demo.by_ 2, .createPool 5 7 Demo.tier 15265036000000000000 (-221810)),
   (Demo.by_ 3, .createPosition Demo.key (-221810) (-221700) L 0 (10 ^ 30))]

theorem low_reach (L : Nat) : Reach (low L) := ProviderDemo.reach_all _ _ rich_reach

/-- a tier with a fee of 10^-9 -/
def small : FeeTier := ⟨1000, 10⟩
def smallKey : PoolKey := ⟨5, 7, small⟩

/-- a pool with this fee, at a price between two ticks -/
def between : Inv := runAll rich
  [(Demo.by_ 1, .addFeeTier small), (Demo.by_ 2, .createPool 5 7 small 15503476000000000000 (-221500)),
   (Demo.by_ 3, .createPosition smallKey (-221600) (-221400) (10 ^ 30) 0 (10 ^ 30)),
   (Demo.by_ 3, .swap smallKey false 888559899414110 true MAX_SQRT_PRICE)]

theorem between_reach : Reach between := ProviderDemo.reach_all _ _ rich_reach

/-- what a swap of account 2 takes and gives -/
def trade (s : Inv) (key : PoolKey) (xToY : Bool) (amount : Nat) (byIn : Bool) : Option (Nat × Nat) :=
  (swap (Demo.by_ 2) s key xToY amount byIn (if xToY then MIN_SQRT_PRICE else MAX_SQRT_PRICE)).toOption.map
    (fun x => (x.2.amountIn, x.2.amountOut))

end MoreDemo

open MoreDemo

/-- C85 is false for an exact input of Y: with one unit more, the trader gets 14085446739 units of X less. -/
theorem C85_input_y_negation : Reach (low (10 ^ 28)) ∧
    trade (low (10 ^ 28)) Demo.key false 1000000000000001 true = some (1000000000000001, 4284357447705707313264119) ∧
    trade (low (10 ^ 28)) Demo.key false 1000000000000002 true =
      some (1000000000000002, 4284357447705707313264119 - 14085446739) :=
  ⟨low_reach _, by decide +kernel⟩

/-- C85 is false for an exact output of X: for one unit less, the trader pays two units of Y more. -/
theorem C85_output_x_negation : Reach (low (10 ^ 22)) ∧
    trade (low (10 ^ 22)) Demo.key false 7834697621836355644 false = some (1829665492, 7834697621836355644) ∧
    trade (low (10 ^ 22)) Demo.key false 7834697621836355645 false = some (1829665490, 7834697621836355645) :=
  ⟨low_reach _, by decide +kernel⟩

/-- C85 is false for an exact input of X below the price one: with one unit more, the trader gets 3220 units of Y
less. -/
theorem C85_input_x_negation : Reach between ∧
    trade between smallKey true 3236691894753566039593929150 true =
      some (3236691894753566039593929150, 774088559898525550 + 3220) ∧
    trade between smallKey true 3236691894753566039593929151 true =
      some (3236691894753566039593929151, 774088559898525550) :=
  ⟨between_reach, by decide +kernel⟩

end Verif
