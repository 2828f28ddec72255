import Verif.Proofs.CheapSwap
import Verif.Props.More
import Verif.Props.Active

/-!
# C99: a lower fee is never worse for the trader

Two pools with the same market, one with a lower fee. For an exact output, in both directions, this holds in full: the
same coins for no more, and the market stays the same. For an exact input it is false: the cheaper pool can pay less,
for an input of Y (`C99_input_y_negation`) and for an input of X below the price one (`C99_input_x_negation`).
-/

namespace Verif
open Service Spec

namespace Cheap

variable {s s' s₁ s₂ : Inv} {k k' : PoolKey} {env env' : Env} {xToY : Bool} {amount amount' limit : Nat}
  {r r' : CalculateSwapResult}

/-- C99 for an exact output: with the lower fee the trader gets the same, pays no more, moves the price to the same
place, and the two markets stay the same. -/
theorem C99_output (hr : Reach s) (hr' : Reach s') (h : LowerFee s k s' k')
    (h1 : swap env s k xToY amount false limit = .ok (s₁, r))
    (h2 : swap env' s' k' xToY amount false limit = .ok (s₂, r')) :
    r'.amountOut = r.amountOut ∧ r'.amountIn ≤ r.amountIn ∧ r'.fee ≤ r.fee ∧
    r'.targetSqrtPrice = r.targetSqrtPrice ∧ LowerFee s₁ k s₂ k' := by
  obtain ⟨_, _, _, a1, _, _, _, a3⟩ := swap_ok h1
  obtain ⟨_, _, _, b1, _, _, _, b3⟩ := swap_ok h2
  obtain ⟨e1, e2, e3, e4, e5⟩ := calculate_out hr hr' h a1 b1
  refine ⟨e2, e1, e3, e4, h.fee, h.spacing, ?_, fun i => ?_⟩
  · dsimp only at a3 b3
    rw [a3, b3]
    dsimp only
    rw [Map.get_insert_self, Map.get_insert_self]
    exact .some e5
  · have g1 := swap_net (reach_wf s hr) h1 i
    have g2 := swap_net (reach_wf s' hr') h2 i
    have g3 := h.ticks i
    dsimp only at g1 g2
    revert g1 g2 g3
    generalize s.ticks.get (k, i) = w
    generalize s₁.ticks.get (k, i) = x
    generalize s'.ticks.get (k', i) = y
    generalize s₂.ticks.get (k', i) = z
    intro g1 g2 g3
    cases g1 with
    | none => cases g3 with | none => cases g2 with | none => exact .none
    | some g1 => cases g3 with | some g3 => cases g2 with | some g2 => exact .some (by rw [g1, g2, g3])

/-- C99 for an exact input of X, with a limit above the price one (full statement: without this condition; refuted by
`C99_input_x_negation`): who puts in no less into the pool with the lower fee gets no less. -/
theorem C99_input_x_partial (hr : Reach s) (hr' : Reach s') (h : LowerFee s k s' k')
    (h1 : swap env s k true amount true limit = .ok (s₁, r))
    (h2 : swap env' s' k' true amount' true limit = .ok (s₂, r')) (hle : amount ≤ amount') (hlim : 10 ^ 24 < limit) :
    r.amountOut ≤ r'.amountOut ∧ r'.targetSqrtPrice ≤ r.targetSqrtPrice := by
  obtain ⟨_, _, _, a1, _⟩ := swap_ok h1
  obtain ⟨_, _, _, b1, _⟩ := swap_ok h2
  obtain ⟨e1, e2, -⟩ := calculate_in hr hr' h (.inl ⟨rfl, hlim⟩) hle a1 b1
  exact ⟨e2 rfl, e1⟩

/-- C99 for an exact input of Y, up to one unit and a relative error of 5·10^-15 (full statement: without them;
refuted by `C99_input_y_negation`). The price is no lower in any case. -/
theorem C99_input_y_partial (hr : Reach s) (hr' : Reach s') (h : LowerFee s k s' k')
    (h1 : swap env s k false amount true limit = .ok (s₁, r))
    (h2 : swap env' s' k' false amount' true limit = .ok (s₂, r')) (hle : amount ≤ amount') :
    (r.amountOut : ℚ) ≤ (1 + 5 / 10 ^ 15) * (r'.amountOut + 1) ∧ r.targetSqrtPrice ≤ r'.targetSqrtPrice := by
  obtain ⟨_, _, _, a1, _⟩ := swap_ok h1
  obtain ⟨_, _, _, b1, _⟩ := swap_ok h2
  obtain ⟨e1, -, e3⟩ := calculate_in hr hr' h (.inr rfl) hle a1 b1
  have e : (1 + relX : ℚ) = 1 + 5 / 10 ^ 15 := by norm_num [relX]
  have e4 := e3 rfl
  rw [e] at e4
  exact ⟨e4, by simpa using e1⟩

/-! ### pools to compare -/

private theorem lower_of_all (hf : k'.feeTier.fee ≤ k.feeTier.fee)
    (ht : k'.feeTier.tickSpacing = k.feeTier.tickSpacing)
    (hp : (s.pools.get k).map (fun p => (p.sqrtPrice, p.currentTickIndex, p.liquidity)) =
      (s'.pools.get k').map (fun p => (p.sqrtPrice, p.currentTickIndex, p.liquidity)))
    (h1 : s.ticks.entries.all (fun e => decide (e.1.1 = k →
      (s'.ticks.get (k', e.1.2)).map netLiq = some (netLiq e.2))) = true)
    (h2 : s'.ticks.entries.all (fun e => decide (e.1.1 = k' → (s.ticks.get (k, e.1.2)).isSome)) = true) :
    LowerFee s k s' k' := by
  refine ⟨hf, ht, ?_, fun i => ?_⟩
  · revert hp
    generalize s.pools.get k = x
    generalize s'.pools.get k' = y
    intro hp
    cases x with
    | none =>
      cases y with
      | none => exact .none
      | some q => cases hp
    | some p =>
      cases y with
      | none => cases hp
      | some q =>
        simp only [Option.map_some, Option.some.injEq, Prod.mk.injEq] at hp
        exact .some ⟨hp.1.symm, hp.2.1.symm, hp.2.2.symm⟩
  cases ha : s.ticks.get (k, i) with
  | some t =>
    have := of_decide_eq_true (List.all_eq_true.1 h1 _ ((Map.get_mem _ _ _).1 ha)) rfl
    dsimp only at this
    cases hb : s'.ticks.get (k', i) with
    | none => rw [hb] at this; cases this
    | some u =>
      rw [hb] at this
      injection this with this
      exact .some this
  | none =>
    cases hb : s'.ticks.get (k', i) with
    | none => exact .none
    | some u =>
      have := of_decide_eq_true (List.all_eq_true.1 h2 _ ((Map.get_mem _ _ _).1 hb)) rfl
      dsimp only at this
      rw [ha] at this
      cases this

open MoreDemo

/-- a tier of the spacing of the demo, and the pool of its tokens in this tier -/
def tier (fee : Nat) : FeeTier := ⟨fee, 10⟩
def pool (fee : Nat) : PoolKey := ⟨5, 7, tier fee⟩

/-- one pool in each of the two tiers, at the same price, with the same positions, after the same swap -/
def pair (fee fee' price : Nat) (tick : Int) (l1 u1 : Int) (L1 : Nat) (l2 u2 : Int) (L2 before : Nat) : Inv :=
  runAll rich
    [(Demo.by_ 1, .addFeeTier (tier fee)), (Demo.by_ 1, .addFeeTier (tier fee')),
     (Demo.by_ 2, .createPool 5 7 (tier fee) price tick), (Demo.by_ 2, .createPool 5 7 (tier fee') price tick),
     (Demo.by_ 3, .createPosition (pool fee) l1 u1 L1 0 (10 ^ 30)),
     (Demo.by_ 3, .createPosition (pool fee') l1 u1 L1 0 (10 ^ 30)),
     (Demo.by_ 3, .createPosition (pool fee) l2 u2 L2 0 (10 ^ 30)),
     (Demo.by_ 3, .createPosition (pool fee') l2 u2 L2 0 (10 ^ 30)),
     (Demo.by_ 3, .swap (pool fee) false before true MAX_SQRT_PRICE),
     (Demo.by_ 3, .swap (pool fee') false before true MAX_SQRT_PRICE)]

theorem pair_reach {fee fee' price : Nat} {tick l1 u1 l2 u2 : Int} {L1 L2 before : Nat} :
    Reach (pair fee fee' price tick l1 u1 L1 l2 u2 L2 before) := ProviderDemo.reach_all _ _ rich_reach

/-- two pools at the price one with the fees of one tenth and of one hundredth of a percent -/
def usual : Inv := pair (10 ^ 9) (10 ^ 8) (10 ^ 24) 0 (-20) 20 (10 ^ 16) (-40) (-20) (10 ^ 16) 1

/-- these pools have the same market -/
example : LowerFee usual (pool (10 ^ 9)) usual (pool (10 ^ 8)) :=
  lower_of_all (by decide) rfl (by decide +kernel) (by decide +kernel) (by decide +kernel)

/-- an exact output of Y that crosses a tick, an exact input of Y and one of X -/
example : (trade usual (pool (10 ^ 9)) true (12 * 10 ^ 7) false, trade usual (pool (10 ^ 8)) true (12 * 10 ^ 7) false) =
      (some (120264320, 120000000), some (120156189, 120000000)) ∧
    (trade usual (pool (10 ^ 9)) false (10 ^ 7) true, trade usual (pool (10 ^ 8)) false (10 ^ 7) true) =
      (some (10000000, 9989002), some (10000000, 9998000)) ∧
    (let up := runAll usual [(Demo.by_ 2, .swap (pool (10 ^ 9)) false (10 ^ 7) false MAX_SQRT_PRICE),
       (Demo.by_ 2, .swap (pool (10 ^ 8)) false (10 ^ 7) false MAX_SQRT_PRICE)];
      ((swap (Demo.by_ 2) up (pool (10 ^ 9)) true (10 ^ 6) true (10 ^ 24 + 1)).toOption.map (·.2.amountOut),
        (swap (Demo.by_ 2) up (pool (10 ^ 8)) true (10 ^ 6) true (10 ^ 24 + 1)).toOption.map (·.2.amountOut)) =
      (some 999189, some 1000090)) := by
  decide +kernel

/-- a thick range, then a thin one -/
def thin : Inv := pair 1000 999 15265036000000000000 (-221810) (-221810) (-221800) (10 ^ 29) (-221800) (-50000)
  (10 ^ 11) 65478

/-- C99 is false for an exact input of Y: for the same coins the trader gets 70836199850 units of X less from the pool
with the lower fee. With the higher fee the trade ends one unit of price before the tick, and rounds in the trader's
favour; with the lower fee it goes on into a thin range. -/
theorem C99_input_y_negation : Reach thin ∧ LowerFee thin (pool 1000) thin (pool 999) ∧
    trade thin (pool 1000) false 7635000007569523 true = some (7635000007569523, 32748861923492415487751803) ∧
    trade thin (pool 999) false 7635000007569523 true =
      some (7635000007569523, 32748861923492415487751803 - 70836199850) :=
  ⟨pair_reach, lower_of_all (by decide) rfl (by decide +kernel) (by decide +kernel) (by decide +kernel),
    by decide +kernel⟩

/-- two ranges at a low price -/
def deep : Inv := pair 1000 999 15356897000000000000 (-221690) (-221700) (-221680) (10 ^ 24 + 1) (-221710) (-221700)
  (10 ^ 24) 2

/-- C99 is false for an exact input of X below the price one: the trader gets one unit of Y less from the pool with the
lower fee. With the higher fee the price falls past the tick, as the tick is not reached by the amount that would have
to be paid for it. -/
theorem C99_input_x_negation : Reach deep ∧ LowerFee deep (pool 1000) deep (pool 999) ∧
    trade deep (pool 1000) true 325645556047781468494 true = some (325645556047781468494, 76760000001) ∧
    trade deep (pool 999) true 325645556047781468494 true = some (325645556047781468494, 76760000000) :=
  ⟨pair_reach, lower_of_all (by decide) rfl (by decide +kernel) (by decide +kernel) (by decide +kernel),
    by decide +kernel⟩

end Cheap
end Verif
