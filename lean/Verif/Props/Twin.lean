import Verif.Proofs.TwinSwap
import Verif.Props.Cheaper

/-!
# C100: to ask for the proceeds of an exact input costs no more than the input

A trader who knows what an exact input pays can ask for just that as an exact output, in the same state and with the
same limit. For X against Y and a limit above the price one the cost is no more than the input plus eight units. The
full statement, without the eight units, without the condition on the limit and for both directions, is false
(`C100_unit_negation`, `C100_low_negation`, `C100_y_negation`). So is the way back: to put in what an exact output has
cost pays less than this output, as the two modes charge the fee on different amounts (`C100_back_negation`).
-/

namespace Verif
open Service Spec

namespace Twin

variable {s s₁ s₂ : Inv} {k : PoolKey} {env env' : Env} {amount limit : Nat} {r r' : CalculateSwapResult}

/-- C100 for X against Y, with a limit above the price one and up to eight units (full statement: without them;
refuted by `C100_low_negation` and `C100_unit_negation`): the exact output for the proceeds pays just these. -/
theorem C100_partial (hr : Reach s) (h1 : swap env s k true amount true limit = .ok (s₁, r))
    (h2 : swap env' s k true r.amountOut false limit = .ok (s₂, r')) (hlim : 10 ^ 24 < limit) :
    r'.amountOut = r.amountOut ∧ r'.amountIn ≤ r.amountIn + 8 := by
  obtain ⟨_, _, _, a1, _⟩ := swap_ok h1
  obtain ⟨_, _, _, b1, _⟩ := swap_ok h2
  exact calculate_twin hr hlim a1 b1

open MoreDemo Cheap

/-- a pool with the given fee and two adjacent positions with the same liquidity -/
def pools (fee price : Nat) (tick l m u : Int) (L : Nat) : Inv := runAll rich
  [(Demo.by_ 1, .addFeeTier (tier fee)), (Demo.by_ 2, .createPool 5 7 (tier fee) price tick),
   (Demo.by_ 3, .createPosition (pool fee) m u L 0 (10 ^ 30)),
   (Demo.by_ 3, .createPosition (pool fee) l m L 0 (10 ^ 30))]

theorem pools_reach {fee price : Nat} {tick l m u : Int} {L : Nat} : Reach (pools fee price tick l m u L) :=
  ProviderDemo.reach_all _ _ rich_reach

/-- what a swap of account 2 takes and gives, with a limit just above the price one -/
def high (s : Inv) (key : PoolKey) (amount : Nat) (byIn : Bool) : Option (Nat × Nat) :=
  (swap (Demo.by_ 2) s key true amount byIn (10 ^ 24 + 1)).toOption.map (fun x => (x.2.amountIn, x.2.amountOut))

/-- a pool above the price one with the fee of one percent -/
def dear : Inv := pools (10 ^ 10) 1005012269622000000000000 100 (-100) 50 150 (10 ^ 18)

/-- an exact input that crosses a tick, and the exact output for its proceeds -/
example : Reach dear ∧ high dear (pool (10 ^ 10)) (3 * 10 ^ 10) true = some (3 * 10 ^ 10, 29911699995) ∧
    high dear (pool (10 ^ 10)) 29911699995 false = some (29999515424, 29911699995) :=
  ⟨pools_reach, by decide +kernel⟩

/-- a pool above the price one with little liquidity -/
def scarce : Inv := pools 1000 1005012269622000000000000 100 (-50) 50 150 (10 ^ 12)

/-- C100 is false without the units: the exact output costs one unit more. The exact input ends shortly before a tick;
the exact output is taken to this tick, as no whole unit of Y is left on the way. -/
theorem C100_unit_negation : Reach scarce ∧
    high scarce (pool 1000) 24906 true = some (24906, 25092) ∧
    high scarce (pool 1000) 25092 false = some (24907, 25092) :=
  ⟨pools_reach, by decide +kernel⟩

/-- a pool at a low price -/
def cheapX : Inv := pools 1000 15503476000000000000 (-221500) (-221650) (-221550) (-221450) (123456789 * 10 ^ 9)

/-- C100 is false below the price one: the exact output costs 3714908916 units of X more, the price of the fraction of
a unit of Y that is left before the tick. -/
theorem C100_low_negation : Reach cheapX ∧
    trade cheapX (pool 1000) true 199317932144811 true = some (199317932144811, 47788) ∧
    trade cheapX (pool 1000) true 47788 false = some (199317932144811 + 3714908916, 47788) :=
  ⟨pools_reach, by decide +kernel⟩

/-- a pool at a high price -/
def dearX : Inv := pools 1000 64179975532865021000000000000 221400 221300 221400 221450 (10 ^ 20)

/-- C100 is false for Y against X: the exact output costs 1160642627 units of Y more. -/
theorem C100_y_negation : Reach dearX ∧
    trade dearX (pool 1000) false 160642625414950000 true = some (160642625414950000, 38902366) ∧
    trade dearX (pool 1000) false 38902366 false = some (160642625414950000 + 1160642627, 38902366) :=
  ⟨pools_reach, by decide +kernel⟩

/-- The way back is false: who puts in what the exact output has cost gets 99990 units less, about one ten-thousandth, with
the fee of one percent. The exact output pays the fee on the net input, the exact input pays it on the whole amount. -/
theorem C100_back_negation : Reach dear ∧
    high dear (pool (10 ^ 10)) (10 ^ 9) false = some (1000050339, 10 ^ 9) ∧
    high dear (pool (10 ^ 10)) 1000050339 true = some (1000050339, 10 ^ 9 - 99990) :=
  ⟨pools_reach, by decide +kernel⟩

end Twin
end Verif
