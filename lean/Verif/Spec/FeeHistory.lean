import Verif.Model.Storage

/-!
# Specification of fee histories

A world is a pool together with its stored ticks. `FeeHist lo hi w w' gx gy` says that `w'` arises from
`w` by a finite sequence of

* fee additions (`Pool.addFee`),
* crossings of a stored tick `k` (`Tick.cross`), after which the current tick index is on the other
  side of `k` and on the same side of every other stored tick,
* moves of the current tick index (and of price and liquidity) that pass no stored tick,
* creations of ticks, removals of ticks other than `lo` and `hi`, and position changes
  (`Position.modify`) on stored ticks,

in any order, and that `gx`, `gy` are the growths added while `lo ≤ current tick < hi`.
-/

namespace Verif

/-- growth per unit of liquidity of a fee `amount`, after the protocol's share `pf` (a percentage in
units of 10^-12, rounded up), over liquidity `L` (in units of 10^-5), in units of 10^-28 -/
def Spec.growth (amount pf L : Nat) : Nat :=
  (amount - (amount * pf + (10 ^ 12 - 1)) / 10 ^ 12) * 10 ^ 33 / L

structure FeeWorld where
  pool : Pool
  ticks : Int → Option Tick

/-- stored ticks carry their key as index; accumulators are 128-bit values -/
def FeeWorld.WF (w : FeeWorld) : Prop :=
  w.pool.feeGrowthGlobalX < 2 ^ 128 ∧ w.pool.feeGrowthGlobalY < 2 ^ 128 ∧
  ∀ k t, w.ticks k = some t →
    t.index = k ∧ t.feeGrowthOutsideX < 2 ^ 128 ∧ t.feeGrowthOutsideY < 2 ^ 128

def FeeWorld.setTick (w : FeeWorld) (k : Int) (t : Option Tick) : FeeWorld :=
  { w with ticks := fun j => if j = k then t else w.ticks j }

def FeeWorld.inRange (w : FeeWorld) (lo hi : Int) : Prop :=
  lo ≤ w.pool.currentTickIndex ∧ w.pool.currentTickIndex < hi

instance (w : FeeWorld) (lo hi : Int) : Decidable (w.inRange lo hi) := by
  unfold FeeWorld.inRange; infer_instance

inductive FeeHist (lo hi : Int) (w : FeeWorld) : FeeWorld → Nat → Nat → Prop
  | refl : FeeHist lo hi w w 0 0
  | fee {w1 gx gy amount inX pf p} : FeeHist lo hi w w1 gx gy →
      w1.pool.addFee amount inX pf = .ok p →
      FeeHist lo hi w { w1 with pool := p }
        (gx + if inX = true ∧ w1.inRange lo hi then Spec.growth amount pf w1.pool.liquidity else 0)
        (gy + if inX = false ∧ w1.inRange lo hi then Spec.growth amount pf w1.pool.liquidity else 0)
  | cross {w1 gx gy k t now t' p cur'} : FeeHist lo hi w w1 gx gy →
      w1.ticks k = some t → t.cross w1.pool now = .ok (t', p) →
      (k ≤ cur' ↔ ¬ k ≤ w1.pool.currentTickIndex) →
      (∀ j, j ≠ k → (w1.ticks j).isSome → (j ≤ cur' ↔ j ≤ w1.pool.currentTickIndex)) →
      FeeHist lo hi w
        ({ w1 with pool := { p with currentTickIndex := cur' } }.setTick k (some t')) gx gy
  | move {w1 gx gy cur' price' liq' time' px' py'} : FeeHist lo hi w w1 gx gy →
      (∀ j, (w1.ticks j).isSome → (j ≤ cur' ↔ j ≤ w1.pool.currentTickIndex)) →
      FeeHist lo hi w
        { w1 with pool := { w1.pool with
            currentTickIndex := cur', sqrtPrice := price', liquidity := liq',
            lastTimestamp := time', feeProtocolTokenX := px', feeProtocolTokenY := py' } } gx gy
  | create {w1 gx gy k now t} : FeeHist lo hi w w1 gx gy →
      w1.ticks k = none → Tick.create k w1.pool now = .ok t →
      FeeHist lo hi w (w1.setTick k (some t)) gx gy
  | drop {w1 gx gy k} : FeeHist lo hi w w1 gx gy → k ≠ lo → k ≠ hi →
      FeeHist lo hi w (w1.setTick k none) gx gy
  | modify {w1 gx gy a b ta tb pos delta add now spacing r} : FeeHist lo hi w w1 gx gy →
      w1.ticks a = some ta → w1.ticks b = some tb → a ≠ b →
      Position.modify pos w1.pool tb ta delta add now spacing = .ok r →
      FeeHist lo hi w
        (({ w1 with pool := r.pool }.setTick a (some r.lower)).setTick b (some r.upper)) gx gy

/-- the fee growth inside `lo`, `hi` as the code reads it (`calculate_fee_growth_inside`) -/
def FeeWorld.insideX (w : FeeWorld) (lo hi : Int) : Option Nat := do
  let l ← w.ticks lo
  let u ← w.ticks hi
  pure (feeGrowthInside1 l.index l.feeGrowthOutsideX u.index u.feeGrowthOutsideX
    w.pool.currentTickIndex w.pool.feeGrowthGlobalX)

/-- the same for token y -/
def FeeWorld.insideY (w : FeeWorld) (lo hi : Int) : Option Nat := do
  let l ← w.ticks lo
  let u ← w.ticks hi
  pure (feeGrowthInside1 l.index l.feeGrowthOutsideY u.index u.feeGrowthOutsideY
    w.pool.currentTickIndex w.pool.feeGrowthGlobalY)

end Verif
