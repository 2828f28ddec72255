import Verif.Spec.History
import Verif.Spec.FeeHistory

/-! # Specification: liquidity and token bookkeeping -/

namespace Verif.Spec
open Verif.Service

/-- the net liquidity change of a tick as a signed number -/
def netLiq (t : Tick) : Int := if t.sign then (t.liquidityChange : Int) else -(t.liquidityChange : Int)

/-- a pool of the state with its ticks -/
def world (s : Inv) (key : PoolKey) (pool : Pool) : FeeWorld := ⟨pool, fun i => s.ticks.get (key, i)⟩

/-- total liquidity of the positions of a pool whose range contains the tick `t` -/
def activeLiq (s : Inv) (key : PoolKey) (t : Int) : Nat :=
  s.positions.map.sum fun _ p =>
    if p.poolKey = key ∧ p.lowerTickIndex ≤ t ∧ t < p.upperTickIndex then p.liquidity else 0

/-- total liquidity of the positions of a pool having the tick `t` as a bound -/
def grossLiq (s : Inv) (key : PoolKey) (t : Int) : Nat :=
  s.positions.map.sum fun _ p =>
    if p.poolKey = key ∧ (p.lowerTickIndex = t ∨ p.upperTickIndex = t) then p.liquidity else 0

/-- total liquidity of the positions starting at the tick `t` minus that of those ending there -/
def netOfPositions (s : Inv) (key : PoolKey) (t : Int) : Int :=
  s.positions.map.sum fun _ p =>
    if p.poolKey = key then
      (if p.lowerTickIndex = t then (p.liquidity : Int) else 0) -
        (if p.upperTickIndex = t then (p.liquidity : Int) else 0)
    else 0

/-- The swap ends at the price `p` so that the counter of the liquidity may be wrong afterwards: a purchase of X that
stops at its limit exactly at an initialised tick, or a sale of an exact input of X that stops exactly at an initialised
tick other than by its limit, or, at a price of at most one, within 65536 units (6.6·10^-20) below one. -/
def Near (s : Inv) (key : PoolKey) (xToY byIn : Bool) (limit p : Nat) : Prop :=
  ∃ i t, s.ticks.get (key, i) = some t ∧
    if xToY then byIn = true ∧ (t.sqrtPrice = p ∧ limit < p ∨
      p < t.sqrtPrice ∧ t.sqrtPrice ≤ p + 65536 ∧ t.sqrtPrice ≤ 10 ^ 24)
    else t.sqrtPrice = p ∧ limit = p

/-- Histories in which no swap ends near an initialised tick (`Near`) and no account gets to 2^32 - 1 positions. The hops of a route count as separate swaps. -/
inductive Clear : Inv → Prop
  | init (admin : ActorId) (fee : Nat) : Clear (Inv.init admin fee)
  | call {s s' : Inv} {env : Env} {c : Call} : Clear s →
      ((∀ k d a b l, c ≠ .swap k d a b l) ∧ ∀ a e sl h, c ≠ .swapRoute a e sl h) →
      step env s c = .ok s' → FewPositions s' → Clear s'
  | transfers {s : Inv} {b : Balances} {aw : Map (MessageId × ActorId) AwaitingTransfer} :
      Clear s → (∀ k v, b.get k = some v → v ≠ 0 ∧ v < 2 ^ 256) →
      Clear { s with balances := b, awaiting := aw }
  | swap {s : Inv} {env : Env} {key : PoolKey} {xToY byIn : Bool} {amount limit : Nat}
      {r : Inv × CalculateSwapResult} : Clear s →
      Service.swap env s key xToY amount byIn limit = .ok r →
      ¬ Near s key xToY byIn limit r.2.targetSqrtPrice → Clear r.1

/-- total of the internal balances in a token -/
def totalBal (s : Inv) (t : ActorId) : Nat :=
  s.balances.sum fun k v => if k.2 = t then v else 0

/-- total of the uncollected protocol fees in a token -/
def totalProto (s : Inv) (t : ActorId) : Nat :=
  s.pools.sum fun k p =>
    (if k.tokenX = t then p.feeProtocolTokenX else 0) + (if k.tokenY = t then p.feeProtocolTokenY else 0)

/-- the call does not move the native coin -/
def NoVara (c : Call) : Prop := c ≠ .depositVara ∧ ∀ v, c ≠ .withdrawVara v

/-- Histories with the amount of every token the program holds: synchronous calls move no tokens,
a deposit brings `n` tokens and is credited, a withdrawal is debited and takes `n` tokens away (this
includes the native coin). -/
inductive Books : Inv → (ActorId → Nat) → Prop
  | init (admin : ActorId) (fee : Nat) : Books (Inv.init admin fee) (fun _ => 0)
  | call {s s' : Inv} {env : Env} {c : Call} {held : ActorId → Nat} : Books s held →
      NoVara c → step env s c = .ok s' → Books s' held
  | deposit {s : Inv} {held : ActorId → Nat} {t a : ActorId} {n : Nat} {b : Balances} : Books s held →
      increaseTokenBalance s.balances t a n = .ok b →
      Books { s with balances := b } (fun u => if u = t then held u + n else held u)
  | withdraw {s : Inv} {held : ActorId → Nat} {t a : ActorId} {n : Nat} {r : Balances × Nat} :
      Books s held → decreaseTokenBalance s.balances t a (some n) = .ok r →
      Books { s with balances := r.1 } (fun u => if u = t then held u - n else held u)

end Verif.Spec
