import Verif.Model.Events
import Verif.Spec.Book

/-!
# Specification: what an indexer reads from the events

The indexer sees the events in the order in which they were sent, and nothing else.
-/

namespace Verif.Spec

/-- histories with the events sent so far; failed calls send none -/
inductive Logged : Inv → List Event → Prop
  | init (admin : ActorId) (fee : Nat) : Logged (Inv.init admin fee) []
  | call {s s' : Inv} {env : Env} {c : Call} {log evs : List Event} : Logged s log →
      stepLog env s c = .ok (s', evs) → Logged s' (log ++ evs)
  | transfers {s : Inv} {b : Balances} {aw : Map (MessageId × ActorId) AwaitingTransfer} {log : List Event} :
      Logged s log → (∀ k v, b.get k = some v → v ≠ 0 ∧ v < 2 ^ 256) →
      Logged { s with balances := b, awaiting := aw } log

/-- the same for histories in which no account ever has 2^32 - 1 positions -/
inductive Logged32 : Inv → List Event → Prop
  | init (admin : ActorId) (fee : Nat) : Logged32 (Inv.init admin fee) []
  | call {s s' : Inv} {env : Env} {c : Call} {log evs : List Event} : Logged32 s log →
      stepLog env s c = .ok (s', evs) → FewPositions s' → Logged32 s' (log ++ evs)
  | transfers {s : Inv} {b : Balances} {aw : Map (MessageId × ActorId) AwaitingTransfer} {log : List Event} :
      Logged32 s log → (∀ k v, b.get k = some v → v ≠ 0 ∧ v < 2 ^ 256) →
      Logged32 { s with balances := b, awaiting := aw } log

/-- what an event adds to a weighted total of liquidity: the weight depends on the pool and the range -/
def eventWeight (w : PoolKey → Int → Int → Int) : Event → Int
  | .positionCreated _ _ k d l u _ => w k l u * d
  | .positionRemoved _ _ k d l u _ => -(w k l u * d)
  | _ => 0

/-- liquidity created minus liquidity removed, weighted, according to the events -/
def tally (w : PoolKey → Int → Int → Int) (log : List Event) : Int := (log.map (eventWeight w)).sum

/-- the same total over the positions in the storage -/
def held (w : PoolKey → Int → Int → Int) (s : Inv) : Int :=
  s.positions.map.sum fun _ p => w p.poolKey p.lowerTickIndex p.upperTickIndex * (p.liquidity : Int)

/-- weight: exactly one range of one pool -/
def onRange (key : PoolKey) (lower upper : Int) (k : PoolKey) (l u : Int) : Int :=
  if k = key ∧ l = lower ∧ u = upper then 1 else 0

/-- weight: ranges bounded by the tick `i` -/
def onBound (key : PoolKey) (i : Int) (k : PoolKey) (l u : Int) : Int :=
  if k = key ∧ (l = i ∨ u = i) then 1 else 0

/-- weight: ranges starting at `i` count positive, ranges ending there negative -/
def onNet (key : PoolKey) (i : Int) (k : PoolKey) (l u : Int) : Int :=
  if k = key then (if l = i then 1 else 0) - (if u = i then 1 else 0) else 0

/-- weight: ranges that contain the tick `t` -/
def onActive (key : PoolKey) (t : Int) (k : PoolKey) (l u : Int) : Int :=
  if k = key ∧ l ≤ t ∧ t < u then 1 else 0

/-- the ticks of a pool that were crossed according to some events -/
def crossedTicks (key : PoolKey) (evs : List Event) : List Int :=
  evs.flatMap fun e => match e with
    | .crossTick _ _ k l => if k = key then l else []
    | _ => []

/-- the price of a pool according to an event -/
def eventPrice (key : PoolKey) : Event → Option Nat
  | .positionCreated _ _ k _ _ _ p => if k = key then some p else none
  | .positionRemoved _ _ k _ _ _ p => if k = key then some p else none
  | .crossTick .. => none
  | .swap _ _ k _ _ _ _ p _ => if k = key then some p else none

/-- the latest price of a pool according to the events -/
def loggedPrice (key : PoolKey) (log : List Event) : Option Nat := (log.filterMap (eventPrice key)).getLast?

/-- the price before an event according to the event itself (only a swap changes the price) -/
def priceBefore (key : PoolKey) : Event → Option Nat
  | .positionCreated _ _ k _ _ _ p => if k = key then some p else none
  | .positionRemoved _ _ k _ _ _ p => if k = key then some p else none
  | .crossTick .. => none
  | .swap _ _ k _ _ _ p _ _ => if k = key then some p else none

/-- the prices of a pool in a log fit together: what an event says about the price before it is the price that the
last event left -/
def Chained (key : PoolKey) (log : List Event) : Prop :=
  ∀ a e b p, log = a ++ e :: b → priceBefore key e = some p → ∀ q, loggedPrice key a = some q → p = q

end Verif.Spec
