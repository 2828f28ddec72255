import Verif.Spec.History
import Mathlib.Data.List.Forall2

/-! # Specification: states that differ in nothing but times and the names of accounts -/

namespace Verif.Spec
open Verif.Service

/-- the same pool with a renamed fee receiver, apart from the two times -/
def PoolLike (σ : ActorId → ActorId) (p q : Pool) : Prop :=
  q = { p with startTimestamp := q.startTimestamp, lastTimestamp := q.lastTimestamp, feeReceiver := σ p.feeReceiver }

/-- the same tick apart from the seconds -/
def TickLike (t u : Tick) : Prop := u = { t with secondsOutside := u.secondsOutside }

/-- the same position apart from the number of the block -/
def PositionLike (p q : Position) : Prop := q = { p with lastBlockNumber := q.lastBlockNumber }

/-- a pending transfer of the renamed account -/
def renameTransfer (σ : ActorId → ActorId) (a : AwaitingTransfer) : AwaitingTransfer :=
  { a with account := σ a.account }

/-- `t` is the state `s` with every account `a` renamed to `σ a`, apart from times and numbers of blocks. The tokens
keep their names. -/
structure Alike (σ : ActorId → ActorId) (s t : Inv) : Prop where
  admin : t.admin = σ s.admin
  protocolFee : t.protocolFee = s.protocolFee
  feeTiers : t.feeTiers = s.feeTiers
  poolKeys : t.poolKeys = s.poolKeys
  tickmap : ∀ z, t.tickmap.get z = s.tickmap.get z
  pools : ∀ k, Option.Rel (PoolLike σ) (s.pools.get k) (t.pools.get k)
  ticks : ∀ k, Option.Rel TickLike (s.ticks.get k) (t.ticks.get k)
  lengths : ∀ a, t.positions.getLength (σ a) = s.positions.getLength a
  positions : ∀ a i, Option.Rel PositionLike (s.positions.map.get (a, i)) (t.positions.map.get (σ a, i))
  balances : ∀ a k, t.balances.get (σ a, k) = s.balances.get (a, k)
  awaiting : ∀ k, t.awaiting.get k = (s.awaiting.get k).map (renameTransfer σ)

/-- no pool of the state was created after `now` -/
def Started (s : Inv) (now : Nat) : Prop := ∀ k p, s.pools.get k = some p → p.startTimestamp ≤ now

/-- the same request with renamed accounts -/
def renameCall (σ : ActorId → ActorId) : Call → Call
  | .changeFeeReceiver k r => .changeFeeReceiver k (σ r)
  | .transferPosition i r => .transferPosition i (σ r)
  | c => c

/-- both fail with the same error, or both succeed with related values -/
inductive SameOutcome {α β : Type} (R : α → β → Prop) : M α → M β → Prop
  | ok {a : α} {b : β} : R a b → SameOutcome R (.ok a) (.ok b)
  | error {e : Err} : SameOutcome R (.error e) (.error e)

/-- two swaps of the same amounts and prices -/
structure SameTrade (a b : CalculateSwapResult) : Prop where
  amountIn : b.amountIn = a.amountIn
  amountOut : b.amountOut = a.amountOut
  start : b.startSqrtPrice = a.startSqrtPrice
  target : b.targetSqrtPrice = a.targetSqrtPrice
  fee : b.fee = a.fee

/-- the messages are sent at times that do not decrease, from `n` on -/
def Ordered : Nat → List (Env × Call) → Prop
  | _, [] => True
  | n, (e, _) :: l => n ≤ e.now ∧ Ordered e.now l

/-- the same messages of renamed accounts, sent at any times -/
def SameMessages (σ : ActorId → ActorId) : List (Env × Call) → List (Env × Call) → Prop :=
  List.Forall₂ fun a b => b.1.caller = σ a.1.caller ∧ b.1.value = a.1.value ∧ b.2 = renameCall σ a.2

end Verif.Spec
