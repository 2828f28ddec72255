import Verif.Spec.History

/-! # Specification: groups of messages that have nothing in common -/

namespace Verif.Spec
open Verif.Service

/-- Two states with the same settings, the same pools among the keys of `K`, with their ticks and tick maps, and the
same balances and positions of the accounts of `A`. Nothing is said about other pools and other accounts. -/
structure Agree (K : PoolKey → Prop) (A : ActorId → Prop) (s t : Inv) : Prop where
  admin : t.admin = s.admin
  protocolFee : t.protocolFee = s.protocolFee
  feeTiers : t.feeTiers = s.feeTiers
  poolKeys : t.poolKeys = s.poolKeys
  awaiting : ∀ k, t.awaiting.get k = s.awaiting.get k
  pool : ∀ k, K k → t.pools.get k = s.pools.get k
  tick : ∀ k, K k → ∀ i, t.ticks.get (k, i) = s.ticks.get (k, i)
  word : ∀ k, K k → ∀ c, t.tickmap.get (c, k) = s.tickmap.get (c, k)
  length : ∀ a, A a → t.positions.getLength a = s.positions.getLength a
  position : ∀ a, A a → ∀ i, t.positions.get a i = s.positions.get a i
  balance : ∀ a, A a → ∀ k, t.balances.get (a, k) = s.balances.get (a, k)

/-- two states in which everything is the same -/
abbrev SameState (s t : Inv) : Prop := Agree (fun _ => True) (fun _ => True) s t

/-- the accounts of a message: its sender, and whoever is given a position -/
def parties (e : Env) : Call → List ActorId
  | .transferPosition _ r => [e.caller, r]
  | _ => [e.caller]

/-- a request that changes what all share: the protocol fee, the fee tiers, the list of pools -/
def Shared : Call → Prop
  | .changeProtocolFee _ | .addFeeTier _ | .removeFeeTier _ | .createPool _ _ _ _ _ => True
  | _ => False

/-- `l` consists of the messages of `l₁` and of `l₂`, each in its order -/
inductive Shuffle {α : Type} : List α → List α → List α → Prop
  | nil : Shuffle [] [] []
  | left {l₁ l₂ l : List α} (x : α) : Shuffle l₁ l₂ l → Shuffle (x :: l₁) l₂ (x :: l)
  | right {l₁ l₂ l : List α} (x : α) : Shuffle l₁ l₂ l → Shuffle l₁ (x :: l₂) (x :: l)

end Verif.Spec
