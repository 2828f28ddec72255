import Verif.Model.Service

/-!
# Histories of the program

`Reach s`: the state `s` can arise from the initial state by successful synchronous calls with
arbitrary callers, times and arguments, interleaved with arbitrary changes of the internal balances
and of the table of pending transfers. The latter over-approximates the asynchronous token
transfers, which touch nothing else (see `Props/Async`). Failed calls leave the state unchanged and
need no rule.
-/

namespace Verif.Spec
open Verif.Service

inductive Reach : Inv → Prop
  | init (admin : ActorId) (fee : Nat) : Reach (Inv.init admin fee)
  | call {s s' : Inv} {env : Env} {c : Call} : Reach s → step env s c = .ok s' → Reach s'
  | transfers {s : Inv} {b : Balances} {aw : Map (MessageId × ActorId) AwaitingTransfer} :
      Reach s → (∀ k v, b.get k = some v → v ≠ 0 ∧ v < 2 ^ 256) →
      Reach { s with balances := b, awaiting := aw }

/-- histories together with the list of pool keys in the order of their creation -/
inductive Created : Inv → List PoolKey → Prop
  | init (admin : ActorId) (fee : Nat) : Created (Inv.init admin fee) []
  | create {s s' : Inv} {env : Env} {x y : ActorId} {t : FeeTier} {p : Nat} {i : Int} {k : PoolKey}
      {K : List PoolKey} : Created s K → step env s (.createPool x y t p i) = .ok s' →
      PoolKey.new x y t = .ok k → Created s' (K ++ [k])
  | call {s s' : Inv} {env : Env} {c : Call} {K : List PoolKey} : Created s K →
      (∀ x y t p i, c ≠ .createPool x y t p i) → step env s c = .ok s' → Created s' K
  | transfers {s : Inv} {b : Balances} {aw : Map (MessageId × ActorId) AwaitingTransfer}
      {K : List PoolKey} : Created s K → (∀ k v, b.get k = some v → v ≠ 0 ∧ v < 2 ^ 256) →
      Created { s with balances := b, awaiting := aw } K

/-- no account is about to exceed the 32-bit counter of its positions -/
def FewPositions (s : Inv) : Prop := ∀ a, s.positions.getLength a + 1 < 2 ^ 32

/-- histories in which no account ever has 2^32 - 1 positions -/
inductive Reach32 : Inv → Prop
  | init (admin : ActorId) (fee : Nat) : Reach32 (Inv.init admin fee)
  | call {s s' : Inv} {env : Env} {c : Call} : Reach32 s → step env s c = .ok s' →
      FewPositions s' → Reach32 s'
  | transfers {s : Inv} {b : Balances} {aw : Map (MessageId × ActorId) AwaitingTransfer} :
      Reach32 s → (∀ k v, b.get k = some v → v ≠ 0 ∧ v < 2 ^ 256) →
      Reach32 { s with balances := b, awaiting := aw }

/-- a list of messages handled one after the other; failed ones have no effect -/
def runAll (s : Inv) : List (Env × Call) → Inv
  | [] => s
  | (e, c) :: l => runAll (run e s c) l

end Verif.Spec
