import Verif.Spec.Book

/-! # Specification: pools without positions (C123) -/

namespace Verif.Spec
open Verif.Service

/-- no position belongs to the pool -/
def Deserted (key : PoolKey) (s : Inv) : Prop := ∀ a n p, s.positions.get a n = .ok p → p.poolKey ≠ key

/-- what can become of `s` as long as nobody has a position in the pool: any successful calls and any transfers -/
inductive Idle (key : PoolKey) (s : Inv) : Inv → Prop
  | start : Idle key s s
  | call {t t' : Inv} {env : Env} {c : Call} : Idle key s t → step env t c = .ok t' → Deserted key t' → Idle key s t'
  | transfers {t : Inv} {b : Balances} {aw : Map (MessageId × ActorId) AwaitingTransfer} : Idle key s t →
      Idle key s { t with balances := b, awaiting := aw }

/-- the pool `q` is the pool `p`, but for the receiver of fees and the fees that the receiver can collect -/
def Stands (p q : Pool) : Prop :=
  q = { p with feeReceiver := q.feeReceiver, feeProtocolTokenX := q.feeProtocolTokenX
               feeProtocolTokenY := q.feeProtocolTokenY }

end Verif.Spec
