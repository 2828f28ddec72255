import Verif.Spec.Book
import Verif.Spec.Collections

/-!
# Specification: the books of histories in which the liquidity counter stays right
-/

namespace Verif.Spec
open Verif.Service

/-- Histories with the amount of every token the program holds and the number of calls. Deposits bring
tokens, withdrawals take them away (this includes the native coin and the asynchronous transfers, at the
moment of the change of the balance); other calls move no tokens. No swap ends at, or just below, an
initialised tick and no account gets to 2^32 - 1 positions. The hops of a route count as separate swaps. -/
inductive ClearBooks : Inv → (ActorId → Nat) → Nat → Prop
  | init (admin : ActorId) (fee : Nat) : ClearBooks (Inv.init admin fee) (fun _ => 0) 0
  | call {s s' : Inv} {env : Env} {c : Call} {held : ActorId → Nat} {n : Nat} : ClearBooks s held n →
      ((∀ k d a b l, c ≠ .swap k d a b l) ∧ (∀ a e sl h, c ≠ .swapRoute a e sl h) ∧ NoVara c) →
      step env s c = .ok s' → FewPositions s' → ClearBooks s' held (n + 1)
  | deposit {s : Inv} {held : ActorId → Nat} {n : Nat} {t a : ActorId} {v : Nat} {b : Balances}
      {aw : Map (MessageId × ActorId) AwaitingTransfer} : ClearBooks s held n →
      increaseTokenBalance s.balances t a v = .ok b →
      ClearBooks { s with balances := b, awaiting := aw } (fun u => if u = t then held u + v else held u) n
  | withdraw {s : Inv} {held : ActorId → Nat} {n : Nat} {t a : ActorId} {v : Nat} {r : Balances × Nat}
      {aw : Map (MessageId × ActorId) AwaitingTransfer} : ClearBooks s held n →
      decreaseTokenBalance s.balances t a (some v) = .ok r →
      ClearBooks { s with balances := r.1, awaiting := aw } (fun u => if u = t then held u - v else held u) n
  | swap {s : Inv} {held : ActorId → Nat} {n : Nat} {env : Env} {key : PoolKey} {xToY byIn : Bool}
      {amount limit : Nat} {r : Inv × CalculateSwapResult} : ClearBooks s held n →
      Service.swap env s key xToY amount byIn limit = .ok r →
      ¬ Near s key xToY byIn limit r.2.targetSqrtPrice → ClearBooks r.1 held (n + 1)

/-- what its owner is credited in the token `t` on removing a position; nothing if the call fails -/
def payout (env : Env) (s : Inv) (owner : ActorId) (i : Nat) (t : ActorId) : Nat :=
  match removePosition { env with caller := owner } s i with
  | .ok r => bal r.1.balances owner t - bal s.balances owner t
  | .error _ => 0

/-- the sum of the payouts for all positions -/
def totalDue (env : Env) (s : Inv) (t : ActorId) : Nat :=
  s.positions.map.sum fun k _ => payout env s k.1 k.2 t

end Verif.Spec
