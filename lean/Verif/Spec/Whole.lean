import Verif.Spec.Coins
import Verif.Spec.Solvent

/-!
# Specification: the whole system, with the pools, the token contracts and the native coin
-/

namespace Verif.Spec
open Verif.Service

/-- the swaps of a route, made one after the other, do not end near an initialised tick -/
def ClearHops (env : Env) : List SwapHop → Inv → Nat → Prop
  | [], _, _ => True
  | h :: l, s, amount => ∀ r,
      Service.swap env s h.key h.xToY amount true (if h.xToY then MIN_SQRT_PRICE else MAX_SQRT_PRICE) = .ok r →
      ¬ Near s h.key h.xToY true (if h.xToY then MIN_SQRT_PRICE else MAX_SQRT_PRICE) r.2.targetSqrtPrice ∧ ClearHops env l r.1 r.2.amountOut

/-- no swap of the call ends near an initialised tick, and after the call no account has
2^32 - 1 positions -/
def ClearCall (env : Env) (s : Inv) : Call → Prop
  | .swap k d a b l => ∀ r, Service.swap env s k d a b l = .ok r → ¬ Near s k d b l r.2.targetSqrtPrice
  | .swapRoute a _ _ hops => ClearHops env hops s a
  | c => ∀ s', step env s c = .ok s' → FewPositions s'

/-- `ClearCall` for everything that can happen; only calls matter -/
def ClearEvent (x : Coins) : CoinEvent → Prop
  | .world (.call env c) => ClearCall env x.world.inv c
  | _ => True

/-- the token contract is honest (`Honest`); whoever sends coins to the program is -/
def HonestEvent (t : ActorId) (x : Coins) : CoinEvent → Prop
  | .world e => Honest t x.world e
  | .gift _ => True

/-- the number of calls, where every swap of a route counts -/
def calls : CoinEvent → Nat
  | .world (.call _ (.swapRoute _ _ _ hops)) => hops.length
  | .world (.call _ _) => 1
  | _ => 0

/-- Histories of the whole system with the number of calls: anything can happen that `ok` allows. -/
inductive Whole (ok : Coins → CoinEvent → Prop) : Coins → Nat → Prop
  | init (program admin : ActorId) (fee : Nat) (held : ActorId → Nat) (n : Nat) :
      Whole ok ⟨World.init program admin fee held, n, n⟩ 0
  | step {x : Coins} {n : Nat} (e : CoinEvent) : Whole ok x n → ok x e → Whole ok (x.step e) (n + calls e)

end Verif.Spec
