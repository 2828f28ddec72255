import Verif.Spec.Book

/-!
# Specification: series of swaps
-/

namespace Verif.Spec
open Verif.Service

/-- Series of swaps in a pool by any accounts, with the sums of what the accounts paid to the pool less what
they got from it, in each of the two tokens, and the number of these swaps. In between there may be swaps in
other pools and transfers, but the positions remain the same. With `clear`, no swap ends near an
initialised tick. -/
inductive Trades (clear : Bool) (key : PoolKey) (s : Inv) : Inv → ℤ → ℤ → Nat → Prop
  | none : Trades clear key s s 0 0 0
  | swap {s' : Inv} {x y : ℤ} {n : Nat} {env : Env} {xToY byIn : Bool} {amount limit : Nat}
      {r : Inv × CalculateSwapResult} : Trades clear key s s' x y n →
      Service.swap env s' key xToY amount byIn limit = .ok r →
      (clear = true → ¬ Near s' key xToY byIn limit r.2.targetSqrtPrice) →
      Trades clear key s r.1 (if xToY then x + r.2.amountIn else x - r.2.amountOut)
        (if xToY then y - r.2.amountOut else y + r.2.amountIn) (n + 1)
  | other {s' : Inv} {x y : ℤ} {n : Nat} {env : Env} {k : PoolKey} {xToY byIn : Bool} {amount limit : Nat}
      {r : Inv × CalculateSwapResult} : Trades clear key s s' x y n → k ≠ key →
      Service.swap env s' k xToY amount byIn limit = .ok r →
      (clear = true → ¬ Near s' k xToY byIn limit r.2.targetSqrtPrice) → Trades clear key s r.1 x y n
  | transfers {s' : Inv} {x y : ℤ} {n : Nat} {b : Balances}
      {aw : Map (MessageId × ActorId) AwaitingTransfer} : Trades clear key s s' x y n →
      (∀ k v, b.get k = some v → v ≠ 0 ∧ v < 2 ^ 256) →
      Trades clear key s { s' with balances := b, awaiting := aw } x y n

end Verif.Spec
