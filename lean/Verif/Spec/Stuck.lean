import Verif.Spec.Credited
import Verif.Spec.Solvent
import Verif.Spec.Rounds
import Mathlib.Algebra.Order.Group.Abs

/-!
# Specification: what is owed in a token, and what the roundings of a history may take from it
-/

namespace Verif.Spec
open Verif.Service

/-- what a position has, without rounding, in token X (`tok`) or Y: on the curve and in fees -/
def posHas (tok : Bool) (s : Inv) (q : Position) : ℚ :=
  match s.pools.get q.poolKey with
  | some pool => curveHeldBy tok pool.sqrtPrice q + accrued tok (world s q.poolKey pool) q
  | none => 0

/-- everything the program owes in the token `t`: the balances of the accounts, the fees of the protocol and
what the positions have -/
def claims (s : Inv) (t : ActorId) : ℚ :=
  totalBal s t + totalProto s t + s.positions.map.sum fun _ q =>
    (if q.poolKey.tokenX = t then posHas true s q else 0) + if q.poolKey.tokenY = t then posHas false s q else 0

/-- which swaps a history may have -/
abbrev SwapRule := Inv → PoolKey → Bool → Bool → Nat → CalculateSwapResult → Prop

/-- what the rounding of token X may take: 5·10^-15 parts of the change of the balances -/
def moved (s s' : Inv) (t : ActorId) : ℚ := |(totalBal s' t : ℚ) - totalBal s t| / (2 * 10 ^ 14)

/-- what the `n` rounds of a swap may take in a token of the pool, and the last unit of the price for a given output -/
def shaved (s : Inv) (key : PoolKey) (pool : Pool) (xToY byIn : Bool) (n : Nat) (t : ActorId) : ℚ :=
  if t = key.tokenX ∨ t = key.tokenY then
    2 * (n : ℚ) * (1 + (poolLiq s key : ℚ) / 10 ^ 33) +
      (if byIn then 0 else lastUnit xToY pool.sqrtPrice (poolLiq s key)) else 0

/-- Histories with the amount of every token the program holds and what the roundings may have taken of it: three
units a call, and two units and two roundings of the fee growth a round of a swap, one unit of the price where its output
is given, and 5·10^-15 parts of what moves between the balances and the pools. -/
inductive Metered (ok : SwapRule) : Inv → (ActorId → Nat) → (ActorId → ℚ) → Prop
  | init (admin : ActorId) (fee : Nat) : Metered ok (Inv.init admin fee) (fun _ => 0) (fun _ => 0)
  | call {s s' : Inv} {env : Env} {c : Call} {held : ActorId → Nat} {lost : ActorId → ℚ} : Metered ok s held lost →
      ((∀ k d a b l, c ≠ .swap k d a b l) ∧ (∀ a e sl h, c ≠ .swapRoute a e sl h) ∧ NoVara c) →
      step env s c = .ok s' → FewPositions s' → Metered ok s' held (fun t => lost t + 3 + moved s s' t)
  | deposit {s : Inv} {held : ActorId → Nat} {lost : ActorId → ℚ} {t a : ActorId} {v : Nat} {b : Balances}
      {aw : Map (MessageId × ActorId) AwaitingTransfer} : Metered ok s held lost →
      increaseTokenBalance s.balances t a v = .ok b →
      Metered ok { s with balances := b, awaiting := aw } (fun u => if u = t then held u + v else held u) lost
  | withdraw {s : Inv} {held : ActorId → Nat} {lost : ActorId → ℚ} {t a : ActorId} {v : Nat} {r : Balances × Nat}
      {aw : Map (MessageId × ActorId) AwaitingTransfer} : Metered ok s held lost →
      decreaseTokenBalance s.balances t a (some v) = .ok r →
      Metered ok { s with balances := r.1, awaiting := aw } (fun u => if u = t then held u - v else held u) lost
  | swap {s : Inv} {held : ActorId → Nat} {lost : ActorId → ℚ} {env : Env} {key : PoolKey} {xToY byIn : Bool}
      {amount limit n : Nat} {pool : Pool} {r : Inv × CalculateSwapResult} : Metered ok s held lost →
      s.pools.get key = some pool → Service.swap env s key xToY amount byIn limit = .ok r → ok s key xToY byIn limit r.2 →
      TookRounds s ⟨key, xToY, byIn, limit, env.now⟩ pool amount r.2 n →
      Metered ok r.1 held (fun t => lost t + moved s r.1 t + shaved s key pool xToY byIn n t)

/-- swaps that do not end near an initialised tick, and in which the growth of the fees of no position turns over -/
def Calm : SwapRule := fun s key xToY byIn limit r => ¬ Near s key xToY byIn limit r.targetSqrtPrice ∧
  ∃ pool M, s.pools.get key = some pool ∧ Roomy xToY s key pool r.amountIn M

end Verif.Spec
