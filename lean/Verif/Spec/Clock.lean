import Verif.Spec.Book

/-! # Specification: the time the price spends within a range -/

namespace Verif.Spec
open Verif.Service

/-- The seconds within a range that two stored ticks tell at time `now`: those of the pool less those below and
those above, in 64-bit arithmetic. The seconds outside a tick are those on the side where the price is not. -/
def secondsRead (pool : Pool) (lo hi : Tick) (now : Nat) : Nat :=
  let passed : Int := now - pool.startTimestamp
  let below : Int := if lo.index ≤ pool.currentTickIndex then lo.secondsOutside else passed - lo.secondsOutside
  let above : Int := if pool.currentTickIndex < hi.index then hi.secondsOutside else passed - hi.secondsOutside
  ((passed - below - above) % 2 ^ 64).toNat

/-- the same for two ticks of a state -/
def secondsInside (s : Inv) (key : PoolKey) (lo hi : Int) (now : Nat) : Option Nat :=
  match s.pools.get key, s.ticks.get (key, lo), s.ticks.get (key, hi) with
  | some p, some l, some u => some (secondsRead p l u now)
  | _, _, _ => none

/-- `Watched key lo hi s t s' t' d`: between state `s` at time `t` and state `s'` at time `t'` calls were made at
times that do not decrease, both ticks stayed, no swap of the pool ended near an initialised tick, and
the tick of the pool was within the range for `d` seconds. The hops of a route count as separate swaps. -/
inductive Watched (key : PoolKey) (lo hi : Int) (s : Inv) (t : Nat) : Inv → Nat → Nat → Prop
  | start : Watched key lo hi s t s t 0
  | wait {s' : Inv} {t' t'' d : Nat} {p : Pool} : Watched key lo hi s t s' t' d → t' ≤ t'' →
      s'.pools.get key = some p →
      Watched key lo hi s t s' t''
        (d + if lo ≤ p.currentTickIndex ∧ p.currentTickIndex < hi then t'' - t' else 0)
  | call {s' s'' : Inv} {t' d : Nat} {env : Env} {c : Call} : Watched key lo hi s t s' t' d → env.now = t' →
      ((∀ k d a b l, c ≠ .swap k d a b l) ∧ ∀ a e sl h, c ≠ .swapRoute a e sl h) →
      step env s' c = .ok s'' → (s''.ticks.get (key, lo)).isSome → (s''.ticks.get (key, hi)).isSome →
      Watched key lo hi s t s'' t' d
  | transfers {s' : Inv} {t' d : Nat} {b : Balances} {aw : Map (MessageId × ActorId) AwaitingTransfer} :
      Watched key lo hi s t s' t' d → (∀ k v, b.get k = some v → v ≠ 0 ∧ v < 2 ^ 256) →
      Watched key lo hi s t { s' with balances := b, awaiting := aw } t' d
  | swap {s' : Inv} {t' d : Nat} {env : Env} {k : PoolKey} {xToY byIn : Bool} {amount limit : Nat}
      {r : Inv × CalculateSwapResult} : Watched key lo hi s t s' t' d → env.now = t' →
      Service.swap env s' k xToY amount byIn limit = .ok r →
      (k = key → ¬ Near s' key xToY byIn limit r.2.targetSqrtPrice) → Watched key lo hi s t r.1 t' d

end Verif.Spec
