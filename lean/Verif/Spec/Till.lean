import Verif.Spec.Alike
import Verif.Spec.Sale

/-! # Specification: states that differ in the protocol fees that are still to be collected -/

namespace Verif.Spec

/-- the pool with more protocol fees to be collected, by the two amounts of `d` -/
def fill (d : Nat × Nat) (p : Pool) : Pool :=
  { p with feeProtocolTokenX := p.feeProtocolTokenX + d.1, feeProtocolTokenY := p.feeProtocolTokenY + d.2 }

/-- the pool has no room for that much more -/
def Over (d : Nat × Nat) (p : Pool) : Prop :=
  d ≠ (0, 0) ∧ (2 ^ 256 ≤ p.feeProtocolTokenX + d.1 ∨ 2 ^ 256 ≤ p.feeProtocolTokenY + d.2)

/-- `s` is `t` but for the protocol fees of pools, of which `s` has more by `D`, and the balances of `who` -/
structure Fuller (D : PoolKey → Nat × Nat) (who : ActorId) (s t : Inv) : Prop where
  rest : s = { t with pools := s.pools, balances := s.balances }
  pools : ∀ k, s.pools.get k = (t.pools.get k).map (fill (D k))
  exist : ∀ k, t.pools.get k = none → D k = (0, 0)
  balances : ∀ a, a ≠ who → ∀ x, s.balances.get (a, x) = t.balances.get (a, x)

/-- some pool of `t` has no room for what it is to have more -/
def Full (D : PoolKey → Nat × Nat) (t : Inv) : Prop := ∃ k p, t.pools.get k = some p ∧ Over (D k) p

/-- the amounts for one pool -/
def onlyAt (k : PoolKey) (d : Nat × Nat) (j : PoolKey) : Nat × Nat := if j = k then d else (0, 0)

/-- both have the same outcome, unless the first one panics; then the second, if it succeeds, ends with `O` -/
inductive Follows {α β : Type} (R : α → β → Prop) (O : β → Prop) : M α → M β → Prop
  | same {x : M α} {y : M β} : SameOutcome R x y → Follows R O x y
  | full {y : M β} : (∀ b, y = .ok b → O b) → Follows R O (.error .panic) y

/-- the states agree in everything; pools and balances are compared entry by entry -/
structure SameBooks (s t : Inv) : Prop where
  rest : s = { t with pools := s.pools, balances := s.balances }
  pools : ∀ k, s.pools.get k = t.pools.get k
  balances : ∀ a x, bal s.balances a x = bal t.balances a x

end Verif.Spec
