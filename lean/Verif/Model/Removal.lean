import Verif.Model.State

/-!
# Removal of pools

`Pools::remove` and `PoolKeys::remove` are marked `#[allow(dead_code)]`: no entry point of the program calls them, only
their own tests do. They are public functions of the two collections, so what they would do is modelled here, apart from
the rest.
-/

namespace Verif

/-- `n - 1` on `u16` in a build without overflow checks -/
def u16Pred (n : Nat) : Nat := (n + 2 ^ 16 - 1) % 2 ^ 16

/-- `src/contracts/collections/pools.rs` 26-32 `remove` -/
def poolsRemove (m : Map PoolKey Pool) (k : PoolKey) : M (Map PoolKey Pool) := do
  let _ ← poolsGet m k
  pure (m.erase k)

/-- `src/contracts/collections/pool_keys.rs` 41-43 `contains` -/
def PoolKeys.contains (pk : PoolKeys) (k : PoolKey) : Bool := (pk.index.get k).isSome

/-- `src/contracts/collections/pool_keys.rs` 29-39 `remove` -/
def PoolKeys.remove (pk : PoolKeys) (k : PoolKey) : M PoolKeys :=
  match pk.index.get k with
  | some i => .ok { index := pk.index.erase k, byIndex := pk.byIndex.erase i, length := u16Pred pk.length }
  | none => .error (.inv .PoolKeyNotFound)

end Verif
