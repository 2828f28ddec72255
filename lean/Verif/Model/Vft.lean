import Verif.Model.State

/-!
# The extended VFT token

Model of `extended-vft/app/src/services/extended_vft`. The inherited `vft-service` (balances,
transfers, allowances) is a dependency outside the repository; of it only the balance map and the
total supply appear here. Events and the test-only flag `transfer_fail` are left out.
-/

namespace Verif

/-- `extended-vft/app/src/services/extended_vft/mod.rs` 7-13 with `Storage::balances()` and
`Storage::total_supply()` of `vft-service`; the sets of role holders are lists -/
structure Vft where
  balances : Map ActorId Nat
  supply : Nat
  minters : List ActorId
  burners : List ActorId
  admins : List ActorId

namespace Vft

/-- `mod.rs` 28-41 `seed` -/
def init (admin : ActorId) : Vft :=
  { balances := ∅, supply := 0, minters := [admin], burners := [admin], admins := [admin] }

/-- `funcs::balance_of` of `vft-service` -/
def balanceOf (v : Vft) (a : ActorId) : Nat := (v.balances.get a).getD 0

/-- `funcs.rs` 7-29 `mint` behind the role check of `mod.rs` 95-108 -/
def mint (caller : ActorId) (v : Vft) (dst : ActorId) (n : Nat) : M (Vft × Bool) := do
  failIf (caller ∉ v.minters) .panic
  if n = 0 then pure (v, false)
  else do
    let supply ← addC 256 .panic v.supply n
    let b ← addC 256 .panic (v.balanceOf dst) n
    pure ({ v with balances := v.balances.insert dst b, supply := supply }, true)

/-- `funcs.rs` 31-54 `burn` behind the role check of `mod.rs` 110-123 -/
def burn (caller : ActorId) (v : Vft) (frm : ActorId) (n : Nat) : M (Vft × Bool) := do
  failIf (caller ∉ v.burners) .panic
  if n = 0 then pure (v, false)
  else do
    let supply ← subC .panic v.supply n
    let b ← subC .panic (v.balanceOf frm) n
    pure ({ v with
      balances := if b = 0 then v.balances.erase frm else v.balances.insert frm b
      supply := supply }, true)

inductive Role
  | admin
  | minter
  | burner
  deriving DecidableEq, Repr

/-- `mod.rs` 125-136 `grant_*_role` -/
def grant (caller : ActorId) (v : Vft) (r : Role) (a : ActorId) : M Vft := do
  failIf (caller ∉ v.admins) .panic
  pure (match r with
    | .admin => { v with admins := v.admins.insert a }
    | .minter => { v with minters := v.minters.insert a }
    | .burner => { v with burners := v.burners.insert a })

/-- `mod.rs` 138-149 `revoke_*_role` -/
def revoke (caller : ActorId) (v : Vft) (r : Role) (a : ActorId) : M Vft := do
  failIf (caller ∉ v.admins) .panic
  pure (match r with
    | .admin => { v with admins := v.admins.filter (· ≠ a) }
    | .minter => { v with minters := v.minters.filter (· ≠ a) }
    | .burner => { v with burners := v.burners.filter (· ≠ a) })

inductive Call
  | mint (dst : ActorId) (n : Nat)
  | burn (frm : ActorId) (n : Nat)
  | grant (r : Role) (a : ActorId)
  | revoke (r : Role) (a : ActorId)
  deriving Repr

def step (caller : ActorId) (v : Vft) : Call → M Vft
  | .mint a n => return (← mint caller v a n).1
  | .burn a n => return (← burn caller v a n).1
  | .grant r a => grant caller v r a
  | .revoke r a => revoke caller v r a

end Vft
end Verif
