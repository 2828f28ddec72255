import Verif.Model.SdkUtils
import Verif.Model.Service

/-!
# Requests for pools and positions made with the SDK

The SDK computes some arguments of the program's commands itself. The request is modelled together with its effect: an
error of the computation in the SDK means that nothing is sent.
-/

namespace Verif.Sdk
open Verif.Service

/-- `sdk/src/invariant.ts` 500-517 `createPoolTx`; the initial tick is looked up by `sdk/src/wasm/log.rs` 89-138, which has
the text of `calc/math/log.rs` -/
def createPoolTx (env : Env) (s : Inv) (key : PoolKey) (price : Nat) : M Inv := do
  let i ← getTickAtSqrtPrice price key.feeTier.tickSpacing
  createPool env s key.tokenX key.tokenY key.feeTier price i

/-- `sdk/src/invariant.ts` 529-561 `createPositionTx` -/
def createPositionTx (env : Env) (s : Inv) (key : PoolKey) (lower upper : Int) (delta spot slippage : Nat) :
    M (Inv × Position) := do
  let l ← createPositionLimits spot slippage
  createPosition env s key lower upper delta l.1 l.2

end Verif.Sdk
