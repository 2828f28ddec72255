import Verif.Spec.Whole
import Verif.Spec.Collections

/-! # Taking tokens out of the system -/

namespace Verif.Spec

/-- What happens when an account takes everything of a token home and nothing goes wrong: it asks for all it has, the
token contract pays, the reply is handled, and the waiting command ends. -/
def takeHome (x : Coins) (env : Env) (gas : Nat) (t : ActorId) : List CoinEvent :=
  [.world (.start env gas true true (.withdrawSingle t none)),
   .world (.answer x.world.next (response 1) (x.world.held t - bal x.world.inv.balances env.caller t)),
   .world (.deliver x.world.next true),
   .world (.resume x.world.next [some true])]

/-- an account removes a position and takes both tokens home -/
def leave (x : Coins) (env : Env) (gas index : Nat) (k : PoolKey) : Coins :=
  let y := x.step (.world (.call env (.removePosition index)))
  let z := y.steps (takeHome y env gas k.tokenX)
  z.steps (takeHome z env gas k.tokenY)

/-- the same for a pool of the native coin and a token -/
def leaveCoin (x : Coins) (env : Env) (gas index : Nat) (k : PoolKey) : Coins :=
  let y := x.step (.world (.call env (.removePosition index)))
  let z := y.step (.world (.call env (.withdrawVara none)))
  z.steps (takeHome z env gas k.tokenY)

/-- everything is as before, except that the account has nothing of the token any more and the token contract holds so
much less for the program -/
structure Home (x y : Coins) (env : Env) (t : ActorId) : Prop where
  /-- the account has nothing left -/
  gone : bal y.world.inv.balances env.caller t = 0
  /-- the token contract has paid it out -/
  paid : y.world.held t + bal x.world.inv.balances env.caller t = x.world.held t
  /-- other balances and holdings are untouched -/
  balances : ∀ a u, (a, u) ≠ (env.caller, t) → bal y.world.inv.balances a u = bal x.world.inv.balances a u
  held : ∀ u, u ≠ t → y.world.held u = x.world.held u
  /-- no new transfer or command is waiting -/
  awaiting : ∀ k, y.world.inv.awaiting.get k = x.world.inv.awaiting.get k
  tasks : ∀ k, y.world.tasks.get k = x.world.tasks.get k
  /-- the rest of the program's state is the same -/
  rest : { y.world.inv with balances := x.world.inv.balances, awaiting := x.world.inv.awaiting } = x.world.inv
  program : y.world.program = x.world.program
  /-- coins come in only as attached value -/
  coin : y.held = x.held + env.value

end Verif.Spec
