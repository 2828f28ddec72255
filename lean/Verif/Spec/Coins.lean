import Verif.Spec.World

/-!
# The native coin the program holds

The value attached to a message goes to the program when the message succeeds, or when it first waits, and back
to the sender when it fails (rules of the runtime). The only message of the program that carries value is the
reply of `withdraw_vara`, which fails if the program does not hold enough.
-/

namespace Verif.Spec

structure Coins where
  world : World
  /-- coins on the account of the program -/
  held : Nat
  /-- coins that came otherwise than with `deposit_vara` -/
  stray : Nat

/-- the value of the reply -/
def sentBack (env : Env) (s : Inv) : Call → Nat
  | .withdrawVara v =>
    match Service.withdrawVara env s v with
    | .ok r => r.2
    | .error _ => 0
  | _ => 0

/-- value attached to another message than `deposit_vara` -/
def strayIn (env : Env) : Call → Nat
  | .depositVara => 0
  | _ => env.value

inductive CoinEvent
  | world (e : Event)
  /-- somebody sends coins to the account of the program -/
  | gift (n : Nat)

def Coins.step (x : Coins) : CoinEvent → Coins
  | .gift n => { x with held := x.held + n, stray := x.stray + n }
  | .world (.call env c) =>
    match Verif.step env x.world.inv c with
    | .error _ => x
    | .ok _ =>
      if x.held + env.value < sentBack env x.world.inv c then x
      else { world := x.world.step (.call env c), held := x.held + env.value - sentBack env x.world.inv c,
             stray := x.stray + strayIn env c }
  | .world (.start env gas b1 b2 c) =>
    match Async.start env ⟨x.world.program, gas, x.world.next, b1, b2⟩ x.world.inv c with
    | .error _ => x
    | .ok _ =>
      { world := x.world.step (.start env gas b1 b2 c), held := x.held + env.value,
        stray := x.stray + env.value }
  | .world e => { x with world := x.world.step e }

def Coins.steps (x : Coins) : List CoinEvent → Coins
  | [] => x
  | e :: l => (x.step e).steps l

/-- everything that can happen after deployment with some coins on the account -/
inductive CoinHist : Coins → Prop
  | init (program admin : ActorId) (fee : Nat) (held : ActorId → Nat) (n : Nat) :
      CoinHist ⟨World.init program admin fee held, n, n⟩
  | step {x : Coins} (e : CoinEvent) : CoinHist x → CoinHist (x.step e)

end Verif.Spec
