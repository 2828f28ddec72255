import Verif.Spec.World
import Verif.Spec.Collections

/-!
# What the user is told about a transfer of tokens

`singleReason` and `sendReason` are the reasons for refusing to ask the token contracts, `lack` the reason for
refusing to debit, each the first that applies. `said` is what a token contract has answered, and `Heard` says that the
waiting command is resumed with that answer.
-/

namespace Verif.Spec

/-- gas set aside for one transfer -/
def gasPerTransfer : Nat := 42400200000

/-- the native coin is refused by the token commands -/
def nativeErr : TransferType → InvErr
  | .deposit => .InvalidVaraDepositAttempt
  | .withdrawal => .InvalidVaraWithdrawAttempt

/-- why a transfer of `n` of `t` is not requested -/
def singleReason (k : TransferType) (r : SendEnv) (caller t : ActorId) (n : Nat) : Option Err :=
  if t = VARA then some (.inv (nativeErr k))
  else if r.gas < gasPerTransfer then some (.inv .NotEnoughGasToExecute)
  else if n = 0 ∨ caller = r.program ∨ r.sent1 = false then some (.inv .TransferError)
  else none

/-- why transfers of `n` of `t` and `m` of `u` are not requested; amounts of zero are left out -/
def sendReason (k : TransferType) (r : SendEnv) (caller t : ActorId) (n : Nat) (u : ActorId) (m : Nat) : Option Err :=
  if n = 0 ∧ m = 0 then none
  else if m = 0 then singleReason k r caller t n
  else if n = 0 then singleReason k r caller u m
  else if t = VARA ∨ u = VARA then some (.inv (nativeErr k))
  else if r.gas < 2 * gasPerTransfer then some (.inv .NotEnoughGasToExecute)
  else if caller = r.program ∨ r.sent1 = false ∨ r.sent2 = false then some (.inv .TransferError)
  else none

/-- why `n` cannot be debited -/
def lack (b : Balances) (who t : ActorId) (n : Nat) : Option Err :=
  if n ≤ bal b who t then none
  else if bal b who t = 0 then some (.inv .NoBalanceForTheToken)
  else some (.inv .FailedToChangeTokenBalance)

/-- the same for an amount that may be left open, which means everything -/
def lackOf (b : Balances) (who t : ActorId) : Option Nat → Option Err
  | some n => lack b who t n
  | none => none

/-- the amount asked for -/
def amountOf (b : Balances) (who t : ActorId) : Option Nat → Nat
  | some n => n
  | none => bal b who t

/-- the answer of the token contract to a request, if any -/
def said (w : World) (l : Leg) : Option Bytes := (w.msgs.get l.id).bind (·.answer)

/-- the token contract has confirmed the transfer -/
def Done (w : World) (l : Leg) : Prop := ∃ p, said w l = some p ∧ Positive p

/-- the token contract has refused the transfer or failed -/
def Failed (w : World) (l : Leg) : Prop := ∃ p, said w l = some p ∧ (Negative p ∨ Panic p)

/-- the waiting command is resumed with what the token contract has answered: with a positive flag exactly after a
confirmation -/
def Heard (w : World) (l : Leg) (m : Option Bool) : Prop := m = some true ↔ Done w l

end Verif.Spec
