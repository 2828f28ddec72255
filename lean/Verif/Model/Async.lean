import Verif.Model.Service
import Verif.Model.Scale

/-!
# Model of the token transfers, `src/invariant_service.rs` 769-1060 and 1124-1346

An asynchronous command runs in two parts. The first part runs until the request to the token
contract is sent (`start`); like every message it is atomic: an error discards its changes and its
outgoing messages. The second part (`resumeSingle`, `resumePair`) runs when all replies have arrived
or the waiting period is over. The reply handler (`replyHandler`) runs in the message that delivers
the reply, before the second part.
-/

namespace Verif

/-- what the runtime supplies while sending: the program's own address, the gas left, the
identifiers the next two messages get and whether sending them (with registering the reply handler)
succeeds -/
structure SendEnv where
  program : ActorId
  gas : Nat
  next : Nat
  sent1 : Bool
  sent2 : Bool

/-- a transfer requested from a token contract by `Vft/TransferFrom` -/
structure Leg where
  id : Nat
  token : ActorId
  src : ActorId
  dst : ActorId
  amount : Nat
  kind : TransferType
  deriving DecidableEq, Repr

namespace Async

/-- `src/invariant_service.rs` 52-56 -/
def TRANSFER_COST : Nat := 10600000000 * 2 + 10600000000 * 2 + 100000 * 2

/-- the user's side of a transfer, lines 1168-1171 -/
def account (kind : TransferType) (src dst : ActorId) : ActorId :=
  match kind with
  | .deposit => src
  | .withdrawal => dst

/-- `src/invariant_service.rs` 1124-1183 `send_transfer_token_message` -/
def sendTransfer (s : Inv) (token src dst : ActorId) (amount : Nat) (kind : TransferType)
    (id : Nat) (sent : Bool) : M (Inv × Leg) := do
  failIf (amount = 0) (.inv .TransferError)
  failIf (src = dst) (.inv .TransferError)
  failIf (sent = false) (.inv .TransferError)
  pure ({ s with awaiting := s.awaiting.insert (id, token) ⟨account kind src dst, amount, kind⟩ },
    ⟨id, token, src, dst, amount, kind⟩)

/-- error for the address of the native coin, lines 945-948 -/
def varaErr : TransferType → InvErr
  | .deposit => .InvalidVaraDepositAttempt
  | .withdrawal => .InvalidVaraWithdrawAttempt

/-- sender and receiver of the token transfer, lines 955-959 -/
def ends (kind : TransferType) (caller program : ActorId) : ActorId × ActorId :=
  match kind with
  | .deposit => (caller, program)
  | .withdrawal => (program, caller)

/-- `src/invariant_service.rs` 936-963 `transfer_single_token` up to the `await` -/
def transferSingle (r : SendEnv) (s : Inv) (token caller : ActorId) (amount : Nat)
    (kind : TransferType) : M (Inv × List Leg) := do
  failIf (token = VARA) (.inv (varaErr kind))
  failIf (r.gas < TRANSFER_COST) (.inv .NotEnoughGasToExecute)
  let e := ends kind caller r.program
  let m ← mapErr (.inv .TransferError) (sendTransfer s token e.1 e.2 amount kind r.next r.sent1)
  pure (m.1, [m.2])

/-- `src/invariant_service.rs` 979-1024 `transfer_token_pair` up to the `await` -/
def transferPair (r : SendEnv) (s : Inv) (caller tokenX : ActorId) (amountX : Nat) (tokenY : ActorId)
    (amountY : Nat) (kind : TransferType) : M (Inv × List Leg) := do
  failIf (tokenX = VARA ∨ tokenY = VARA) (.inv (varaErr kind))
  failIf (r.gas < 2 * TRANSFER_COST) (.inv .NotEnoughGasToExecute)
  let e := ends kind caller r.program
  let m1 ← sendTransfer s tokenX e.1 e.2 amountX kind r.next r.sent1
  let m2 ← sendTransfer m1.1 tokenY e.1 e.2 amountY kind (r.next + 1) r.sent2
  pure (m2.1, [m1.2, m2.2])

/-- `src/invariant_service.rs` 769-787 `deposit_single_token` up to the `await` -/
def depositSingle (env : Env) (r : SendEnv) (s : Inv) (token : ActorId) (amount : Nat) :
    M (Inv × List Leg) := do
  failIf (canIncreaseTokenBalance s.balances token env.caller amount = false)
    (.inv .FailedToChangeTokenBalance)
  transferSingle r s token env.caller amount .deposit

/-- debit of `withdraw_single_token`, lines 798-808 -/
def takeSingle (b : Balances) (token caller : ActorId) (amount : Option Nat) : M (Balances × Nat) :=
  match amount with
  | some n => do
    failIf (n = 0) (.inv .AmountIsZero)
    decreaseTokenBalance b token caller (some n)
  | none =>
    match decreaseTokenBalance b token caller none with
    | .ok r => .ok r
    | .error _ => .ok (b, 0)

/-- `src/invariant_service.rs` 789-824 `withdraw_single_token` up to the `await` -/
def withdrawSingle (env : Env) (r : SendEnv) (s : Inv) (token : ActorId) (amount : Option Nat) :
    M (Inv × List Leg) := do
  let d ← takeSingle s.balances token env.caller amount
  if d.2 ≠ 0 then
    transferSingle r { s with balances := d.1 } token env.caller d.2 .withdrawal
  else pure ({ s with balances := d.1 }, [])

/-- the three cases of a two-token transfer, lines 847-868 and 908-926 -/
def transferBoth (r : SendEnv) (s : Inv) (caller tokenX : ActorId) (amountX : Nat) (tokenY : ActorId)
    (amountY : Nat) (kind : TransferType) : M (Inv × List Leg) :=
  if amountX ≠ 0 ∧ amountY ≠ 0 then transferPair r s caller tokenX amountX tokenY amountY kind
  else if amountX ≠ 0 then transferSingle r s tokenX caller amountX kind
  else if amountY ≠ 0 then transferSingle r s tokenY caller amountY kind
  else pure (s, [])

/-- `src/invariant_service.rs` 826-872 `deposit_token_pair` up to the `await` -/
def depositPair (env : Env) (r : SendEnv) (s : Inv) (tokenX : ActorId) (amountX : Nat)
    (tokenY : ActorId) (amountY : Nat) : M (Inv × List Leg) := do
  failIf (tokenX = tokenY) (.inv .TokensAreSame)
  failIf (canIncreaseTokenBalance s.balances tokenX env.caller amountX = false ∨
    canIncreaseTokenBalance s.balances tokenY env.caller amountY = false)
    (.inv .FailedToChangeTokenBalance)
  transferBoth r s env.caller tokenX amountX tokenY amountY .deposit

/-- debit of one token of `withdraw_token_pair`, lines 887-906: the second component is the result
(the debit of the other token goes on even after an error of the first) -/
def takeLeg (b : Balances) (token caller : ActorId) (amount : Option Nat) : Balances × M Nat :=
  match decreaseTokenBalance b token caller amount with
  | .ok r => (r.1, .ok r.2)
  | .error e =>
    if e = .inv .NoBalanceForTheToken ∧ amount = none then (b, .ok 0) else (b, .error e)

/-- `src/invariant_service.rs` 874-930 `withdraw_token_pair` up to the `await` -/
def withdrawPair (env : Env) (r : SendEnv) (s : Inv) (tokenX : ActorId) (amountX : Option Nat)
    (tokenY : ActorId) (amountY : Option Nat) : M (Inv × List Leg) := do
  failIf (tokenX = tokenY) (.inv .TokensAreSame)
  let dx := takeLeg s.balances tokenX env.caller amountX
  let dy := takeLeg dx.1 tokenY env.caller amountY
  let x ← dx.2
  let y ← dy.2
  transferBoth r { s with balances := dy.1 } env.caller tokenX x tokenY y .withdrawal

/-- the asynchronous commands -/
inductive ACall
  | depositSingle (token : ActorId) (amount : Nat)
  | withdrawSingle (token : ActorId) (amount : Option Nat)
  | depositPair (tokenX : ActorId) (amountX : Nat) (tokenY : ActorId) (amountY : Nat)
  | withdrawPair (tokenX : ActorId) (amountX : Option Nat) (tokenY : ActorId) (amountY : Option Nat)
  deriving Repr

/-- first part of an asynchronous command; an empty list of transfers means that the command finished
without waiting -/
def start (env : Env) (r : SendEnv) (s : Inv) : ACall → M (Inv × List Leg)
  | .depositSingle t n => depositSingle env r s t n
  | .withdrawSingle t n => withdrawSingle env r s t n
  | .depositPair t n u m => depositPair env r s t n u m
  | .withdrawPair t n u m => withdrawPair env r s t n u m

/-! ## Replies -/

/-- crediting in the reply handlers: a failure is only logged, lines 1276-1286 and 1322-1332 -/
def creditOrLog (s : Inv) (token who : ActorId) (n : Nat) : Inv :=
  match increaseTokenBalance s.balances token who n with
  | .ok b => { s with balances := b }
  | .error _ => s

/-- `src/invariant_service.rs` 1241-1299 `handle_valid_reply` -/
def handleValidReply (s : Inv) (token : ActorId) (id : Nat) (result : Bool) : Inv :=
  match s.awaiting.get (id, token) with
  | none => s
  | some a =>
    let s := (match a.transferType, result with
      | .deposit, true => creditOrLog s token a.account a.amount
      | .withdrawal, false => creditOrLog s token a.account a.amount
      | _, _ => s)
    { s with awaiting := s.awaiting.erase (id, token) }

/-- `src/invariant_service.rs` 1301-1346 `handle_panic` -/
def handlePanic (s : Inv) (token : ActorId) (id : Nat) : Inv :=
  match s.awaiting.get (id, token) with
  | none => s
  | some a =>
    let s := (match a.transferType with
      | .withdrawal => creditOrLog s token a.account a.amount
      | .deposit => s)
    { s with awaiting := s.awaiting.erase (id, token) }

/-- `src/invariant_service.rs` 1224-1239 `reply_handler` -/
def replyHandler (s : Inv) (token : ActorId) (id : Nat) (payload : Bytes) : Inv :=
  match Scale.response payload with
  | some (service, action, result) =>
    if service = Scale.vft ∧ action = Scale.transferFrom then
      handleValidReply s token id result
    else s
  | none =>
    match Scale.string payload with
    | some _ => handlePanic s token id
    | none => s

/-! ## After the `await` -/

/-- how the second part ends: normally, by `exec::leave` after an error reply, or by a panic -/
inductive Outcome
  | done
  | left
  | panicked (e : InvErr)
  deriving DecidableEq, Repr

/-- `src/invariant_service.rs` 1185-1213 `handle_transfer_result`; `message` is `none` for an error
(error reply, timeout, unreadable payload), otherwise the flag of the response -/
def handleTransferResult (s : Inv) (message : Option Bool) (l : Leg) : Inv × Except InvErr Unit :=
  match s.awaiting.get (l.id, l.token) with
  | some _ =>
    ({ s with awaiting := s.awaiting.erase (l.id, l.token) }, .error .ReplyHandlingFailed)
  | none =>
    (s, if message = some true then .ok () else .error (match l.kind with
      | .deposit => .UnrecoverableTransferError
      | .withdrawal => .RecoverableTransferError))

/-- `src/invariant_service.rs` 968-976 -/
def resumeSingle (s : Inv) (l : Leg) (message : Option Bool) : Inv × Outcome :=
  let r := handleTransferResult s message l
  (r.1, match r.2 with
    | .ok () => .done
    | .error .ReplyHandlingFailed => .left
    | .error e => .panicked e)

/-- `src/invariant_service.rs` 1025-1060 -/
def resumePair (s : Inv) (x y : Leg) (mx my : Option Bool) : Inv × Outcome :=
  let rx := handleTransferResult s mx x
  let ry := handleTransferResult rx.1 my y
  (ry.1,
    if rx.2 = .error .ReplyHandlingFailed ∨ ry.2 = .error .ReplyHandlingFailed then .left
    else match rx.2, ry.2 with
      | .ok _, .ok _ => .done
      | .error _, .error _ => .panicked (match x.kind with
        | .deposit => .UnrecoverableTransferError
        | .withdrawal => .RecoverableTransferError)
      | _, _ => .panicked .RecoverableTransferError)

/-- the runtime: a panic of the second part discards the changes made since it was resumed -/
def settle (s : Inv) (r : Inv × Outcome) : Inv :=
  match r.2 with
  | .panicked _ => s
  | _ => r.1

/-- second part of a waiting command -/
def resume (s : Inv) (legs : List Leg) (messages : List (Option Bool)) : Inv :=
  match legs, messages with
  | [l], [m] => settle s (resumeSingle s l m)
  | [x, y], [mx, my] => settle s (resumePair s x y mx my)
  | _, _ => s

end Async
end Verif
