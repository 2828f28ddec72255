import Verif.Tests.Contract
import Verif.Spec.World

/-!
# The repository's own tests of deposits and withdrawals (`src/e2e/gtest/balances.rs`, `balances_vara.rs`), on the model

Same convention as `Verif.Tests.Clamm`. Whether the token contract does a requested transfer (`true`) or panics (`false`:
balance or allowance too low, or `set_transfer_fail`) is part of the scenario.
-/

namespace Verif.Tests.Balances
open Verif.Tests.Clamm Verif.Tests.Contract Verif.Async

def sendEnv (id : Nat) : SendEnv := ⟨99, 10 ^ 12, id, true, true⟩

/-- the reply of a token contract: `("Vft", "TransferFrom", true)` or the text of a panic -/
def payload : Bool → Bytes
  | true => Spec.response 1
  | false => [20, 112, 97, 110, 105, 99]

/-- one asynchronous command with the answers of the token contracts -/
def tx (u : ActorId) (c : ACall) (answers : List Bool) (s : Inv) : Inv × Except InvErr Unit :=
  match Async.start (env u) (sendEnv 7) s c with
  | .error (.inv e) => (s, .error e)
  | .error _ => (s, .error .TransferError)
  | .ok (s', legs) =>
    let s'' := (legs.zip answers).foldl (fun s e => replyHandler s e.1.token e.1.id (payload e.2)) s'
    let r := (match legs, answers with
      | [l], [a] => resumeSingle s'' l (if a then some true else none)
      | [x, y], [a, b] => resumePair s'' x y (if a then some true else none) (if b then some true else none)
      | _, _ => (s'', .done))
    (settle s'' r, match r.2 with | .panicked e => .error e | .left => .error .ReplyHandlingFailed | .done => .ok ())

/-- the balances of a user, ordered by token -/
def balances (s : Inv) (u : ActorId) : List (ActorId × Nat) :=
  [VARA, X, Y].filterMap (fun t => ((Service.getUserBalances s u).lookup t).map (fun n => (t, n)))

/-- the balances of a user and the result of each command of a scenario -/
def play (u : ActorId) : Inv → List (ACall × List Bool) → List (Except InvErr Unit × List (ActorId × Nat))
  | _, [] => []
  | s, (c, a) :: l => let r := tx u c a s; (r.2, balances r.1 u) :: play u r.1 l

def new : Inv := Inv.init ADMIN (pc 1 2)
def have' (x y : Nat) : Inv :=
  { new with balances := ([((U2, X), x), ((U2, Y), y)].filter (·.2 ≠ 0)).foldl (fun b e => b.insert e.1 e.2) ∅ }

-- test_single_deposit_and_withdraw
example : play U2 new [
    (.depositSingle X 500, [true]), (.withdrawSingle X (some 500), [true]),
    (.depositSingle X 500, [true]), (.withdrawSingle X none, [true]),
    (.withdrawSingle X none, []),
    (.depositSingle X 250, [true]), (.depositSingle X 250, [true]),
    (.withdrawSingle X (some 250), [true]), (.withdrawSingle X (some 250), [true])] =
    [(.ok (), [(X, 500)]), (.ok (), []), (.ok (), [(X, 500)]), (.ok (), []), (.ok (), []),
     (.ok (), [(X, 250)]), (.ok (), [(X, 500)]), (.ok (), [(X, 250)]), (.ok (), [])] := by decide +kernel

-- test_single_deposit_failures
example : play U2 new [(.depositSingle X 1, [false])] = [(.error .UnrecoverableTransferError, [])] ∧
    play U2 new [(.depositSingle X maxU256, [true]), (.depositSingle X 1, [])] =
      [(.ok (), [(X, maxU256)]), (.error .FailedToChangeTokenBalance, [(X, maxU256)])] := by decide +kernel

-- test_single_withdraw_failures
example : play U2 new [
    (.withdrawSingle X (some 500), []), (.withdrawSingle X (some 0), []), (.depositSingle X 500, [true]),
    (.withdrawSingle X (some 501), []), (.withdrawSingle X (some 500), [false])] =
    [(.error .NoBalanceForTheToken, []), (.error .AmountIsZero, []), (.ok (), [(X, 500)]),
     (.error .FailedToChangeTokenBalance, [(X, 500)]), (.error .RecoverableTransferError, [(X, 500)])] := by decide +kernel

-- test_token_pair_deposit_and_withdraw
example : play U2 new [
    (.depositPair X 500 Y 500, [true, true]), (.withdrawPair X (some 500) Y (some 500), [true, true]),
    (.depositPair X 500 Y 500, [true, true]), (.withdrawPair X none Y none, [true, true]),
    (.depositSingle X 500, [true]), (.withdrawPair X none Y none, [true]),
    (.depositSingle Y 500, [true]), (.withdrawPair X none Y none, [true])] =
    [(.ok (), [(X, 500), (Y, 500)]), (.ok (), []), (.ok (), [(X, 500), (Y, 500)]), (.ok (), []),
     (.ok (), [(X, 500)]), (.ok (), []), (.ok (), [(Y, 500)]), (.ok (), [])] := by decide +kernel

-- test_token_pair_deposit_failures
example : play U2 new [(.depositPair X 500 Y 500, [false, false])] = [(.error .UnrecoverableTransferError, [])] := by decide +kernel
example : play U2 new [(.depositPair X 500 Y 500, [true, false])] = [(.error .RecoverableTransferError, [(X, 500)])] := by decide +kernel
example : play U2 new [(.depositPair X 500 Y 500, [false, true])] = [(.error .RecoverableTransferError, [(Y, 500)])] := by decide +kernel
example : play U2 (have' maxU256 0) [(.depositPair X 1 Y 0, [])] =
      [(.error .FailedToChangeTokenBalance, [(X, maxU256)])] := by decide +kernel
example : (play U2 (have' maxU256 maxU256)
      [(.depositPair X 1 Y 0, []), (.depositPair X 0 Y 1, []), (.depositPair X 1 Y 1, []), (.depositPair X 1 X 1, [])]).map
      (·.1) = [.error .FailedToChangeTokenBalance, .error .FailedToChangeTokenBalance, .error .FailedToChangeTokenBalance,
        .error .TokensAreSame] := by decide +kernel

/-- the result of a failed withdrawal of a pair by a user with 500 of each -/
def wd (x y : Option Nat) (a : List Bool) : List (Except InvErr Unit × List (ActorId × Nat)) :=
  play U2 (have' 500 500) [(.withdrawPair X x Y y, a)]

-- test_token_pair_withdraw_failures
example : (play U2 new [(.withdrawPair X (some 1) Y none, []), (.withdrawPair X none Y (some 1), []),
      (.withdrawPair X (some 1) Y (some 1), [])]) =
      [(.error .NoBalanceForTheToken, []), (.error .NoBalanceForTheToken, []), (.error .NoBalanceForTheToken, [])] := by decide +kernel
example : wd none none [true, false] = [(.error .RecoverableTransferError, [(Y, 500)])] := by decide +kernel
example : wd (some 500) none [true, false] = [(.error .RecoverableTransferError, [(Y, 500)])] := by decide +kernel
example : wd none (some 1) [true, false] = [(.error .RecoverableTransferError, [(Y, 500)])] := by decide +kernel
example : wd (some 500) (some 1) [true, false] = [(.error .RecoverableTransferError, [(Y, 500)])] := by decide +kernel
example : wd none none [false, true] = [(.error .RecoverableTransferError, [(X, 500)])] := by decide +kernel
example : wd (some 1) none [false, true] = [(.error .RecoverableTransferError, [(X, 500)])] := by decide +kernel
example : wd none (some 500) [false, true] = [(.error .RecoverableTransferError, [(X, 500)])] := by decide +kernel
example : wd (some 1) (some 500) [false, true] = [(.error .RecoverableTransferError, [(X, 500)])] := by decide +kernel

example : wd none none [false, false] = [(.error .RecoverableTransferError, [(X, 500), (Y, 500)])] := by decide +kernel
example : wd (some 1) none [false, false] = [(.error .RecoverableTransferError, [(X, 500), (Y, 500)])] := by decide +kernel
example : wd none (some 1) [false, false] = [(.error .RecoverableTransferError, [(X, 500), (Y, 500)])] := by decide +kernel
example : wd (some 1) (some 1) [false, false] = [(.error .RecoverableTransferError, [(X, 500), (Y, 500)])] := by decide +kernel
example : wd (some 501) none [] = [(.error .FailedToChangeTokenBalance, [(X, 500), (Y, 500)])] := by decide +kernel
example : wd none (some 501) [] = [(.error .FailedToChangeTokenBalance, [(X, 500), (Y, 500)])] := by decide +kernel
example : wd (some 501) (some 501) [] = [(.error .FailedToChangeTokenBalance, [(X, 500), (Y, 500)])] := by decide +kernel
example : play U2 (have' 500 500) [(.withdrawPair X (some 1) X (some 1), [])] = [(.error .TokensAreSame, [(X, 500), (Y, 500)])] := by decide +kernel

/-! ## `balances_vara.rs` -/

def coin (n : Nat) : Env := { env U1 with value := n }
def deposited : M Inv := (Service.depositVara (coin 1000000000000) (Inv.init ADMIN 0)).map (·.1)

-- test_vara_deposit, test_vara_withdraw
example : (Service.depositVara (coin 1000000000000) (Inv.init ADMIN 0)).map (fun r =>
      (r.2, Service.getUserBalances r.1 U1)) = .ok (1000000000000, [(VARA, 1000000000000)]) ∧
    (deposited >>= fun s => Service.withdrawVara (env U1) s (some 1000000000000)).map (fun r =>
      (r.2, Service.getUserBalances r.1 U1)) = .ok (1000000000000, []) := by decide +kernel

-- test_vara_withdraw_failure
example : fails (Service.withdrawVara (env U1) (Inv.init ADMIN 0) (some 1)) (.inv .NoBalanceForTheToken) = true ∧
    fails (deposited >>= fun s => Service.withdrawVara (env U1) s (some 1000000000001))
      (.inv .FailedToChangeTokenBalance) = true := by decide +kernel

-- test_vara_deposit_and_withdraw_with_normal_entrypoint_failures
example : play U1 (Inv.init ADMIN 0) [(.depositSingle VARA 1000000000000, []),
      (.depositPair VARA 1000000000000 X 1000000000000, [])] =
      [(.error .InvalidVaraDepositAttempt, []), (.error .InvalidVaraDepositAttempt, [])] ∧
    deposited.map (fun s => (play U1 s [(.withdrawSingle VARA (some 1000000000000), []),
      (.withdrawPair VARA (some 1000000000000) X none, [])]).map (fun r => (r.1.toBool, r.2))) =
      .ok [(false, [(VARA, 1000000000000)]), (false, [(VARA, 1000000000000)])] ∧
    deposited.map (fun s => (play U1 s [(.withdrawSingle VARA (some 1000000000000), []),
      (.withdrawPair VARA (some 1000000000000) X none, [])]).map (fun r =>
        match r.1 with | .error e => e == .InvalidVaraWithdrawAttempt | .ok _ => false)) = .ok [true, true] := by
  decide +kernel
example : (deposited >>= fun s => Service.withdrawVara (env U1)
      (tx U1 (.withdrawPair VARA (some 1000000000000) X none) [] (tx U1 (.withdrawSingle VARA (some 1000000000000)) [] s).1).1
      (some 1000000000000)).map (fun r => (r.2, Service.getUserBalances r.1 U1)) = .ok (1000000000000, []) := by
  decide +kernel

end Verif.Tests.Balances
