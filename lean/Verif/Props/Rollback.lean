import Verif.Proofs.Inplace
import Verif.Props.PositionCalls

/-!
# C24: a failed call changes nothing

`Inplace.exec` runs a command the way the program does, writing to the storage as it goes;
`Inplace.handle` is the message handler of the runtime around it.
-/

namespace Verif
open Service Spec

variable {env : Env} {s : Inv} {c : Call} {e : Err}

/-- C24: whatever the command, its arguments and the point of failure, a call that fails leaves the
whole state exactly as before. -/
theorem C24_failed_call (h : (Inplace.exec env c s).1 = .error e) : Inplace.handle env s c = s := by
  unfold Inplace.handle
  split
  · next he => rw [he] at h; cases h
  · rfl

/-- C24: running the commands in place, under the runtime's discarding of failed messages, is the same
as the functional version used in all other theorems: same failures, same resulting state. -/
theorem C24_refinement : Inplace.handle env s c = run env s c ∧
    ((Inplace.exec env c s).1 = .error e ↔ step env s c = .error e) ∧
    ((Inplace.exec env c s).1.isOk = true → step env s c = .ok (Inplace.exec env c s).2) := by
  have h := toM_exec env c s
  unfold Inplace.handle run
  unfold W.toM at h
  cases hx : Inplace.exec env c s with
  | mk r s' =>
    rw [hx] at h
    cases hs : step env s c with
    | ok s2 =>
      rw [hs] at h
      cases r with
      | ok u => cases h; exact ⟨rfl, by simp, fun _ => rfl⟩
      | error e => cases h
    | error e2 =>
      rw [hs] at h
      cases r with
      | ok u => cases h
      | error e => cases h; exact ⟨rfl, by simp, by intro h; cases h⟩

/-- The protection comes from the runtime: the commands themselves do leave partial changes behind when
they fail. Here a route fails its minimum output after the swap has been stored. -/
theorem C24_runtime_needed :
    ∃ (env : Env) (c : Call) (e : Err), (Inplace.exec env c Demo.start).1 = .error e ∧
      (Inplace.exec env c Demo.start).2 ≠ Demo.start := by
  refine ⟨Demo.by_ 2, .swapRoute (10 ^ 6) (10 ^ 9) 0 [⟨Demo.key, true⟩],
    .inv .AmountUnderMinimumAmountOut, by decide +kernel, ?_⟩
  intro h
  have h1 : ((Inplace.exec (Demo.by_ 2) (.swapRoute (10 ^ 6) (10 ^ 9) 0 [⟨Demo.key, true⟩])
      Demo.start).2.balances.get (2, 5)) ≠ Demo.start.balances.get (2, 5) := by decide +kernel
  rw [h] at h1
  exact h1 rfl

/-- a creation that fails for lack of token Y after X was already taken from the account -/
example : (Inplace.exec (Demo.by_ 2) (.createPosition Demo.key (-20) 20 (2 * 10 ^ 28) 0 (10 ^ 25))
      { Demo.start with balances := Demo.start.balances.insert (2, 5) (10 ^ 22) }).1 =
      .error (.inv .FailedToChangeTokenBalance) ∧
    ((Inplace.exec (Demo.by_ 2) (.createPosition Demo.key (-20) 20 (2 * 10 ^ 28) 0 (10 ^ 25))
      { Demo.start with balances := Demo.start.balances.insert (2, 5) (10 ^ 22) }).2.balances.get
        (2, 5)).map (fun v => decide (v < 10 ^ 22)) = some true := by decide +kernel

end Verif
