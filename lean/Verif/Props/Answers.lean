import Verif.Proofs.Ledger
import Verif.Proofs.PoolKeys
import Verif.Proofs.Exit
import Verif.Spec.Queries
import Verif.Props.SwapAccept

/-!
# Property C77: the settings, the protocol fees, the native coin and the owner of a position

For every command: in which cases it is refused and why, and what an accepted one does. The conditions are
complete: nothing else can make the command fail.
-/

set_option exponentiation.threshold 1000

namespace Verif
open Service Spec

variable {env : Env} {s s' : Inv} {t : FeeTier} {key : PoolKey}

private theorem bal_eq' (b : Balances) (a t : ActorId) : bal b a t = balOf b a t := by
  unfold bal balOf
  cases b.get (a, t) <;> rfl

private theorem increase_fails (hr : Reach s) {a t : ActorId} {n : Nat} (h : ¬ bal s.balances a t + n < 2 ^ 256) :
    increaseTokenBalance s.balances t a n = .error (.inv .FailedToChangeTokenBalance) := by
  unfold bal at h
  unfold increaseTokenBalance addC fit
  cases hg : s.balances.get (a, t) with
  | none =>
    rw [hg] at h
    simp only [Nat.zero_add] at h
    simp only [Option.getD_none, Nat.zero_add]
    rw [if_neg (by rintro rfl; exact h (by decide)), if_neg h]
    rfl
  | some v =>
    rw [hg] at h
    have := (reach_balWF hr _ _ hg).2
    simp only [Option.getD_some]
    rw [if_neg (by rintro rfl; exact h this), if_neg h]
    rfl

/-- C77, `change_protocol_fee`: only a foreign caller is refused. -/
theorem C77_protocol_fee (fee : Nat) : changeProtocolFee env s fee =
    if env.caller = s.admin then .ok ({ s with protocolFee := fee }, fee) else .error (.inv .NotAdmin) := by
  unfold changeProtocolFee
  by_cases h : env.caller = s.admin
  · rw [if_pos h, failIf_neg (not_not.2 h.symm)]; rfl
  · rw [if_neg h, failIf_pos (Ne.symm h)]; rfl

/-- C77, `add_fee_tier`: the spacing must be 1 to 100, the fee below 100%, the caller the admin and the tier new;
the tier is then the last of the list. -/
theorem C77_add_tier : addFeeTier env s t =
    if t.tickSpacing < 1 ∨ 100 < t.tickSpacing then .error (.inv .InvalidTickSpacing)
    else if 10 ^ 12 ≤ t.fee then .error (.inv .InvalidFee)
    else if env.caller ≠ s.admin then .error (.inv .NotAdmin)
    else if t ∈ s.feeTiers then .error (.inv .FeeTierAlreadyExist)
    else .ok ({ s with feeTiers := s.feeTiers ++ [t] }, t) := by
  unfold addFeeTier
  by_cases h1 : t.tickSpacing = 0 ∨ t.tickSpacing > 100
  · rw [failIf_pos h1, if_pos (by omega)]; rfl
  rw [failIf_neg h1, if_neg (by omega), ok_bind]
  by_cases h2 : t.fee ≥ pctOne
  · rw [failIf_pos h2, if_pos (show 10 ^ 12 ≤ t.fee from h2)]; rfl
  rw [failIf_neg h2, if_neg (show ¬ 10 ^ 12 ≤ t.fee from h2), ok_bind]
  by_cases h3 : env.caller ≠ s.admin
  · rw [failIf_pos h3.symm, if_pos h3]; rfl
  rw [failIf_neg (fun hc => h3 hc.symm), if_neg h3, ok_bind, feeTiersAdd]
  by_cases h4 : t ∈ s.feeTiers
  · rw [if_pos h4, if_pos h4]; rfl
  · rw [if_neg h4, if_neg h4]; rfl

/-- C77, `remove_fee_tier`: the caller must be the admin and the tier listed; afterwards it is not listed and all
others are, in the same order. -/
theorem C77_remove_tier (hr : Reach s) : removeFeeTier env s t =
    if env.caller ≠ s.admin then .error (.inv .NotAdmin)
    else if t ∉ s.feeTiers then .error (.inv .FeeTierNotFound)
    else .ok ({ s with feeTiers := s.feeTiers.filter (· ≠ t) }, t) := by
  unfold removeFeeTier
  by_cases h3 : env.caller ≠ s.admin
  · rw [failIf_pos h3.symm, if_pos h3]; rfl
  rw [failIf_neg (fun hc => h3 hc.symm), if_neg h3, ok_bind, feeTiersRemove]
  by_cases h4 : t ∈ s.feeTiers
  · rw [if_pos h4, if_neg (not_not.2 h4), (reach_tiers hr).nodup.erase_eq_filter]
    have : (fun x : FeeTier => x != t) = fun x => decide (x ≠ t) := by
      funext x
      by_cases hx : x = t <;> simp [hx]
    rw [this]
    rfl
  · rw [if_neg h4, if_pos h4]; rfl

/-- C77, `change_fee_receiver`: the caller must be the admin and the pool stored; only the receiver changes. The
protocol fees not yet collected go to the new receiver. -/
theorem C77_receiver (a : ActorId) : changeFeeReceiver env s key a =
    if env.caller ≠ s.admin then .error (.inv .NotAdmin)
    else match s.pools.get key with
      | none => .error (.inv .PoolNotFound)
      | some pool => .ok { s with pools := s.pools.insert key { pool with feeReceiver := a } } := by
  unfold changeFeeReceiver
  by_cases h3 : env.caller ≠ s.admin
  · rw [failIf_pos h3.symm, if_pos h3]; rfl
  rw [failIf_neg (fun hc => h3 hc.symm), if_neg h3, ok_bind]
  cases h : s.pools.get key <;> simp [poolsGet, poolsUpdate, h, okOr] <;> rfl

/-- C77, `withdraw_protocol_fee`: refused without such a pool, for a caller other than the receiver, and if a
balance of the receiver would not fit 256 bits. (What an accepted call does: `C40_withdraw`.) -/
theorem C77_collect (hr : Reach s) : failure (withdrawProtocolFee env s key) =
    match s.pools.get key with
    | none => some (.inv .PoolNotFound)
    | some pool =>
      if env.caller ≠ pool.feeReceiver then some (.inv .NotFeeReceiver)
      else if bal s.balances env.caller key.tokenX + pool.feeProtocolTokenX < 2 ^ 256 ∧
        bal s.balances env.caller key.tokenY + pool.feeProtocolTokenY < 2 ^ 256 then none
      else some (.inv .FailedToChangeTokenBalance) := by
  unfold withdrawProtocolFee
  cases h : s.pools.get key with
  | none => simp only [poolsGet, h, okOr]; rfl
  | some pool =>
    have hne : key.tokenX ≠ key.tokenY := ne_of_lt ((reach_tiers hr).pools key (by rw [h]; rfl)).2
    simp only [poolsGet, poolsUpdate, h, okOr, ok_bind]
    by_cases h1 : env.caller ≠ pool.feeReceiver
    · rw [failIf_pos h1.symm, if_pos h1]; rfl
    rw [failIf_neg (fun hc => h1 hc.symm), if_neg h1, ok_bind]
    simp only [Pool.withdrawProtocolFee]
    by_cases hx : bal s.balances env.caller key.tokenX + pool.feeProtocolTokenX < 2 ^ 256
    swap
    · rw [if_neg (fun hc => hx hc.1), increase_fails hr hx]; rfl
    obtain ⟨b, hb⟩ := increase_succeeds (b := s.balances) (t := key.tokenX) (who := env.caller)
      (n := pool.feeProtocolTokenX) (by rw [← bal_eq']; exact hx)
    have hr' : Reach { s with balances := b } := Reach.transfers (aw := s.awaiting) hr (balWF_inc (reach_balWF hr) hb)
    have hy' : bal b env.caller key.tokenY = bal s.balances env.caller key.tokenY := by
      rw [bal_eq', bal_eq', increase_bal hb, if_neg (fun hc => hne hc.2.symm)]; rfl
    rw [hb]
    simp only [pure_bind, ok_bind]
    by_cases hy : bal s.balances env.caller key.tokenY + pool.feeProtocolTokenY < 2 ^ 256
    swap
    · rw [if_neg (fun hc => hy hc.2), increase_fails (s := { s with balances := b }) hr' (by rw [hy']; exact hy)]; rfl
    obtain ⟨b', hb'⟩ := increase_succeeds (b := b) (t := key.tokenY) (who := env.caller)
      (n := pool.feeProtocolTokenY) (by rw [← bal_eq', hy']; exact hy)
    rw [if_pos ⟨hx, hy⟩, hb']
    rfl

/-! ### the native coin -/

/-- C77, `deposit_vara`: refused only if the balance would not fit 256 bits. -/
theorem C77_deposit_vara (hr : Reach s) : failure (depositVara env s) =
    if bal s.balances env.caller VARA + env.value < 2 ^ 256 then none
    else some (.inv .FailedToChangeTokenBalance) := by
  unfold depositVara
  by_cases hx : bal s.balances env.caller VARA + env.value < 2 ^ 256
  · obtain ⟨b, hb⟩ := increase_succeeds (b := s.balances) (t := VARA) (who := env.caller)
      (n := env.value) (by rw [← bal_eq']; exact hx)
    rw [if_pos hx, hb]; rfl
  · rw [if_neg hx, increase_fails hr hx]; rfl

/-- C77, `withdraw_vara` of a given amount: refused for 0, for an empty balance, for more than the balance, and
for what the runtime cannot send (128 bits). -/
theorem C77_withdraw_vara (hr : Reach s) (v : Nat) : failure (withdrawVara env s (some v)) =
    if v = 0 then some (.inv .AmountIsZero)
    else if bal s.balances env.caller VARA = 0 then some (.inv .NoBalanceForTheToken)
    else if bal s.balances env.caller VARA < v then some (.inv .FailedToChangeTokenBalance)
    else if v < 2 ^ 128 then none
    else some .panic := by
  unfold withdrawVara
  dsimp only
  by_cases h0 : v = 0
  · rw [if_pos h0, failIf_pos h0]; rfl
  rw [if_neg h0, failIf_neg h0, ok_bind]
  obtain ⟨n, rfl⟩ := Nat.exists_eq_succ_of_ne_zero h0
  unfold decreaseTokenBalance bal
  cases hg : s.balances.get (env.caller, VARA) with
  | none => simp only [okOr]; rfl
  | some w =>
    have hw := reach_balWF hr _ _ hg
    simp only [okOr, ok_bind]
    rw [if_neg hw.1]
    by_cases h1 : w < n + 1
    · rw [if_pos h1, if_pos (by omega)]
      simp only [subC]
      rw [if_neg (by omega)]
      rfl
    rw [if_neg h1]
    by_cases h2 : n + 1 ≠ w
    · rw [if_pos h2]
      simp only [subC]
      rw [if_pos (by omega)]
      simp only [ok_bind, pure_bind, fit]
      split <;> rfl
    · rw [if_neg h2]
      have : n + 1 = w := not_not.1 h2
      subst this
      simp only [pure_bind, fit]
      split <;> rfl

/-- C77, `withdraw_vara` of everything: refused only if the runtime cannot send the balance (128 bits); an empty
balance is not refused. -/
theorem C77_withdraw_all_vara : failure (withdrawVara env s none) =
    if bal s.balances env.caller VARA < 2 ^ 128 then none else some .panic := by
  unfold withdrawVara decreaseTokenBalance bal
  dsimp only
  cases hg : s.balances.get (env.caller, VARA) with
  | none => rfl
  | some w =>
    simp only [okOr, ok_bind, pure_bind]
    simp only [pure, Except.pure, ok_bind, fit]
    split <;> rfl

/-! ### the owner of a position -/

/-- C77, `transfer_position`: refused exactly if the caller has no position of this index. Otherwise the position
is the last of the receiver's, the caller's last position takes the free place, and nothing else changes. -/
theorem C77_transfer (hr : Reach32 s) {L : Lists} (hL : Holds s L) (i : Nat) (b : ActorId) :
    (∀ p, (L env.caller)[i]? = some p → ∃ s', transferPosition env s i b = .ok s' ∧
      s' = { s with positions := s'.positions } ∧
      Holds s' ((L.put env.caller (swapRemove (L env.caller) i)).put b
        ((L.put env.caller (swapRemove (L env.caller) i)) b ++ [p]))) ∧
    ((L env.caller)[i]? = none → transferPosition env s i b = .error (.inv .PositionNotFound)) := by
  have hf := (reach32_reach s hr).2
  have hR : PosRepr s.positions L := hL
  have hlen : ∀ a, (L a).length + 1 < 2 ^ 32 := fun a => by rw [← (hL a).1]; exact hf a
  obtain ⟨h1, h2⟩ := posRepr_remove hR (a := env.caller) (by have := hlen env.caller; omega) i
  unfold transferPosition Positions.transfer
  refine ⟨fun p hp => ?_, fun hn => ?_⟩
  · obtain ⟨ps, e, hps⟩ := h1 p hp
    rw [e]
    refine ⟨{ s with positions := ps.add b p }, rfl, rfl, ?_⟩
    have hne : L env.caller ≠ [] := by rintro e; rw [e] at hp; cases hp
    have hl := swapRemove_length i hne
    refine posRepr_add hps ?_ p
    by_cases hb : b = env.caller
    · subst hb
      rw [put_same]
      have := hlen env.caller
      omega
    · rw [put_other _ _ hb]
      exact hlen b
  · rw [h2 hn]; rfl

/-- every answer once: foreign callers, bad tiers, missing pools, empty balances; the receiver collects what a swap
left, and a position changes its owner -/
example : failure (changeProtocolFee (Demo.by_ 2) Demo.traded 5) = some (.inv .NotAdmin) ∧
    failure (addFeeTier (Demo.by_ 2) Demo.traded ⟨1, 101⟩) = some (.inv .InvalidTickSpacing) ∧
    failure (addFeeTier (Demo.by_ 2) Demo.traded ⟨10 ^ 12, 100⟩) = some (.inv .InvalidFee) ∧
    failure (addFeeTier (Demo.by_ 2) Demo.traded ⟨10 ^ 12 - 1, 100⟩) = some (.inv .NotAdmin) ∧
    failure (addFeeTier (Demo.by_ 1) Demo.traded ⟨10 ^ 12 - 1, 100⟩) = none ∧
    failure (addFeeTier (Demo.by_ 1) Demo.traded Demo.tier) = some (.inv .FeeTierAlreadyExist) ∧
    failure (removeFeeTier (Demo.by_ 1) Demo.traded ⟨1, 1⟩) = some (.inv .FeeTierNotFound) ∧
    (removeFeeTier (Demo.by_ 1) Demo.traded Demo.tier).toOption.map (·.1.feeTiers) = some [Demo.tier2] ∧
    failure (changeFeeReceiver (Demo.by_ 1) Demo.traded ⟨5, 9, Demo.tier⟩ 3) = some (.inv .PoolNotFound) ∧
    failure (withdrawProtocolFee (Demo.by_ 2) Demo.traded Demo.key) = some (.inv .NotFeeReceiver) ∧
    (withdrawProtocolFee (Demo.by_ 1) Demo.traded Demo.key).toOption.map (·.2) = some (2199, 0) ∧
    failure (withdrawVara (Demo.by_ 2) Demo.traded (some 0)) = some (.inv .AmountIsZero) ∧
    failure (withdrawVara (Demo.by_ 2) Demo.traded (some 1)) = some (.inv .NoBalanceForTheToken) ∧
    failure (withdrawVara (Demo.by_ 2) Demo.traded none) = none ∧
    failure (transferPosition (Demo.by_ 2) Demo.traded 1 3) = some (.inv .PositionNotFound) ∧
    (transferPosition (Demo.by_ 3) Demo.traded 0 2).toOption.map
      (fun s => (s.positions.getLength 2, s.positions.getLength 3, (s.positions.map.get (3, 0)).map (·.poolKey))) =
      some (2, 1, some Demo.key2) := by
  decide +kernel

end Verif
