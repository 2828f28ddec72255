import Verif.Proofs.Whole

/-!
# Property C102: the whole system holds what it owes

C37 (the pools), C45 (the transfers of tokens) and C83 (the native coin) put together. False of the code where
swaps may end exactly at an initialised tick (`C102_negation`, with a pool of the native coin).
-/

namespace Verif
open Service Spec Async

variable {x : Coins} {n : Nat} {t : ActorId}

/-- the token contract is honest and the event is clear -/
def Fair (t : ActorId) (x : Coins) (e : CoinEvent) : Prop := HonestEvent t x e ∧ ClearEvent x e

/-- C102 for a token, for histories of at most 5·10^8 calls in which no swap ends near an
initialised tick (`Near`) (full statement: for all histories; refuted by `C102_negation`): whatever calls are
made, and however replies are delayed, lost or repeated, an honest token contract holds for the program at least
the balances of all accounts, the protocol fees, the payouts of all positions and everything owed because of
transfers under way. The other token contracts may do anything. -/
theorem C102_tokens_partial (h : Whole (Fair t) x n) (hn : n ≤ 5 * 10 ^ 8) (ht : t ≠ 0) (env : Env) :
    totalBal x.world.inv t + totalProto x.world.inv t + totalDue env x.world.inv t + Spec.owed x.world t ≤
      x.world.held t := by
  obtain ⟨g, m, hm, hg⟩ := Whole.ghost (fun _ _ h => h.2) h hn
  have h1 := C37_clear_partial hg.books (by omega) env t
  have h2 := honest_conserve (Whole.honestHist (fun _ _ h => h.1) h)
  have h3 := hg.tokens t ht
  omega

/-- C102 for the native coin, also when pools trade it (same histories; no token contract need be honest): the
coins on the account of the program are enough for the balances, the protocol fees and the payouts of all
positions, besides those that did not come with `deposit_vara`. -/
theorem C102_coin_partial (h : Whole ClearEvent x n) (hn : n ≤ 5 * 10 ^ 8) (env : Env) :
    totalBal x.world.inv 0 + totalProto x.world.inv 0 + totalDue env x.world.inv 0 + x.stray ≤ x.held := by
  obtain ⟨g, m, hm, hg⟩ := Whole.ghost (fun _ _ h => h) h hn
  have h1 := C37_clear_partial hg.books (by omega) env 0
  have h2 : x.held = g 0 + x.stray := hg.coin
  omega

/-- C102: in these histories everybody can take out all their coins at any time. -/
theorem C102_withdraw_partial (h : Whole ClearEvent x n) (hn : n ≤ 5 * 10 ^ 8) (hm : x.held < 2 ^ 128) {env : Env}
    (hv : env.value = 0) :
    bal (x.step (.world (.call env (.withdrawVara none)))).world.inv.balances env.caller 0 = 0 ∧
    (x.step (.world (.call env (.withdrawVara none)))).held + bal x.world.inv.balances env.caller 0 = x.held := by
  have h1 := C102_coin_partial h hn env
  have h2 : total x.world.inv.balances VARA = totalBal x.world.inv 0 := rfl
  exact takes_all (by omega) hm hv

/-- C102: and every transfer to a user that has been requested and not yet answered can be made by the token
contract, all of them one after the other. -/
theorem C102_requests_partial (h : Whole (Fair t) x n) (hn : n ≤ 5 * 10 ^ 8) (ht : t ≠ 0) :
    (x.world.msgs.sum fun _ m => if m.leg.token = t ∧ m.leg.kind = .withdrawal ∧ m.answer = none then m.leg.amount
      else 0) ≤ x.world.held t := by
  have h1 := C102_tokens_partial h hn ht ⟨0, 0, 0, 0⟩
  refine le_trans (Map.sum_le_sum fun id m _ => ?_) (le_trans (Nat.le_add_left _ _) h1)
  by_cases hc : m.leg.token = t ∧ m.leg.kind = .withdrawal ∧ m.answer = none
  · rw [if_pos hc, if_pos hc.1]
    unfold due
    rw [hc.2.1, hc.2.2]
  · rw [if_neg hc]
    exact Nat.zero_le _

namespace WholeDemo

def tier : FeeTier := ⟨0, 1⟩
/-- a pool of the native coin and token 7 -/
def key : PoolKey := ⟨0, 7, tier⟩
def by_ (a : ActorId) (v : Nat) : Env := ⟨a, 1000, 5, v⟩

def fresh : Coins := ⟨World.init 9 1 0 (fun _ => 0), 0, 0⟩

/-- account 2 deposits a million coins and a billion of token 7, account 3 a billion coins; account 2 makes the
pool and a position in the ticks 0 to 10 -/
def begin_ : List CoinEvent :=
  [.world (.call (by_ 2 (10 ^ 6)) .depositVara),
   .world (.start (by_ 2 0) (10 ^ 12) true true (.depositSingle 7 (10 ^ 9))), .world (.answer 0 yes (10 ^ 9)),
   .world (.deliver 0 true), .world (.resume 0 [some true]),
   .world (.call (by_ 3 (10 ^ 9)) .depositVara),
   .world (.call (by_ 1 0) (.addFeeTier tier)), .world (.call (by_ 2 0) (.createPool 0 7 tier (10 ^ 24) 0)),
   .world (.call (by_ 2 0) (.createPosition key 0 10 (10 ^ 14) 0 (10 ^ 25)))]

/-- a swap within the range, the removal of the position and a withdrawal of token 7 that is not yet answered -/
def well : List CoinEvent := begin_ ++
  [.world (.call (by_ 3 0) (.swap key true 1 true MIN_SQRT_PRICE)),
   .world (.call (by_ 2 0) (.swap key false 250000 true Exploit.p10)),
   .world (.start (by_ 2 0) (10 ^ 12) true true (.withdrawSingle 7 (some (10 ^ 8))))]

/-- the swaps of `Exploit`: account 2 buys exactly up to tick 10, then more where nothing is offered, removes the
position and takes out all its coins -/
def badly : List CoinEvent := begin_ ++
  [.world (.call (by_ 2 0) (.swap key false 500101 true Exploit.p10)),
   .world (.call (by_ 2 0) (.swap key false (10 ^ 8) true (2 * 10 ^ 24))),
   .world (.call (by_ 2 0) (.removePosition 0)),
   .world (.call (by_ 2 0) (.withdrawVara none))]

/-- decides `ClearEvent`, not for routes -/
def clearB (x : Coins) : CoinEvent → Bool
  | .world (.call env c) =>
    match c with
    | .swap k d a b l =>
      match Service.swap env x.world.inv k d a b l with
      | .ok r => x.world.inv.ticks.entries.all (fun e => decide (e.1.1 = k →
          ¬ (r.2.targetSqrtPrice ≤ e.2.sqrtPrice ∧ e.2.sqrtPrice ≤ r.2.targetSqrtPrice + 65536)))
      | .error _ => true
    | .swapRoute .. => false
    | c =>
      match step env x.world.inv c with
      | .ok s => s.positions.length.entries.all (fun e => decide (e.2 + 1 < 2 ^ 32))
      | .error _ => true
  | _ => true

def honestB' (t : ActorId) (x : Coins) : CoinEvent → Bool
  | .world e => honestB t x.world e
  | .gift _ => true

def all (f : Coins → CoinEvent → Bool) : Coins → List CoinEvent → Bool
  | _, [] => true
  | x, e :: l => f x e && all f (x.step e) l

theorem clear_of {e : CoinEvent} (h : clearB x e = true) : ClearEvent x e := by
  cases e with
  | gift n => trivial
  | world e =>
    cases e with
    | call env c =>
      have few : (match step env x.world.inv c with
          | .ok s => s.positions.length.entries.all (fun e => decide (e.2 + 1 < 2 ^ 32))
          | .error _ => true) = true → ∀ s', step env x.world.inv c = .ok s' → FewPositions s' := by
        intro h s' hs
        rw [hs] at h
        exact few_of_all h
      cases c with
      | swap k d a b l =>
        intro r hr
        simp only [clearB, hr] at h
        exact not_near_of_all h
      | swapRoute a e sl l => cases h
      | _ => exact few h
    | _ => trivial

theorem honest_of' {e : CoinEvent} (h : honestB' t x e = true) : HonestEvent t x e := by
  cases e with
  | gift n => trivial
  | world e => exact honest_of h

theorem hist {ok : Coins → CoinEvent → Prop} {f : Coins → CoinEvent → Bool} (hf : ∀ x e, f x e = true → ok x e) :
    ∀ (l : List CoinEvent) {x : Coins} {n : Nat}, Whole ok x n → all f x l = true →
      ∃ m, m = n + (l.map calls).sum ∧ Whole ok (x.steps l) m := by
  intro l
  induction l with
  | nil => exact fun h _ => ⟨_, rfl, h⟩
  | cons e l ih =>
    intro x n h ha
    simp only [all, Bool.and_eq_true] at ha
    obtain ⟨m, h1, h2⟩ := ih (.step e h (hf _ _ ha.1)) ha.2
    refine ⟨m, ?_, h2⟩
    rw [h1, List.map_cons, List.sum_cons, Nat.add_assoc]

theorem well_hist : Whole (Fair 7) (fresh.steps well) 7 := by
  obtain ⟨m, h1, h2⟩ := hist (ok := Fair 7) (f := fun x e => honestB' 7 x e && clearB x e) (fun x e h => by
      simp only [Bool.and_eq_true] at h
      exact ⟨honest_of' h.1, clear_of h.2⟩) well (x := fresh) (n := 0) (.init 9 1 0 (fun _ => 0) 0) (by decide +kernel)
  have e : 0 + (well.map calls).sum = 7 := by decide +kernel
  rw [h1, e] at h2
  exact h2

theorem well_owed : Spec.owed (fresh.steps well).world 7 = 10 ^ 8 := by decide +kernel

theorem well_held : (fresh.steps well).world.held 7 = 10 ^ 9 := by decide +kernel

theorem well_bal : totalBal (fresh.steps well).world.inv 7 = 899750000 ∧
    10 ^ 9 < totalBal (fresh.steps well).world.inv 0 := by decide +kernel

theorem well_coins : (fresh.steps well).held = 1001000000 := by decide +kernel

end WholeDemo

/-- Of the billion of token 7, 10^8 are on their way back to account 2 and the rest is in balances or in the
position; of the 1001000000 coins the balances have more than 10^9, the position the rest. -/
example : Spec.owed (WholeDemo.fresh.steps WholeDemo.well).world 7 = 10 ^ 8 ∧
    totalBal (WholeDemo.fresh.steps WholeDemo.well).world.inv 7 = 899750000 ∧
    (WholeDemo.fresh.steps WholeDemo.well).world.held 7 = 10 ^ 9 ∧
    (WholeDemo.fresh.steps WholeDemo.well).held = 1001000000 ∧
    10 ^ 9 < totalBal (WholeDemo.fresh.steps WholeDemo.well).world.inv 0 ∧
    totalBal (WholeDemo.fresh.steps WholeDemo.well).world.inv 7 +
      totalProto (WholeDemo.fresh.steps WholeDemo.well).world.inv 7 +
      totalDue (WholeDemo.by_ 1 0) (WholeDemo.fresh.steps WholeDemo.well).world.inv 7 + 10 ^ 8 ≤ 10 ^ 9 := by
  have h := C102_tokens_partial WholeDemo.well_hist (by norm_num) (by decide) (WholeDemo.by_ 1 0)
  have h1 := WholeDemo.well_owed
  have h2 := WholeDemo.well_held
  have h3 := WholeDemo.well_bal
  have h4 := WholeDemo.well_coins
  generalize WholeDemo.fresh.steps WholeDemo.well = x at *
  exact ⟨h1, h3.1, h2, h4, h3.2, by omega⟩

/-- C102 is false of the code: in a pool of the native coin a swap ends exactly at a tick, and after a few calls by
account 2 the program holds fewer coins than account 3 has in its balance. Its withdrawal cannot be paid, and fails. -/
theorem C102_negation : ∃ x n, Whole (HonestEvent 7) x n ∧ n ≤ 9 ∧ bal x.world.inv.balances 3 0 = 10 ^ 9 ∧
    x.held < 10 ^ 9 ∧ x.step (.world (.call (WholeDemo.by_ 3 0) (.withdrawVara none))) = x := by
  obtain ⟨m, h1, h2⟩ := WholeDemo.hist (f := WholeDemo.honestB' 7) (fun x e h => WholeDemo.honest_of' h)
    WholeDemo.badly (x := WholeDemo.fresh) (n := 0) (.init 9 1 0 (fun _ => 0) 0) (by decide +kernel)
  have e : 0 + (WholeDemo.badly.map calls).sum = 9 := by decide +kernel
  have h3 : bal (WholeDemo.fresh.steps WholeDemo.badly).world.inv.balances 3 0 = 10 ^ 9 := by
    decide +kernel
  have h4 : (WholeDemo.fresh.steps WholeDemo.badly).held < 10 ^ 9 := by decide +kernel
  have h5 : sentBack (WholeDemo.by_ 3 0) (WholeDemo.fresh.steps WholeDemo.badly).world.inv
      (.withdrawVara none) = 10 ^ 9 := by decide +kernel
  refine ⟨_, m, h2, by omega, h3, h4, ?_⟩
  generalize WholeDemo.fresh.steps WholeDemo.badly = x at *
  simp only [Coins.step]
  split
  · rfl
  · rw [if_pos]
    rw [h5]
    exact h4

end Verif
