import Verif.Proofs.SwapAccept
import Verif.Props.SwapCall
import Verif.Props.Active

/-!
# Property C71: an exact-input swap is not aborted

Full statement: in a healthy pool, a swap of a given input amount that the caller can pay either succeeds or is
refused with one of the three announced reasons (the price limit or the last tick is reached before the whole input
is used, or nothing is paid out). It never aborts with a panic.

This holds for swaps of Y for X. For swaps of X for Y it fails if the fee of the tier is zero, and otherwise only in
one case, a tie: the input left for a step, after fees, brings the price exactly onto the end of the step although it
is less than the input the program computes for the whole step.
-/

set_option exponentiation.threshold 1000

namespace Verif
open Service Spec

/-- the outcomes announced for a swap: done, or one of three refusals -/
def Spec.Answered {α : Type} (r : M α) : Prop :=
  (∃ x, r = .ok x) ∨ r = .error (.inv .PriceLimitReached) ∨ r = .error (.inv .TickLimitReached) ∨
    r = .error (.inv .NoGainSwap)

/-- the error of a failed call -/
def Spec.failure {α : Type} : M α → Option Err
  | .error e => some e
  | .ok _ => none

/-- pools and calls that should work -/
structure Spec.SwapAllowed (env : Env) (s : Inv) (key : PoolKey) (xToY : Bool) (amount limit : Nat) (pool : Pool)
    (B : Nat) : Prop where
  clear : Clear s
  stored : s.pools.get key = some pool
  /-- `B` bounds the active liquidity everywhere -/
  active : ∀ t, activeLiq s key t ≤ B
  bound : B < 2 ^ 255
  /-- trading fee at most 99.999% -/
  fee : key.feeTier.fee ≤ 10 ^ 12 - 10 ^ 7
  proto : s.protocolFee ≤ 10 ^ 12
  now : pool.startTimestamp ≤ env.now
  amt : amount ≠ 0
  /-- the uncollected protocol fees do not overflow -/
  room : (if xToY then pool.feeProtocolTokenX else pool.feeProtocolTokenY) + amount < 2 ^ 256
  /-- the limit is on the right side, and not within 65536 units of the lowest price -/
  side : if xToY then MIN_SQRT_PRICE + 65536 ≤ limit ∧ limit < pool.sqrtPrice else pool.sqrtPrice < limit
  /-- when selling Y: liquidity is either absent or not thin compared with the amount (see C42) -/
  thin : xToY = false → ∀ t, activeLiq s key t = 0 ∨ amount * 10 ^ 29 / activeLiq s key t < 2 ^ 127
  pays : amount ≤ bal s.balances env.caller (tokenIn key xToY)
  takes : bal s.balances env.caller (tokenOut key xToY) + B < 2 ^ 256

variable {env : Env} {s : Inv} {key : PoolKey} {xToY : Bool} {amount limit B : Nat} {pool : Pool}

private theorem outcome (h : SwapAllowed env s key xToY amount limit pool B) (hf : xToY = true → 0 < key.feeTier.fee) :
    (∃ s' r, swap env s key xToY amount true limit = .ok (s', r) ∧ r.amountIn = amount) ∨
    (∃ e, (e = .PriceLimitReached ∨ e = .TickLimitReached ∨ e = .NoGainSwap) ∧
      swap env s key xToY amount true limit = .error (.inv e)) ∨
    (xToY = true ∧ swap env s key xToY amount true limit = .error .panic ∧
      TieAt s ⟨key, xToY, true, limit, env.now⟩ pool.sqrtPrice amount) := by
  have hr32 := clear_reach32 s h.clear
  have hr := (reach32_reach s hr32).1
  have hp := h.stored
  have htier := ((reach_tiers hr).pools key (by rw [hp]; rfl)).1
  have hag := reach_agree s hr key pool hp
  have hlim := h.side
  have hstart : swapStart s key xToY amount limit = .ok pool := by
    have hmax := hag.price.2
    have hmin := hag.price.1
    simp only [swapStart, bind_ok_iff, failIf_ok_iff, poolsGet_ok, pure_ok_iff]
    refine ⟨(), h.amt, pool, hp, (), ?_, (), ?_, rfl⟩
    · rintro ⟨hx, hc⟩
      rw [if_pos hx] at hlim
      omega
    · rintro ⟨hx, hc⟩
      rw [if_neg (by rw [hx]; decide)] at hlim
      omega
  have hroom := h.room
  have hh : Healthy s ⟨key, xToY, true, limit, env.now⟩ pool.sqrtPrice amount B
      ((if xToY then pool.feeProtocolTokenX else pool.feeProtocolTokenY) + amount) :=
    { wf := reach_wf s hr
      ledger := reach32_ledger s hr32
      spacing := ⟨htier.1, htier.2.1⟩
      byIn := rfl
      proto := h.proto
      fee0 := hf
      fee1 := h.fee
      start := hag.price
      amt := by omega
      act := h.active
      bound := h.bound
      room := hroom
      low := fun hx => by
        dsimp only at hx
        rw [if_pos hx] at hlim
        exact hlim.1
      high := h.thin }
  have hv : Live s ⟨key, xToY, true, limit, env.now⟩ pool.sqrtPrice amount B
      ((if xToY then pool.feeProtocolTokenX else pool.feeProtocolTokenY) + amount) ⟨pool, [], amount, 0, 0, 0⟩ :=
    { liq := ⟨⟨hag, by dsimp only; split <;> exact le_rfl, by
          dsimp only
          cases xToY
          · simp at hlim ⊢; omega
          · simp at hlim ⊢; omega⟩, .inl (clear_liqOK s h.clear key pool hp)⟩
      sum := Nat.zero_add _
      fee := le_rfl
      out := by
        have := outAmt_le (x := xToY) hag.price hag.price B
        exact le_trans (by exact_mod_cast Nat.zero_le _) this
      proto := le_rfl
      now := h.now }
  rcases calc_total hr hh hstart hv with ⟨c, hc, h1, h2⟩ | ⟨e, he, hc⟩ | ⟨hx, hc, ht⟩
  · left
    have hq : quote s env.now key xToY amount true limit =
        .ok ⟨c.amountIn, c.amountOut, c.pool.sqrtPrice, c.ticks⟩ := by
      unfold quote
      rw [hc]
      rfl
    obtain ⟨s', r, hs, e1, -⟩ := C30_swap_of_quote (env := env) hr hq
      (by dsimp only; rw [h1]; exact h.pays)
      (lt_of_le_of_lt (Nat.add_le_add_left h2 _) h.takes)
    exact ⟨s', r, hs, e1.trans h1⟩
  · refine .inr (.inl ⟨e, he, ?_⟩)
    unfold swap
    rw [hc]
    rfl
  · refine .inr (.inr ⟨hx, ?_, ht⟩)
    unfold swap
    rw [hc]
    rfl

/-- C71 for swaps of Y for X: never aborted; if it succeeds the whole amount is used. -/
theorem C71_y (h : SwapAllowed env s key false amount limit pool B) :
    Answered (swap env s key false amount true limit) ∧
    ∀ s' r, swap env s key false amount true limit = .ok (s', r) → r.amountIn = amount := by
  rcases outcome h (by simp) with ⟨s', r, h1, h2⟩ | ⟨e, he, h1⟩ | ⟨hx, _⟩
  · refine ⟨.inl ⟨_, h1⟩, ?_⟩
    intro s'' r' h3
    rw [h1] at h3
    cases h3
    exact h2
  · refine ⟨?_, ?_⟩
    · rcases he with rfl | rfl | rfl
      · exact .inr (.inl h1)
      · exact .inr (.inr (.inl h1))
      · exact .inr (.inr (.inr h1))
    · intro s' r h2
      rw [h1] at h2
      cases h2
  · cases hx

/-- C71 for swaps of X for Y: aborted only in a tie. The tie is on a step from some price `p` on the way to the
price limit or to a tick of the grid, with the liquidity active at some tick and at most the whole input. -/
theorem C71_x_partial (h : SwapAllowed env s key true amount limit pool B) (hf : 0 < key.feeTier.fee) :
    (Answered (swap env s key true amount true limit) ∧
      ∀ s' r, swap env s key true amount true limit = .ok (s', r) → r.amountIn = amount) ∨
    (swap env s key true amount true limit = .error .panic ∧
      ∃ p target t rest, rest ≤ amount ∧ limit ≤ target ∧ target < p ∧ p ≤ pool.sqrtPrice ∧
        (target = limit ∨ ∃ i, Grid key.feeTier.tickSpacing i ∧ calculateSqrtPrice i = .ok target) ∧
        Tie p target (activeLiq s key t) (rest * (10 ^ 12 - key.feeTier.fee) / 10 ^ 12)) := by
  rcases outcome h (fun _ => hf) with ⟨s', r, h1, h2⟩ | ⟨e, he, h1⟩ | ⟨_, h1, p, target, t, rest, c1, c2, c3, c4, c5, c6⟩
  · refine .inl ⟨.inl ⟨_, h1⟩, ?_⟩
    intro s'' r' h3
    rw [h1] at h3
    cases h3
    exact h2
  · refine .inl ⟨?_, ?_⟩
    · rcases he with rfl | rfl | rfl
      · exact .inr (.inl h1)
      · exact .inr (.inr (.inl h1))
      · exact .inr (.inr (.inr h1))
    · intro s' r h2
      rw [h1] at h2
      cases h2
  · refine .inr ⟨h1, p, target, t, rest, c1, c2, c3, c4, ?_, c6⟩
    rcases c5 with c5 | ⟨i, hi, c5⟩
    · exact .inl c5
    · exact .inr ⟨i, hi, by rw [c5]; exact calculateSqrtPrice_eq hi.min hi.max⟩

/-- active liquidity is bounded by the total liquidity -/
theorem activeLiq_le_total (s : Inv) (key : PoolKey) (t : Int) :
    activeLiq s key t ≤ s.positions.map.sum fun _ p => p.liquidity := by
  unfold activeLiq
  refine Map.sum_le_sum fun k p _ => ?_
  split
  · exact le_rfl
  · exact Nat.zero_le _

/-- the conditions hold in the demo pool, in both directions -/
theorem demo_allowed : SwapAllowed (Demo.by_ 2) Demo.start Demo.key true (22 * 10 ^ 6) (MIN_SQRT_PRICE + 65536)
      ⟨4 * 10 ^ 15, 10 ^ 24, 0, 0, 0, 0, 0, 100, 100, 1⟩ (14 * 10 ^ 15) ∧
    SwapAllowed (Demo.by_ 2) Demo.start Demo.key false (10 ^ 6) MAX_SQRT_PRICE
      ⟨4 * 10 ^ 15, 10 ^ 24, 0, 0, 0, 0, 0, 100, 100, 1⟩ (14 * 10 ^ 15) := by
  have hp : Demo.start.pools.get Demo.key =
    some ⟨4 * 10 ^ 15, 10 ^ 24, 0, 0, 0, 0, 0, 100, 100, 1⟩ := by decide +kernel
  have hB : ∀ t, activeLiq Demo.start Demo.key t ≤ 14 * 10 ^ 15 := fun t =>
    le_trans (activeLiq_le_total _ _ t) (by decide +kernel)
  have hf : Demo.start.protocolFee ≤ 10 ^ 12 := by decide +kernel
  constructor
  · exact ⟨demo_start_clear, hp, hB, by norm_num, by decide, hf, by decide, by decide, by decide +kernel, by decide +kernel,
      by simp, by decide +kernel, by decide +kernel⟩
  · refine ⟨demo_start_clear, hp, hB, by norm_num, by decide, hf, by decide, by decide, by decide +kernel, by decide +kernel, ?_,
      by decide +kernel, by decide +kernel⟩
    intro _ t
    by_cases h0 : activeLiq Demo.start Demo.key t = 0
    · exact .inl h0
    · right
      refine lt_of_le_of_lt (Nat.div_le_self _ _) (by norm_num)

/-- both theorems applied; what the swaps pay; and the refusals: price limit, end of the grid, no gain -/
example : (Answered (swap (Demo.by_ 2) Demo.start Demo.key true (22 * 10 ^ 6) true (MIN_SQRT_PRICE + 65536)) ∨
      swap (Demo.by_ 2) Demo.start Demo.key true (22 * 10 ^ 6) true (MIN_SQRT_PRICE + 65536) = .error .panic) ∧
    Answered (swap (Demo.by_ 2) Demo.start Demo.key false (10 ^ 6) true MAX_SQRT_PRICE) :=
  ⟨(C71_x_partial demo_allowed.1 (by decide)).imp And.left And.left, (C71_y demo_allowed.2).1⟩

example :
    (swap (Demo.by_ 2) Demo.start Demo.key true (22 * 10 ^ 6) true (MIN_SQRT_PRICE + 65536)).toOption.map
      (fun r => (r.2.amountIn, r.2.amountOut)) = some (22000000, 21965657) ∧
    (swap (Demo.by_ 2) Demo.start Demo.key true (22 * 10 ^ 6) true (999 * 10 ^ 21)).toOption.isSome = true ∧
    failure (swap (Demo.by_ 2) Demo.start Demo.key true (22 * 10 ^ 6) true (9995 * 10 ^ 20)) = some (.inv .PriceLimitReached) ∧
    failure (swap (Demo.by_ 2) Demo.start Demo.key true (10 ^ 9) true MIN_SQRT_PRICE) = some (.inv .TickLimitReached) ∧
    failure (swap (Demo.by_ 2) Demo.start Demo.key true 1 true MIN_SQRT_PRICE) = some (.inv .NoGainSwap) := by
  decide +kernel

/-! ### the two ways in which a swap of X for Y is aborted -/

namespace Tied

def tier : FeeTier := ⟨10 ^ 8, 10⟩
def pk : PoolKey := ⟨5, 7, tier⟩

/-- a pool with fee 0.01% and one position -/
def opened : Inv := runAll Demo.funded [(Demo.by_ 1, .addFeeTier tier),
  (Demo.by_ 2, .createPool 5 7 tier 1000500100010000000000000 10),
  (Demo.by_ 2, .createPosition pk (-1000) 1000 (10 ^ 14) 0 (10 ^ 25))]

/-- after a small swap -/
def moved : Inv := runAll opened [(Demo.by_ 3, .swap pk true 24014 true MIN_SQRT_PRICE)]

/-- and another position -/
def state : Inv := runAll moved [(Demo.by_ 2, .createPosition pk (-10) 100 410745115234114 0 (10 ^ 25))]

theorem funded_clear : Clear Demo.funded := by
  refine .transfers (s := Inv.init 1 (10 ^ 11)) (aw := ∅) (.init _ _) ?_
  intro k v hk
  simp only [Map.get_insert] at hk
  split_ifs at hk <;> first | (cases hk; norm_num) | simp at hk

theorem opened_clear : Clear opened := by
  have h1 := clear_run (c := .addFeeTier tier) (env := Demo.by_ 1) funded_clear ⟨by simp, by simp⟩ (by decide +kernel)
  have h2 := clear_run (c := .createPool 5 7 tier 1000500100010000000000000 10) (env := Demo.by_ 2) h1
    ⟨by simp, by simp⟩ (by decide +kernel)
  have h3 := clear_run (c := .createPosition pk (-1000) 1000 (10 ^ 14) 0 (10 ^ 25)) (env := Demo.by_ 2) h2
    ⟨by simp, by simp⟩ (by decide +kernel)
  exact h3

theorem moved_clear : Clear moved := by
  unfold moved
  simp only [runAll]
  unfold run
  split
  · next s' hs =>
    simp only [step, bind_ok_iff, pure_ok_iff] at hs
    obtain ⟨r, hr, rfl⟩ := hs
    refine .swap opened_clear hr ?_
    have h1 : (Service.swap (Demo.by_ 3) opened pk true 24014 true MIN_SQRT_PRICE).toOption.map
        (fun r => opened.ticks.entries.all (fun e => decide (e.1.1 = pk →
          ¬ (r.2.targetSqrtPrice ≤ e.2.sqrtPrice ∧ e.2.sqrtPrice ≤ r.2.targetSqrtPrice + 65536)))) =
        some true := by decide +kernel
    rw [hr] at h1
    simp only [Except.toOption, Option.map_some, Option.some.injEq] at h1
    exact not_near_of_all h1
  · exact opened_clear

theorem state_clear : Clear state := by
  have h := clear_run (c := .createPosition pk (-10) 100 410745115234114 0 (10 ^ 25)) (env := Demo.by_ 2) moved_clear
    ⟨by simp, by simp⟩ (by decide +kernel)
  exact h

/-- the pool of that state -/
def poolNow : Pool := ⟨510745115234114, 1000476065565571816602302, 0, 20000000000000000000, 0, 1, 0, 100, 100, 1⟩

theorem allowed : SwapAllowed (Demo.by_ 3) state pk true 4985060 (MIN_SQRT_PRICE + 65536) poolNow
    510745115234114 :=
  ⟨state_clear, by decide +kernel, fun t => le_trans (activeLiq_le_total _ _ t) (by decide +kernel), by norm_num,
    by decide, by decide +kernel, by decide, by decide, by decide +kernel, by decide +kernel, by simp,
    by decide +kernel, by decide +kernel⟩

/-- selling 4985060 of token X aborts; one unit less or more works -/
theorem aborts :
    failure (swap (Demo.by_ 3) state pk true 4985060 true (MIN_SQRT_PRICE + 65536)) = some .panic ∧
    (swap (Demo.by_ 3) state pk true 4985059 true (MIN_SQRT_PRICE + 65536)).toOption.map (fun r => r.2.amountOut) =
      some 4984440 ∧
    (swap (Demo.by_ 3) state pk true 4985061 true (MIN_SQRT_PRICE + 65536)).toOption.map (fun r => r.2.amountOut) =
      some 4984441 := by
  decide +kernel

/-! a pool without fee -/

def tier0 : FeeTier := ⟨0, 10⟩
def pk0 : PoolKey := ⟨5, 7, tier0⟩

def free : Inv := runAll Demo.funded [(Demo.by_ 1, .addFeeTier tier0),
  (Demo.by_ 2, .createPool 5 7 tier0 11111496192000000000000 (-90000)),
  (Demo.by_ 2, .createPosition pk0 (-100000) (-80000) (10 ^ 14) 0 (10 ^ 25))]

theorem free_clear : Clear free := by
  have h1 := clear_run (c := .addFeeTier tier0) (env := Demo.by_ 1) funded_clear ⟨by simp, by simp⟩ (by decide +kernel)
  have h2 := clear_run (c := .createPool 5 7 tier0 11111496192000000000000 (-90000)) (env := Demo.by_ 2) h1
    ⟨by simp, by simp⟩ (by decide +kernel)
  have h3 := clear_run (c := .createPosition pk0 (-100000) (-80000) (10 ^ 14) 0 (10 ^ 25)) (env := Demo.by_ 2) h2
    ⟨by simp, by simp⟩ (by decide +kernel)
  exact h3

theorem free_allowed : SwapAllowed (Demo.by_ 3) free pk0 true (2 * 10 ^ 9) (MIN_SQRT_PRICE + 65536)
    ⟨10 ^ 14, 11111496192000000000000, -90000, 0, 0, 0, 0, 100, 100, 1⟩ (10 ^ 14) :=
  ⟨free_clear, by decide +kernel, fun t => le_trans (activeLiq_le_total _ _ t) (by decide +kernel), by norm_num,
    by decide, by decide +kernel, by decide, by decide, by decide +kernel, by decide +kernel, by simp,
    by decide +kernel, by decide +kernel⟩

/-- of three consecutive amounts the first and the last abort -/
theorem free_aborts :
    [2 * 10 ^ 9, 2 * 10 ^ 9 + 1, 2 * 10 ^ 9 + 2].map (fun n =>
      failure (swap (Demo.by_ 3) free pk0 true n true (MIN_SQRT_PRICE + 65536))) = [some .panic, none, some .panic] := by
  decide +kernel

end Tied

private theorem not_answered {α : Type} {m : M α}
    (h : failure m = some .panic) : ¬ Answered m := by
  rintro (⟨x, hx⟩ | hx | hx | hx) <;> rw [hx] at h <;> cases h

/-- C71 is false of the code for swaps of X for Y, with a trading fee of 0.01% and prices close to 1. -/
theorem C71_negation : ¬ ∀ (env : Env) (s : Inv) (key : PoolKey) (amount limit : Nat) (pool : Pool) (B : Nat),
    SwapAllowed env s key true amount limit pool B → 0 < key.feeTier.fee →
    Answered (swap env s key true amount true limit) := fun h =>
  not_answered Tied.aborts.1 (h _ _ _ _ _ _ _ Tied.allowed (by decide))

/-- Without a trading fee it fails as well, for a good part of all amounts. -/
theorem C71_negation_free : ¬ ∀ (env : Env) (s : Inv) (key : PoolKey) (amount limit : Nat) (pool : Pool) (B : Nat),
    SwapAllowed env s key true amount limit pool B → key.feeTier.fee = 0 →
    Answered (swap env s key true amount true limit) := fun h =>
  not_answered (by
    have := congrArg List.head? Tied.free_aborts
    simp only [List.map_cons, List.head?_cons, Option.some.injEq] at this
    exact this) (h _ _ _ _ _ _ _ Tied.free_allowed rfl)

end Verif
