import Verif.Proofs.Trades
import Verif.Props.Solvent

/-!
# Property C78: trading to and fro gains nothing

False of the code (`C78_negation`): a swap that ends exactly at a tick leaves the pool with a wrong
liquidity, and the way back is priced on another curve than the way there. Here: it holds of the swaps that
do not end near an initialised tick.
-/

namespace Verif
open Service Spec

variable {s s' : Inv} {key : PoolKey}

theorem int_nonneg_of {x : ℤ} {e : ℚ} (he : e < 1) (h : -e ≤ (x : ℚ)) : 0 ≤ x := by
  by_contra hx
  have h1 : x ≤ -1 := by omega
  have h2 : (x : ℚ) ≤ -1 := by exact_mod_cast h1
  linarith

/-- C78 for series of at most 5·10^8 swaps that do not end near an initialised tick (`Near`) (full statement: for all
series of swaps; refuted by `C78_negation`): the traders of a pool, taken together, do not take token X out of it
without putting token Y into it. -/
theorem C78_gain_partial (hc : Clear s) {x y : ℤ} {n : Nat} (h : Trades true key s s' x y n)
    (hn : n ≤ 5 * 10 ^ 8) : y ≤ 0 → 0 ≤ x := by
  intro hy
  cases hp : s.pools.get key with
  | none => exact le_of_eq (trades_missing hp h).2.1.symm
  | some pool =>
    obtain ⟨hpos, pool', hp', m1, m2⟩ := trades_moved hc hp h
    have hok := clear_ranges (clear_reach32 s hc) key
    have a1 := (reach_agree _ (reach32_reach _ (clear_reach32 s hc)).1 _ _ hp).price
    have a2 := (reach_agree _ (reach32_reach _ (clear_reach32 _ (trades_clear hc h))).1 _ _ hp').price
    have pos : ∀ {q}, PriceOK q → 0 < q := fun h => lt_of_lt_of_le (by norm_num [MIN_SQRT_PRICE]) h.1
    have hy' : (y : ℚ) ≤ 0 := by exact_mod_cast hy
    refine int_nonneg_of (slack_small hn) ?_
    rcases Nat.le_total pool'.sqrtPrice pool.sqrtPrice with hle | hle
    · have := (curveAt_terms hok (pos a2) hle).1
      linarith
    · have t := (curveAt_terms hok (pos a1) hle).2.2.2
      have p0 : 0 < price pool.sqrtPrice ^ 2 := pow_pos (price_pos (pos a1)) 2
      have : curveAt s.positions key true pool.sqrtPrice - curveAt s.positions key true pool'.sqrtPrice ≤ 0 := by
        by_contra hcon
        have := mul_pos p0 (not_le.1 hcon)
        linarith
      linarith

/-- ... nor token Y without putting in token X, where the number of swaps times the price of the pool is at
most 5·10^8 (the price of X in Y is the square of the stored one; the roundings in token X are worth more in
token Y the higher the price is). -/
theorem C78_gain_Y_partial (hc : Clear s) {x y : ℤ} {n : Nat} (h : Trades true key s s' x y n)
    {pool : Pool} (hp : s.pools.get key = some pool) (hn : n ≤ 5 * 10 ^ 8)
    (hn' : n * pool.sqrtPrice ^ 2 ≤ 5 * 10 ^ 8 * 10 ^ 48) : x ≤ 0 → 0 ≤ y := by
  intro hx
  obtain ⟨hpos, pool', hp', m1, m2⟩ := trades_moved hc hp h
  have hok := clear_ranges (clear_reach32 s hc) key
  have a1 := (reach_agree _ (reach32_reach _ (clear_reach32 s hc)).1 _ _ hp).price
  have a2 := (reach_agree _ (reach32_reach _ (clear_reach32 _ (trades_clear hc h))).1 _ _ hp').price
  have pos : ∀ {q}, PriceOK q → 0 < q := fun h => lt_of_lt_of_le (by norm_num [MIN_SQRT_PRICE]) h.1
  have hx' : (x : ℚ) ≤ 0 := by exact_mod_cast hx
  rcases Nat.le_total pool'.sqrtPrice pool.sqrtPrice with hle | hle
  · have t := (curveAt_terms hok (pos a2) hle).2.2.1
    have p0 : 0 ≤ price pool.sqrtPrice ^ 2 := sq_nonneg _
    have t2 := mul_le_mul_of_nonneg_left (by linarith :
      curveAt s.positions key true pool'.sqrtPrice - curveAt s.positions key true pool.sqrtPrice ≤
        n * (slackX * 443637)) p0
    have hb : price pool.sqrtPrice ^ 2 * (n * (slackX * 443637)) < 1 := by
      have e : price pool.sqrtPrice ^ 2 * (n * (slackX * 443637)) =
          (n * pool.sqrtPrice ^ 2 : ℚ) * 443637 / (23 * 10 ^ 13 * 10 ^ 48) := by
        unfold price slackX; field_simp
      have h1 : (n * pool.sqrtPrice ^ 2 : ℚ) ≤ 5 * 10 ^ 8 * 10 ^ 48 := by exact_mod_cast hn'
      rw [e, div_lt_one (by positivity)]
      linarith
    refine int_nonneg_of hb ?_
    linarith
  · have := (curveAt_terms hok (pos a1) hle).2.1
    exact int_nonneg_of (e := 0) (by norm_num) (by linarith)

/-- ... and whoever brings the price back to where it was has lost, or at best broken even, in both tokens. -/
theorem C78_back_partial (hc : Clear s) {x y : ℤ} {n : Nat} (h : Trades true key s s' x y n)
    {pool pool' : Pool} (hp : s.pools.get key = some pool) (hp' : s'.pools.get key = some pool')
    (he : pool'.sqrtPrice = pool.sqrtPrice) (hn : n ≤ 5 * 10 ^ 8) : 0 ≤ x ∧ 0 ≤ y := by
  obtain ⟨hpos, q, hq, m1, m2⟩ := trades_moved hc hp h
  rw [hp'] at hq
  cases hq
  rw [he] at m1 m2
  exact ⟨int_nonneg_of (slack_small hn) (by linarith), int_nonneg_of (e := 0) (by norm_num) (by linarith)⟩

/-! ### concrete series -/

theorem trades_next {c : Bool} {x y : ℤ} {n : Nat} (h : Trades c key s s' x y n) {env : Env}
    {xToY byIn : Bool} {amount limit i o : Nat} {s'' : Inv}
    (hs : (Service.swap env s' key xToY amount byIn limit).toOption.map (fun r => (r.2.amountIn, r.2.amountOut)) =
      some (i, o))
    (hn : (Service.swap env s' key xToY amount byIn limit).toOption.map (fun r => s'.ticks.entries.all (fun e =>
      decide (e.1.1 = key → ¬ (r.2.targetSqrtPrice ≤ e.2.sqrtPrice ∧ e.2.sqrtPrice ≤ r.2.targetSqrtPrice + 65536)))) =
      some true ∨ c = false)
    (he : s'' = run env s' (.swap key xToY amount byIn limit)) :
    Trades c key s s'' (if xToY then x + i else x - o) (if xToY then y - o else y + i) (n + 1) := by
  subst he
  unfold run
  simp only [step]
  cases hr : Service.swap env s' key xToY amount byIn limit with
  | error e => rw [hr] at hs; cases hs
  | ok r =>
    rw [hr] at hs hn
    simp only [Except.toOption, Option.map_some, Option.some.injEq, Prod.mk.injEq] at hs hn
    obtain ⟨rfl, rfl⟩ := hs
    refine Trades.swap h hr ?_
    intro hc
    rcases hn with hn | hn
    · exact not_near_of_all hn
    · rw [hn] at hc; cases hc

/-- in the demo account 2 sells 22·10^6 of X for 21965657 of Y across an initialised tick, then account 3 buys
as much X for 22009630 of Y: together they end with the X they had and 43973 less of Y -/
example : ∃ s', Trades true Demo.key Demo.start s' 0 43973 2 ∧ Clear Demo.start ∧
    (∀ y : ℤ, y ≤ 0 → ∀ s' x, Trades true Demo.key Demo.start s' x y 2 → 0 ≤ x) := by
  have hcl : Clear Demo.start := by
    obtain ⟨n, _, h⟩ := demo_start_books
    exact clearBooks_clear h
  have h1 : Trades true Demo.key Demo.start _ 22000000 (-21965657) 1 :=
    trades_next (env := Demo.by_ 2) (xToY := true) (byIn := true) (amount := 22 * 10 ^ 6)
      (limit := MIN_SQRT_PRICE) (i := 22000000) (o := 21965657) Trades.none (by decide +kernel)
      (.inl (by decide +kernel)) rfl
  have h2 : Trades true Demo.key Demo.start _ 0 43973 2 :=
    trades_next (env := Demo.by_ 3) (xToY := false) (byIn := false) (amount := 22 * 10 ^ 6)
      (limit := MAX_SQRT_PRICE) (i := 22009630) (o := 22000000) h1 (by decide +kernel)
      (.inl (by decide +kernel)) rfl
  exact ⟨_, h2, hcl, fun y hy s' x h => C78_gain_partial hcl h (by norm_num) hy⟩

/-- C78 is false: in the pool of `C34_negation`, account 2 buys exactly up to tick 10, where the pool keeps the
liquidity that ends there. Crossing the tick on the way back doubles the liquidity, so that selling moves the
price half as far as it should, and buying again is cheaper than it was. With three swaps the account
gains 100 of token X and 23 of token Y. -/
theorem C78_negation : ¬ ∀ s key s' x y n, Reach s → Trades false key s s' x y n → n ≤ 5 * 10 ^ 8 →
    y ≤ 0 → 0 ≤ x := by
  intro h
  obtain ⟨held, hb, _⟩ := s0_books
  have hr : Reach Exploit.s1 := books_reach (books_runAll _ (by simp [NoVara]) hb)
  have h1 : Trades false Exploit.key Exploit.s1 _ (-499850) 500101 1 :=
    trades_next (env := Exploit.by_ 2) (xToY := false) (byIn := true) (amount := 500101)
      (limit := Exploit.p10) (i := 500101) (o := 499850) Trades.none (by decide +kernel) (.inr rfl) rfl
  have h2 : Trades false Exploit.key Exploit.s1 _ 490150 (-490398) 2 :=
    trades_next (env := Exploit.by_ 2) (xToY := true) (byIn := true) (amount := 990000)
      (limit := 10 ^ 24) (i := 990000) (o := 990499) h1 (by decide +kernel) (.inr rfl) rfl
  have h3 : Trades false Exploit.key Exploit.s1 _ (-100) (-23) 3 :=
    trades_next (env := Exploit.by_ 2) (xToY := false) (byIn := false) (amount := 490250)
      (limit := 2 * 10 ^ 24) (i := 490375) (o := 490250) h2 (by decide +kernel) (.inr rfl) rfl
  have := h _ _ _ _ _ _ hr h3 (by norm_num) (by norm_num)
  omega

end Verif
