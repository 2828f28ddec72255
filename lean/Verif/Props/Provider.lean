import Verif.Proofs.Provider
import Verif.Props.Solvent

/-!
# Property C84: a provider loses nothing but roundings, counted at the price of the deposit

In units of the tokens this is false at low prices, where the rounding of the product of two prices is felt
(`C84_negation`).
-/

namespace Verif
open Service Spec

private theorem bal_eq (b : Balances) (w t : ActorId) : Spec.bal b w t = balOf b w t := by
  unfold Spec.bal balOf
  cases b.get (w, t) <;> rfl

variable {env env' : Env} {s s' : Inv}

/-- what a deposit takes from the balances -/
structure Spec.Cost (s s' : Inv) (who : ActorId) (key : PoolKey) (x y : Nat) : Prop where
  x : bal s.balances who key.tokenX = bal s'.balances who key.tokenX + x
  y : bal s.balances who key.tokenY = bal s'.balances who key.tokenY + y

theorem create_amounts {key : PoolKey} {lower upper : Int} {L ll lu x y : Nat} {r : Inv × Position} {pool : Pool}
    {q : Position} (hr : Reach s) (hp : s.pools.get key = some pool)
    (h : createPosition env s key lower upper L ll lu = .ok r) (hc : Cost s r.1 env.caller key x y)
    (hl : q.lowerTickIndex = lower) (hu : q.upperTickIndex = upper) :
    ∃ i, calculateAmountDelta pool.currentTickIndex pool.sqrtPrice L true q.upperTickIndex
      q.lowerTickIndex = .ok (x, y, i) := by
  have hw := reach_wf s hr
  obtain ⟨pool', lt, ut, m, b, tm1, tm2, he, _, _, _, bx, by_, hbx, hby, rfl⟩ := createPosition_full hw.indexed h
  have e := he.hpool
  rw [hp] at e
  cases e
  obtain ⟨i, ha⟩ := he.mod.pool.amounts
  rw [he.lidx, he.uidx] at ha
  rw [hl, hu]
  have hne : key.tokenX ≠ key.tokenY := ne_of_lt ((reach_tiers hr).pools key (by rw [hp]; rfl)).2
  have b1 := (decrease_bal hbx env.caller key.tokenX).1
  have b2 := (decrease_bal hbx env.caller key.tokenY).1
  have b3 := (decrease_bal hby env.caller key.tokenX).1
  have b4 := (decrease_bal hby env.caller key.tokenY).1
  have hx := hc.x
  have hy := hc.y
  rw [bal_eq, bal_eq] at hx hy
  have eb : r.1.balances = by_.1 := by rw [he.res]
  rw [eb] at hx hy
  simp only [true_and, if_true, hne, hne.symm, if_false] at b1 b2 b3 b4
  have e1 : x = m.amountX := by omega
  have e2 : y = m.amountY := by omega
  rw [e1, e2]
  exact ⟨i, ha⟩

theorem remove_amounts {i : Nat} {r : Inv × Nat × Nat} {q : Position} {pool : Pool} (hr : Reach s)
    (hq : s.positions.map.get (env.caller, i) = some q) (hp : s.pools.get q.poolKey = some pool)
    (h : removePosition env s i = .ok r) :
    ∃ x y j, calculateAmountDelta pool.currentTickIndex pool.sqrtPrice q.liquidity false q.upperTickIndex
      q.lowerTickIndex = .ok (x, y, j) ∧ x ≤ r.2.1 ∧ y ≤ r.2.2 := by
  have hw := reach_wf s hr
  obtain ⟨p, lower, upper, pool', m, ps, b, tm1, tm2, he, hamt, -⟩ := removePosition_full hw.indexed h
  have hg := posGet_ok.1 he.get
  rw [hq] at hg
  cases hg
  have e := he.hpool
  rw [hp] at e
  cases e
  obtain ⟨j, ha⟩ := he.mod.pool.amounts
  rw [hw.indexed _ _ _ he.hlt, hw.indexed _ _ _ he.hut] at ha
  refine ⟨_, _, j, ha, ?_, ?_⟩ <;> rw [hamt] <;> exact Nat.le_add_right _ _

/-- C84 up to the relative error of the product of two prices (full statement: up to two units of each token;
refuted by `C84_negation`). A position made in the state `s` and a position of the same pool, range and liquidity
removed in any other reachable state `s'`, whatever happened between: at the price of the pool in `s`, what is paid
is worth no less than what was put in, but for two units of each token and 2·10^-14 of the value. -/
theorem C84_hold_partial {key : PoolKey} {lower upper : Int} {L ll lu x y i : Nat} {r : Inv × Position}
    {r' : Inv × Nat × Nat} {pool : Pool} {q : Position} (hr : Reach s) (hr' : Reach s')
    (hp : s.pools.get key = some pool) (h : createPosition env s key lower upper L ll lu = .ok r)
    (hc : Cost s r.1 env.caller key x y) (hq : s'.positions.map.get (env'.caller, i) = some q)
    (hk : q.poolKey = key) (hl : q.lowerTickIndex = lower) (hu : q.upperTickIndex = upper) (hL : q.liquidity = L)
    (h' : removePosition env' s' i = .ok r') :
    price pool.sqrtPrice ^ 2 * x + y ≤
      (1 + 2 / 10 ^ 14) * (price pool.sqrtPrice ^ 2 * (r'.2.1 + 2) + (r'.2.2 + 2)) := by
  obtain ⟨_, h1⟩ := create_amounts hr hp h hc hl hu
  have hw' := reach_wf s' hr'
  obtain ⟨hok, hsome⟩ := hw'.pos _ _ hq
  obtain ⟨pool', hp'⟩ := Option.isSome_iff_exists.1 hsome
  obtain ⟨x', y', _, h2, gx, gy⟩ := remove_amounts hr' hq hp' h'
  have a1 := reach_agree s hr _ _ hp
  have a2 := reach_agree s' hr' _ _ hp'
  have hlt := hok.lt
  have gl := hok.lower
  have gu := hok.upper
  rw [hk] at gl gu a2
  rw [hL] at h2
  obtain ⟨-, -, c1, c2⟩ := put_le a1 hlt gl gu h1
  obtain ⟨-, -, d1, d2⟩ := le_got a2 hlt gl gu h2
  obtain ⟨b1, b2, b3⟩ := cut_bounds a1 hlt gl gu
  obtain ⟨b4, b5, -⟩ := cut_bounds a2 hlt gl gu
  have m0 : 0 < MIN_SQRT_PRICE := by norm_num [MIN_SQRT_PRICE]
  have key := hold_curve (L := L) (lt_of_lt_of_le m0 a1.price.1) (lt_of_lt_of_le m0 b3)
    (lt_of_lt_of_le m0 (priceOf_ge_min gl.min gl.max)) b1 b2 b4 b5 (cut_cases a1 gl gu)
  have gx : (x' : ℚ) ≤ r'.2.1 := by exact_mod_cast gx
  have gy : (y' : ℚ) ≤ r'.2.2 := by exact_mod_cast gy
  have hP : 0 ≤ price pool.sqrtPrice ^ 2 := by positivity
  have hY : 0 ≤ amountY (priceOf q.lowerTickIndex) (cutOf pool q) L := by unfold amountY liq; positivity
  exact hold_sum hP (Nat.cast_nonneg _) (Nat.cast_nonneg _) hY c1 c2 (d1.trans (by gcongr; linarith [relX_pos]))
    (d2.trans (by linarith)) key

/-- C84 where the price is back, up to the same error: both tokens come back but for roundings, whatever happened
between. -/
theorem C84_back_partial {key : PoolKey} {lower upper : Int} {L ll lu x y i : Nat} {r : Inv × Position}
    {r' : Inv × Nat × Nat} {pool pool' : Pool} {q : Position} (hr : Reach s) (hr' : Reach s')
    (hp : s.pools.get key = some pool) (h : createPosition env s key lower upper L ll lu = .ok r)
    (hc : Cost s r.1 env.caller key x y) (hq : s'.positions.map.get (env'.caller, i) = some q)
    (hk : q.poolKey = key) (hl : q.lowerTickIndex = lower) (hu : q.upperTickIndex = upper) (hL : q.liquidity = L)
    (h' : removePosition env' s' i = .ok r') (hp' : s'.pools.get key = some pool')
    (hback : pool'.sqrtPrice = pool.sqrtPrice) :
    (x : ℚ) ≤ (1 + 2 / 10 ^ 14) * (r'.2.1 + 2) ∧ y ≤ r'.2.2 + 1 := by
  obtain ⟨_, h1⟩ := create_amounts hr hp h hc hl hu
  have hw' := reach_wf s' hr'
  obtain ⟨hok, -⟩ := hw'.pos _ _ hq
  obtain ⟨x', y', _, h2, gx, gy⟩ := remove_amounts hr' hq (by rw [hk]; exact hp') h'
  have a1 := reach_agree s hr _ _ hp
  have a2 := reach_agree s' hr' _ _ hp'
  have hlt := hok.lt
  have gl := hok.lower
  have gu := hok.upper
  rw [hk] at gl gu
  rw [hL] at h2
  obtain ⟨-, e1, c1, -⟩ := put_le a1 hlt gl gu h1
  obtain ⟨-, e2, d1, -⟩ := le_got a2 hlt gl gu h2
  have hcut : cutOf pool' q = cutOf pool q := by
    obtain ⟨b1, b2, -⟩ := cut_bounds a1 hlt gl gu
    obtain ⟨b4, b5, -⟩ := cut_bounds a2 hlt gl gu
    have k1 := cut_cases a1 gl gu
    have k2 := cut_cases a2 gl gu
    omega
  rw [hcut] at d1 e2
  have gx : (x' : ℚ) ≤ r'.2.1 := by exact_mod_cast gx
  constructor
  · have : (1 + relX) * amountX (cutOf pool q) (priceOf q.upperTickIndex) L ≤
        (1 + relX) * ((1 + relX) * (r'.2.1 + 1)) := by
      have := relX_pos
      refine mul_le_mul_of_nonneg_left (d1.trans ?_) (by linarith)
      gcongr
    have n0 : (0 : ℚ) ≤ r'.2.1 := Nat.cast_nonneg _
    unfold relX at *
    linarith
  · have : y ≤ y' + 1 := by
      rw [e1, e2, dyUp_eq_ceil, dyDown_eq_floor]
      exact Nat.ceil_le_floor_add_one _
    omega

namespace ProviderDemo

/-- a pool at a price of 2.3·10^-10 with one position, after a small purchase -/
def low : Inv := runAll Demo.funded
  [(Demo.by_ 1, .addFeeTier Demo.tier), (Demo.by_ 2, .createPool 5 7 Demo.tier 15265036000000000000 (-221810)),
   (Demo.by_ 3, .createPosition Demo.key (-221810) (-221700) (10 ^ 22) 0 (10 ^ 30)),
   (Demo.by_ 3, .swap Demo.key false 1000 true MAX_SQRT_PRICE)]

theorem reach_all : ∀ (l : List (Env × Call)) (s : Inv), Reach s → Reach (runAll s l) := by
  intro l
  induction l with
  | nil => exact fun s h => h
  | cons x l ih =>
    intro s h
    refine ih _ ?_
    unfold run
    split
    · next hs => exact .call h hs
    · exact h

theorem low_reach : Reach low :=
  reach_all _ _ (reach32_reach _ (clear_reach32 _ (clearBooks_clear demo_funded_books))).1

end ProviderDemo

/-- account 3 puts a position into the pool of the demo at the price 1, account 2 moves the price down, account 3
takes the position out: less Y and more X, in sum (the price of the deposit is 1) 5890 units more -/
example :
    let made := runAll Demo.start [(Demo.by_ 3, .createPosition Demo.key (-30) 30 (10 ^ 15) 0 (10 ^ 25))]
    let moved := runAll made [(Demo.by_ 2, .swap Demo.key true (22 * 10 ^ 6) true MIN_SQRT_PRICE)]
    (Demo.start.pools.get Demo.key).map (·.sqrtPrice) = some (10 ^ 24) ∧
      (moved.pools.get Demo.key).map (·.sqrtPrice) = some 999560633128102211391961 ∧
      bal Demo.start.balances 3 5 - bal made.balances 3 5 = 14988007 ∧
      bal Demo.start.balances 3 7 - bal made.balances 3 7 = 14988007 ∧
      (moved.positions.map.get (3, 2)).map (fun q => (q.lowerTickIndex, q.upperTickIndex, q.liquidity)) =
        some (-30, 30, 10 ^ 15) ∧
      (removePosition (Demo.by_ 3) moved 2).toOption.map (·.2) = some (19387566, 10594338) := by
  decide +kernel

/-- C84 is false in units: at a low price an account puts in a position, takes it out at once, and gets 383361 units
of X less than it put in. -/
theorem C84_negation : Reach ProviderDemo.low ∧
    (createPosition (Demo.by_ 2) ProviderDemo.low Demo.key (-221810) (-221700) (25 * 10 ^ 21) 0 (10 ^ 30)).toOption.map
      (fun r => (bal ProviderDemo.low.balances 2 5 - bal r.1.balances 2 5,
        (removePosition (Demo.by_ 2) r.1 0).toOption.map (·.2))) =
      some (89823609121923450971, some (89823609121923450971 - 383361, 2497)) := by
  exact ⟨ProviderDemo.low_reach, by decide +kernel⟩

end Verif
