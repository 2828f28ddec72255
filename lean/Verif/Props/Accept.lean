import Verif.Proofs.Accept
import Verif.Proofs.Deposit
import Verif.Props.Amounts
import Verif.Props.Active
import Verif.Props.PositionCalls
import Verif.Props.Ledger

/-!
# Property C64: a deposit that the rules allow is accepted

The converse of C39: `create_position` refuses nothing but what it has to.
-/

set_option exponentiation.threshold 1000

namespace Verif
open Service Spec

variable {env : Env} {s s' : Inv} {key : PoolKey} {lower upper : Int} {delta ll lu pl pu : Nat} {pool : Pool}

private theorem bal_balOf (b : Balances) (a t : ActorId) : bal b a t = balOf b a t := by
  unfold bal balOf
  cases b.get (a, t) <;> rfl

private theorem deposit_amounts (hlu : lower ≤ upper) (hp : PriceOK pool.sqrtPrice)
    (hpl : calculateSqrtPrice lower = .ok pl) (hpu : calculateSqrtPrice upper = .ok pu) {L : Nat} (hL : L < 2 ^ 256)
    (hx : amountX (valuePrice pool lower upper pl pu) pu L < 2 ^ 255)
    (hy : ⌈amountY pl (valuePrice pool lower upper pl pu) L⌉₊ < 2 ^ 256) :
    ∃ r, calculateAmountDelta pool.currentTickIndex pool.sqrtPrice L true upper lower = .ok r := by
  have P1 := calculateSqrtPrice_ge_min hpl
  have P2 := calculateSqrtPrice_le_max hpl
  have P3 := calculateSqrtPrice_ge_min hpu
  have P4 := calculateSqrtPrice_le_max hpu
  have small : ∀ {q}, q ≤ MAX_SQRT_PRICE → q < 2 ^ 128 := fun h =>
    lt_of_le_of_lt h (by norm_num [MAX_SQRT_PRICE])
  have dy : ∀ {a b}, a ≤ MAX_SQRT_PRICE → b ≤ MAX_SQRT_PRICE → ⌈amountY a b L⌉₊ < 2 ^ 256 →
      ∃ y, getDeltaY a b L true = .ok y := by
    intro a b ha hb h
    rw [(C03_amount_y (small ha) (small hb) hL).1, if_pos h]
    exact ⟨_, rfl⟩
  unfold calculateAmountDelta
  rw [failIf_neg (by omega), ok_bind]
  unfold valuePrice at hx hy
  by_cases h1 : pool.currentTickIndex < lower
  · rw [if_pos h1]
    rw [if_pos h1] at hx
    obtain ⟨x, hx⟩ := C04_succeeds P1 P2 P3 P4 hL hx true
    exact ⟨_, bind_ok_iff.2 ⟨_, hpl, bind_ok_iff.2 ⟨_, hpu, bind_ok_iff.2 ⟨_, hx, rfl⟩⟩⟩⟩
  · rw [if_neg h1]
    rw [if_neg h1] at hx hy
    by_cases h2 : pool.currentTickIndex < upper
    · rw [if_pos h2]
      rw [if_pos h2] at hx hy
      obtain ⟨x, hx⟩ := C04_succeeds hp.1 hp.2 P3 P4 hL hx true
      obtain ⟨y, hy⟩ := dy P2 hp.2 hy
      exact ⟨_, bind_ok_iff.2 ⟨_, hpu, bind_ok_iff.2 ⟨_, hx, bind_ok_iff.2 ⟨_, hpl, bind_ok_iff.2 ⟨_, hy, rfl⟩⟩⟩⟩⟩
    · rw [if_neg h2]
      rw [if_neg h2] at hy
      obtain ⟨y, hy⟩ := dy P2 P4 hy
      exact ⟨_, bind_ok_iff.2 ⟨_, hpl, bind_ok_iff.2 ⟨_, hpu, bind_ok_iff.2 ⟨_, hy, rfl⟩⟩⟩⟩

/-- C64: in every history without an account of 2^32 - 1 positions, a deposit into an existing pool between two
ticks of its grid is accepted if it is positive, the price is within the caller's bounds, both ticks have room
for it under the cap, the caller owns the amounts it needs (with the margin of C04 for the first token), and
the pool's liquidity counter has room for it if it is in range. -/
theorem C64_accept (h : Reach32 s) (hp : s.pools.get key = some pool) (hd : delta ≠ 0) (hlt : lower < upper)
    (hgl : Grid key.feeTier.tickSpacing lower) (hgu : Grid key.feeTier.tickSpacing upper)
    (hll : ll ≤ pool.sqrtPrice) (hlu : pool.sqrtPrice ≤ lu)
    (g1 : grossLiq s key lower + delta < (2 ^ 256 - 1) / (443637 / key.feeTier.tickSpacing))
    (g2 : grossLiq s key upper + delta < (2 ^ 256 - 1) / (443637 / key.feeTier.tickSpacing))
    (hpl : calculateSqrtPrice lower = .ok pl) (hpu : calculateSqrtPrice upper = .ok pu)
    (hx : pool.currentTickIndex < upper →
      amountX (valuePrice pool lower upper pl pu) pu delta * (1 + 1 / (23 * 10 ^ 13)) + 1 ≤
        bal s.balances env.caller key.tokenX)
    (hx2 : amountX (valuePrice pool lower upper pl pu) pu delta < 2 ^ 255)
    (hy : amountY pl (valuePrice pool lower upper pl pu) delta ≤ bal s.balances env.caller key.tokenY)
    (hL : lower ≤ pool.currentTickIndex → pool.currentTickIndex < upper → pool.liquidity + delta < 2 ^ 256) :
    ∃ s' p, createPosition env s key lower upper delta ll lu = .ok (s', p) := by
  have hr := (reach32_reach s h).1
  have hw := reach_wf s hr
  have hl := reach32_ledger s h
  have hprice := reach_price s hr _ _ hp
  have hcap : (2 ^ 256 - 1) / (443637 / key.feeTier.tickSpacing) ≤ 2 ^ 256 :=
    le_trans (Nat.div_le_self _ _) (Nat.sub_le _ _)
  have hball : bal s.balances env.caller key.tokenY < 2 ^ 256 := by
    rw [bal_balOf]
    unfold balOf
    cases hb : s.balances.get (env.caller, key.tokenY) with
    | none => simp
    | some v => exact (reach_balWF hr _ _ hb).2
  have hy' : ⌈amountY pl (valuePrice pool lower upper pl pu) delta⌉₊ ≤ bal s.balances env.caller key.tokenY :=
    Nat.ceil_le.2 hy
  obtain ⟨⟨x, y, i⟩, ha⟩ := deposit_amounts (le_of_lt hlt) hprice hpl hpu (L := delta)
    (lt_of_lt_of_le (by omega) hcap) hx2 (lt_of_le_of_lt hy' hball)
  obtain ⟨pl', pu', f1, f2, -, f3, f4, -⟩ := calculateAmountDelta_ok ha
  rw [hpl] at f1; cases f1
  rw [hpu] at f2; cases f2
  have e : clampPrice pool.currentTickIndex lower upper pool.sqrtPrice pl pu = valuePrice pool lower upper pl pu := rfl
  rw [e] at f3 f4
  rw [dxR_true] at f3
  rw [dyR_true, dyUp_eq_ceil] at f4
  have hnet : ∀ j, (tN s.ticks key j).natAbs ≤ grossLiq s key j := by
    intro j
    rw [← hl.gross]
    unfold tN tG
    cases ht : s.ticks.get (key, j) with
    | none => simp
    | some t =>
      have h1 := ((C12_counters hr hp).2.1 j t ht).2
      dsimp only
      unfold Tick.net
      split <;> omega
  obtain ⟨r, hc⟩ := create_succeeds (env := env) (ll := ll) (lu := lu) hr hp hd hlt hgl hgu hll hlu
    (by rw [hl.gross]; exact g1) (by rw [hl.gross]; exact g2)
    (by have := hnet lower; omega) (by have := hnet upper; omega) ha hL
    (by
      rw [← bal_balOf]
      by_cases hcu : pool.currentTickIndex < upper
      · have hcge : MIN_SQRT_PRICE ≤ valuePrice pool lower upper pl pu := by
          rw [← e]; exact clampPrice_ge hprice.1 hpl hpu
        have hmin : 0 < MIN_SQRT_PRICE := by norm_num [MIN_SQRT_PRICE]
        have hpuge := calculateSqrtPrice_ge_min hpu
        have h1 := dxUp_lt (lt_of_lt_of_le hmin hcge) (lt_of_lt_of_le hmin hpuge) delta
          (prod_pos_of_min hcge hpuge)
        rw [← f3] at h1
        have h2 := lt_of_lt_of_le h1 (hx hcu)
        have h3 : x < bal s.balances env.caller key.tokenX := by exact_mod_cast h2
        omega
      · have : valuePrice pool lower upper pl pu = pu := by
          unfold valuePrice; rw [if_neg (by omega), if_neg hcu]
        rw [f3, this, ← dxR_true, dxR_self]
        exact Nat.zero_le _)
    (by rw [← bal_balOf, f4]; exact hy')
  exact ⟨r.1, r.2, hc⟩

/-- C64 for histories in which no swap ends near an initialised tick (`Near`): the
counter always has room. -/
theorem C64_clear (h : Clear s) (hp : s.pools.get key = some pool) (hd : delta ≠ 0) (hlt : lower < upper)
    (hgl : Grid key.feeTier.tickSpacing lower) (hgu : Grid key.feeTier.tickSpacing upper)
    (hll : ll ≤ pool.sqrtPrice) (hlu : pool.sqrtPrice ≤ lu)
    (g1 : grossLiq s key lower + delta < (2 ^ 256 - 1) / (443637 / key.feeTier.tickSpacing))
    (g2 : grossLiq s key upper + delta < (2 ^ 256 - 1) / (443637 / key.feeTier.tickSpacing))
    (hpl : calculateSqrtPrice lower = .ok pl) (hpu : calculateSqrtPrice upper = .ok pu)
    (hx : pool.currentTickIndex < upper →
      amountX (valuePrice pool lower upper pl pu) pu delta * (1 + 1 / (23 * 10 ^ 13)) + 1 ≤
        bal s.balances env.caller key.tokenX)
    (hx2 : amountX (valuePrice pool lower upper pl pu) pu delta < 2 ^ 255)
    (hy : amountY pl (valuePrice pool lower upper pl pu) delta ≤ bal s.balances env.caller key.tokenY) :
    ∃ s' p, createPosition env s key lower upper delta ll lu = .ok (s', p) := by
  have h32 := clear_reach32 _ h
  have hr := (reach32_reach s h32).1
  have hw := reach_wf s hr
  have hl := reach32_ledger s h32
  refine C64_accept h32 hp hd hlt hgl hgu hll hlu g1 g2 hpl hpu hx hx2 hy fun _ _ => ?_
  obtain ⟨⟨t1, t2, _⟩, _⟩ := (reach_tiers hr).pools key (by rw [hp]; rfl)
  obtain ⟨j, hj, ej⟩ := lower_mem t1 hgl hgu hlt
  have h1 := active_le hw t1 pool.currentTickIndex
  rw [← C34_clear_partial h hp] at h1
  have h2 := sum_caps t1 t2 (fun i => grossLiq s key (i * key.feeTier.tickSpacing) +
    if i = j then delta else 0) (fun i => by
      split
      · next e => rw [e, ej]; exact g1
      · exact gross_cap hw hl t1 t2 _)
  rw [Finset.sum_add_distrib, Finset.sum_ite_eq', if_pos hj] at h2
  omega

/-- C64, the caps are needed: a deposit that would bring one of its ticks to the cap, or the pool's counter to
2^256, changes nothing. -/
theorem C64_refused (h : Reach32 s) (hp : s.pools.get key = some pool)
    (hbad : (2 ^ 256 - 1) / (443637 / key.feeTier.tickSpacing) ≤ grossLiq s key lower + delta ∨
      (2 ^ 256 - 1) / (443637 / key.feeTier.tickSpacing) ≤ grossLiq s key upper + delta ∨
      (lower ≤ pool.currentTickIndex ∧ pool.currentTickIndex < upper ∧ 2 ^ 256 ≤ pool.liquidity + delta)) :
    run env s (.createPosition key lower upper delta ll lu) = s := by
  have hr := (reach32_reach s h).1
  have hw := reach_wf s hr
  have hl := reach32_ledger s h
  have hn : ∀ r, createPosition env s key lower upper delta ll lu ≠ .ok r := by
    rintro ⟨s', p⟩ hc
    obtain ⟨pool', lt, ut, m, b, tm1, tm2, he, e, c1, c2, bx, by_, d1, d2, e2⟩ :=
      createPosition_full hw.indexed hc
    obtain ⟨a1, a2, -⟩ := he.mod.lower.dep rfl
    obtain ⟨a3, a4, -⟩ := he.mod.upper.dep rfl
    rw [← (getOrCreate_tG he.hlt).1, hl.gross] at a1
    rw [← (getOrCreate_tG he.hut).1, hl.gross] at a3
    have hp' := he.hpool
    rw [hp] at hp'
    cases hp'
    have hcap : calculateMaxLiquidityPerTick key.feeTier.tickSpacing =
      (2 ^ 256 - 1) / (443637 / key.feeTier.tickSpacing) := rfl
    rcases hbad with hb | hb | ⟨b1, b2, b3⟩
    · omega
    · omega
    · have := he.mod.pool.add rfl (by rw [he.lidx]; exact b1) (by rw [he.uidx]; exact b2)
      dsimp only at this
      omega
  cases hc : createPosition env s key lower upper delta ll lu with
  | ok r => exact absurd hc (hn r)
  | error e =>
    unfold run step
    dsimp only
    rw [hc]
    rfl

/-- the theorem applied: account 2 deposits between a tick of its own and one of account 3 -/
example : ∃ s' p, createPosition (Demo.by_ 2) Demo.start Demo.key (-20) 10 (10 ^ 15) 0 (10 ^ 25) = .ok (s', p) := by
  have hp : Demo.start.pools.get Demo.key =
    some ⟨4 * 10 ^ 15, 10 ^ 24, 0, 0, 0, 0, 0, 100, 100, 1⟩ := by decide +kernel
  have b5 : bal Demo.start.balances 2 5 = 99999999999990005497 := by decide +kernel
  have b7 : bal Demo.start.balances 2 7 = 99999999999990005497 := by decide +kernel
  have hv : valuePrice ⟨4 * 10 ^ 15, 10 ^ 24, 0, 0, 0, 0, 0, 100, 100, 1⟩ (-20) 10 999000549780000000000000
    1000500100010000000000000 = 10 ^ 24 := by decide +kernel
  refine C64_clear demo_start_clear hp (by norm_num) (by norm_num) (by decide) (by decide) (by norm_num) (by norm_num)
    (by decide +kernel) (by decide +kernel) (pl := 999000549780000000000000) (pu := 1000500100010000000000000)
    (by decide +kernel) (by decide +kernel) ?_ ?_ ?_
  · intro _
    change _ ≤ ((bal Demo.start.balances 2 5 : Nat) : ℚ)
    rw [hv, b5]
    unfold amountX liq price
    norm_num [abs_of_pos]
  · rw [hv]
    unfold amountX liq price
    norm_num [abs_of_pos]
  · change _ ≤ ((bal Demo.start.balances 2 7 : Nat) : ℚ)
    rw [hv, b7]
    unfold amountY liq price
    norm_num [abs_of_pos]

/-- what it pays; with a balance of one unit less of token 7 it is refused -/
example :
    (createPosition (Demo.by_ 2) Demo.start Demo.key (-20) 10 (10 ^ 15) 0 (10 ^ 25)).toOption.map
      (fun r => (bal Demo.start.balances 2 5 - bal r.1.balances 2 5,
        bal Demo.start.balances 2 7 - bal r.1.balances 2 7)) = some (4998501, 9994503) ∧
    (createPosition (Demo.by_ 2) { Demo.start with balances := Demo.start.balances.insert (2, 7) 9994503 } Demo.key
      (-20) 10 (10 ^ 15) 0 (10 ^ 25)).isOk = true ∧
    (createPosition (Demo.by_ 2) { Demo.start with balances := Demo.start.balances.insert (2, 7) 9994502 } Demo.key
      (-20) 10 (10 ^ 15) 0 (10 ^ 25)).isOk = false := by
  decide +kernel

end Verif
