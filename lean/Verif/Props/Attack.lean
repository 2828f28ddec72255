import Verif.Proofs.StopAtTick
import Verif.Proofs.Claim
import Verif.Props.Active
import Verif.Proofs.Exit
import Verif.Props.SwapCall
import Verif.Props.ClaimAccept
import Verif.Proofs.Solvent

/-!
# Property C34: anybody can make the counter of a healthy pool wrong

`C34_limit` says what happens if a purchase of X stops at its limit exactly at an initialised tick. Here: such a purchase
is possible in every pool with some liquidity and an initialised tick ahead, for everybody who can pay for the X up to
that tick.
-/

set_option exponentiation.threshold 1000

namespace Verif
open Service Spec

/-- what a buyer pays to bring the price of a pool from `p` up to `q` at the liquidity `L`: the amount of Y, and the
trading fee on it, both rounded up -/
def Spec.costUp (p q L fee : Nat) : Nat := ⌈amountY p q L⌉₊ + ⌈(⌈amountY p q L⌉₊ : ℚ) * pct fee⌉₊

private theorem costUp_eq (p q L fee : Nat) :
    costUp p q L fee = dyUp p q L + cdiv (dyUp p q L * fee) (10 ^ 12) := by
  unfold costUp pct
  rw [← dyUp_eq_ceil, cdiv_eq_ceil _ (by positivity), Nat.cast_mul, mul_div_assoc]
  norm_num

/-- the initialised tick `i` with the price `q` is the next one above the price of the pool, and `who` can buy up to it -/
structure Spec.InReach (s : Inv) (key : PoolKey) (pool : Pool) (i : Int) (q : Nat) (who : ActorId) : Prop where
  /-- between 1 and 256 steps of the grid above the current tick, and not the last tick of the grid -/
  above : pool.currentTickIndex < i
  near : i ≤ pool.currentTickIndex + 256 * key.feeTier.tickSpacing
  notLast : i + key.feeTier.tickSpacing ≤ MAX_TICK
  next : ∀ j, pool.currentTickIndex < j → j < i → s.ticks.get (key, j) = none
  price : pool.sqrtPrice < q
  /-- at least two units of X lie below the tick -/
  some : 2 ≤ amountX pool.sqrtPrice q pool.liquidity
  takes : bal s.balances who key.tokenX + amountX pool.sqrtPrice q pool.liquidity < 2 ^ 255
  pays : costUp pool.sqrtPrice q pool.liquidity key.feeTier.fee ≤ bal s.balances who key.tokenY
  /-- the uncollected protocol fees do not overflow -/
  room : pool.feeProtocolTokenY + costUp pool.sqrtPrice q pool.liquidity key.feeTier.fee < 2 ^ 256

private theorem attack_swap {s : Inv} {env : Env} (hr : Reach32 s) (hpf : s.protocolFee ≤ 10 ^ 12) {key : PoolKey}
    {pool : Pool} (hp : s.pools.get key = some pool) {i : Int} {t : Tick} (ht : s.ticks.get (key, i) = some t)
    (h : InReach s key pool i t.sqrtPrice env.caller) :
    ∃ amount r, Service.swap env s key false amount false t.sqrtPrice = .ok r ∧
      r.2.amountIn = costUp pool.sqrtPrice t.sqrtPrice pool.liquidity key.feeTier.fee ∧
      r.2.targetSqrtPrice = t.sqrtPrice ∧ r.2.ticks = [] := by
  have hre := (reach32_reach s hr).1
  have hw := reach_wf s hre
  have htier := ((reach_tiers hre).pools key (by rw [hp]; rfl)).1
  have hs : Spacing key.feeTier.tickSpacing := ⟨htier.1, htier.2.1⟩
  have hf : key.feeTier.fee ≤ 10 ^ 12 := by have := htier.2.2; rw [pctOne_eq] at this; exact this.le
  have hag := reach_agree s hre _ _ hp
  have hi : (s.ticks.get (key, i)).isSome := by rw [ht]; rfl
  have hk := (hw.tick _ _ _ ht).1
  have ep : t.sqrtPrice = priceOf i := calc_grid hk.grid hk.price
  have hL := reach_liqLt s hre _ _ hp
  obtain ⟨h1, h2, h3, h4, h5, h6, h7, h8, h9⟩ := h
  rw [ep] at h5 h6 h7 h8 h9 ⊢
  have hpi : PriceOK (priceOf i) := priceOK_of_tick (calculateSqrtPrice_eq hk.grid.2.1 hk.grid.2.2)
  have hL0 : pool.liquidity ≠ 0 := by
    intro h0
    rw [h0] at h6
    unfold amountX liq at h6
    norm_num at h6
  have hab : 23 * 10 ^ 37 ≤ pool.sqrtPrice * priceOf i :=
    le_trans (by norm_num [MIN_SQRT_PRICE]) (Nat.mul_le_mul hag.price.1 hpi.1)
  have hX : amountX pool.sqrtPrice (priceOf i) pool.liquidity < 2 ^ 255 := by
    have : (0 : ℚ) ≤ bal s.balances env.caller key.tokenX := by exact_mod_cast Nat.zero_le _
    linarith
  obtain ⟨out, ho⟩ := C04_succeeds hag.price.1 hag.price.2 hpi.1 hpi.2 hL hX false
  have hout := (getDeltaX_down_ok ho).1
  have ho0 : out ≠ 0 := by
    intro h0
    have := le_dxDown (L := pool.liquidity) hab
    rw [← hout, h0] at this
    unfold relX at this
    norm_num at this
    linarith
  have hole : (out : ℚ) ≤ amountX pool.sqrtPrice (priceOf i) pool.liquidity := by
    rw [hout]
    exact dxDown_le_amountX (by have := hag.price.1; norm_num [MIN_SQRT_PRICE] at this; omega)
      (by have := hpi.1; norm_num [MIN_SQRT_PRICE] at this; omega) _
  have ec := costUp_eq pool.sqrtPrice (priceOf i) pool.liquidity key.feeTier.fee
  obtain ⟨st, hst, e1, e2, e3, e5, e4⟩ := iter_at_next (now := env.now) hw hs hag hi h1 h2 h4 h3 h5 hL0 hL hf hpf ho
    (by rw [← ec]; exact h9)
  have hstart : swapStart s key false out (priceOf i) = .ok pool := by
    have := hpi.1
    simp only [swapStart, bind_ok_iff, failIf_ok_iff, poolsGet_ok, pure_ok_iff]
    exact ⟨(), ho0, pool, hp, (), by simp, (), by rintro ⟨-, hc⟩; omega, rfl⟩
  have hc := calc_of_round hstart ho0 hst e1 (by rw [e2]; exact ho0)
  have hq : quote s env.now key false out false (priceOf i) = .ok ⟨st.totalIn, st.totalOut, st.pool.sqrtPrice, st.ticks⟩ := by
    unfold quote
    rw [hc]
    rfl
  obtain ⟨s', r, hsw, g1, g2, g3, g4⟩ := C30_swap_of_quote (env := env) hre hq
    (by dsimp only; rw [e4, ← ec]; exact h8)
    (by
      dsimp only
      rw [e2]
      have : ((bal s.balances env.caller key.tokenX + out : Nat) : ℚ) < ((2 ^ 255 : Nat) : ℚ) := by
        push_cast
        linarith
      have : bal s.balances env.caller key.tokenX + out < 2 ^ 255 := by exact_mod_cast this
      exact lt_trans this (by norm_num))
  refine ⟨out, (s', r), hsw, ?_, ?_, ?_⟩
  · dsimp only; rw [g1, ec]; exact e4
  · dsimp only; rw [g3]; exact e3
  · dsimp only; rw [g4]; exact e5

/-- In any pool with a right counter, anybody who can pay for the X up to the next initialised tick can make the counter
wrong by the net liquidity of that tick, in one call that costs them no more than an honest purchase. -/
theorem C34_attack {s : Inv} {env : Env} (hr : Reach32 s) (hpf : s.protocolFee ≤ 10 ^ 12) {key : PoolKey} {pool : Pool}
    (hp : s.pools.get key = some pool) (hI : pool.liquidity = activeLiq s key pool.currentTickIndex)
    {i : Int} {t : Tick} (ht : s.ticks.get (key, i) = some t)
    (h : InReach s key pool i t.sqrtPrice env.caller) :
    ∃ amount r pool', Service.swap env s key false amount false t.sqrtPrice = .ok r ∧
      r.2.amountIn = costUp pool.sqrtPrice t.sqrtPrice pool.liquidity key.feeTier.fee ∧
      r.1.pools.get key = some pool' ∧ pool'.currentTickIndex = i ∧ pool'.liquidity = activeLiq r.1 key (i - 1) ∧
      (pool'.liquidity : Int) = activeLiq r.1 key i - netOfPositions r.1 key i ∧
      (netOfPositions s key i ≠ 0 → pool'.liquidity ≠ activeLiq r.1 key pool'.currentTickIndex) := by
  obtain ⟨out, r, hsw, g1, g2, -⟩ := attack_swap hr hpf hp ht h
  obtain ⟨pool', k1, k2, k3, k4⟩ := C34_limit hr hp hI ht hsw g2
  refine ⟨out, r, pool', hsw, g1, k1, k2, k3, k4, ?_⟩
  intro hn hcontra
  have en : netOfPositions r.1 key i = netOfPositions s key i := by
    rw [netOf_eq, swap_positions hsw, ← netOf_eq]
  rw [k2] at hcontra
  rw [hcontra, en] at k4
  omega

/-- C36, for everybody to abuse: the same purchase locks up every position that contains the tick and is larger than
everything that was active just below it, for instance a large position that starts at the tick: its owner cannot
remove it. -/
theorem C36_attack {s : Inv} {env : Env} (hr : Reach32 s) (hpf : s.protocolFee ≤ 10 ^ 12) {key : PoolKey} {pool : Pool}
    (hp : s.pools.get key = some pool) (hI : pool.liquidity = activeLiq s key pool.currentTickIndex)
    {i : Int} {t : Tick} (ht : s.ticks.get (key, i) = some t)
    (h : InReach s key pool i t.sqrtPrice env.caller) :
    ∃ amount r, Service.swap env s key false amount false t.sqrtPrice = .ok r ∧
      ∀ owner k p, s.positions.map.get (owner, k) = some p → p.poolKey = key → p.lowerTickIndex ≤ i →
        i < p.upperTickIndex → activeLiq s key (i - 1) < p.liquidity →
        ∀ env' : Env, env'.caller = owner → ∀ s' x y, removePosition env' r.1 k ≠ .ok (s', x, y) := by
  obtain ⟨amount, r, pool', h1, -, h2, h3, h4, -⟩ := C34_attack hr hpf hp hI ht h
  refine ⟨amount, r, h1, ?_⟩
  rintro owner k p hpos rfl hlo hup hlt env' rfl s' x y hrem
  have hre := (reach32_reach s hr).1
  have hps := swap_positions h1
  have hr1 : Reach r.1 := by
    refine Reach.call (env := env) (c := .swap p.poolKey false amount false t.sqrtPrice) hre ?_
    simp only [step, bind_ok_iff, pure_ok_iff]
    exact ⟨_, h1, rfl⟩
  have := remove_needs hr1 hrem (p := p) (posGet_ok.2 (by rw [hps]; exact hpos)) h2 (by omega) (by omega)
  rw [h4, activeLiq_eq, hps, ← activeLiq_eq] at this
  omega

/-- the growth inside a range whose upper tick the price has reached without crossing it -/
private theorem inside_jump {lo i cur : Int} {ol ou g g' : Nat} (hlo : lo ≤ cur) (hi : cur < i) (h1 : ol < 2 ^ 128)
    (h2 : ou < 2 ^ 128) (h3 : g < 2 ^ 128) (h4 : g' < 2 ^ 128) :
    feeGrowthInside1 lo ol i ou i g' = (feeGrowthInside1 lo ol i ou cur g + 2 * ou + (2 ^ 128 - g)) % 2 ^ 128 := by
  unfold feeGrowthInside1
  simp only [ge_iff_le, if_pos hlo, if_pos hi, if_pos (show lo ≤ i by omega), lt_irrefl, if_false]
  have lt : ∀ {a b : Nat}, a < 2 ^ 128 → b < 2 ^ 128 → fgSub a b < 2 ^ 128 := by
    intro a b ha hb
    rw [fgSub_eq ha hb]
    exact Nat.mod_lt _ (by positivity)
  rw [fgSub_eq (lt h4 h1) (lt h4 h2), fgSub_eq (lt h3 h1) h2, fgSub_eq h4 h1, fgSub_eq h4 h2, fgSub_eq h3 h1]
  omega

/-- C54, for everybody to abuse: the same purchase makes the growth of both tokens inside every range that contains the
price and ends at the tick jump by twice the growth outside the tick less the whole growth of the pool (modulo 2^128),
whatever has been paid. -/
theorem C54_attack {s : Inv} {env : Env} (hr : Reach32 s) (hpf : s.protocolFee ≤ 10 ^ 12) {key : PoolKey} {pool : Pool}
    (hp : s.pools.get key = some pool) (hI : pool.liquidity = activeLiq s key pool.currentTickIndex)
    {i : Int} {t : Tick} (ht : s.ticks.get (key, i) = some t)
    (h : InReach s key pool i t.sqrtPrice env.caller) :
    ∃ amount r pool', Service.swap env s key false amount false t.sqrtPrice = .ok r ∧
      r.2.amountIn = costUp pool.sqrtPrice t.sqrtPrice pool.liquidity key.feeTier.fee ∧
      r.1.pools.get key = some pool' ∧ r.1.ticks = s.ticks ∧
      ∀ lo ix iy, lo ≤ pool.currentTickIndex → (world s key pool).insideX lo i = some ix →
        (world s key pool).insideY lo i = some iy →
        (world r.1 key pool').insideX lo i =
          some ((ix + 2 * t.feeGrowthOutsideX + (2 ^ 128 - pool.feeGrowthGlobalX)) % 2 ^ 128) ∧
        (world r.1 key pool').insideY lo i =
          some ((iy + 2 * t.feeGrowthOutsideY + (2 ^ 128 - pool.feeGrowthGlobalY)) % 2 ^ 128) := by
  have hre := (reach32_reach s hr).1
  have hw := reach_wf s hre
  have hac := reach_acc s hre
  obtain ⟨out, r, hsw, g1, g2, g3⟩ := attack_swap hr hpf hp ht h
  obtain ⟨pool', k1, k2, -, -⟩ := C34_limit hr hp hI ht hsw g2
  have hac' := reach_acc r.1 (.call (env := env) (c := .swap key false out false t.sqrtPrice) hre (by
    simp only [step, bind_ok_iff, pure_ok_iff]
    exact ⟨_, hsw, rfl⟩))
  have et : r.1.ticks = s.ticks := by
    obtain ⟨ticks, b1, b2, -, h2, -, -, e⟩ := swap_ok hsw
    rw [g3] at h2
    rw [e]
    cases h2
    rfl
  refine ⟨out, r, pool', hsw, g1, k1, et, fun lo ix iy hlo hx hy => ?_⟩
  cases hl : s.ticks.get (key, lo) with
  | none =>
    simp only [FeeWorld.insideX, world, hl, Option.bind_eq_bind, Option.bind_none] at hx
    cases hx
  | some l =>
    simp only [FeeWorld.insideX, FeeWorld.insideY, world, et, hl, ht, Option.pure_def, Option.bind_eq_bind,
      Option.bind_some, Option.some.injEq] at hx hy ⊢
    have ei := hw.indexed _ _ _ ht
    have el := hw.indexed _ _ _ hl
    rw [ei, el] at hx hy
    rw [ei, el, k2, ← hx, ← hy]
    exact ⟨inside_jump hlo h.above (hac.tick _ _ hl).1 (hac.tick _ _ ht).1 (hac.pool _ _ hp).1 (hac'.pool _ _ k1).1,
      inside_jump hlo h.above (hac.tick _ _ hl).2 (hac.tick _ _ ht).2 (hac.pool _ _ hp).2 (hac'.pool _ _ k1).2⟩

/-- C54, the theft: in any pool that has ever taken a fee, whoever has a position up to a tick that has not been crossed
since it was set, say because the position is new, claims after that purchase about 2^128 units of growth for each unit
of liquidity, in every token in which a fee was taken, as far as their balance has room. -/
theorem C54_theft {s : Inv} {env : Env} (hr : Reach32 s) (hpf : s.protocolFee ≤ 10 ^ 12) {key : PoolKey} {pool : Pool}
    (hp : s.pools.get key = some pool) (hI : pool.liquidity = activeLiq s key pool.currentTickIndex)
    {i : Int} {t : Tick} (ht : s.ticks.get (key, i) = some t)
    (h : InReach s key pool i t.sqrtPrice env.caller)
    (hn : t.feeGrowthOutsideX = 0 ∧ t.feeGrowthOutsideY = 0) {owner : ActorId} {k : Nat} {q : Position}
    (hq : s.positions.map.get (owner, k) = some q) (hk : q.poolKey = key)
    (hlo : q.lowerTickIndex ≤ pool.currentTickIndex) (hup : q.upperTickIndex = i)
    (hx : (world s key pool).insideX q.lowerTickIndex i = some q.feeGrowthInsideX)
    (hy : (world s key pool).insideY q.lowerTickIndex i = some q.feeGrowthInsideY)
    {fx fy : Nat} (hfx : fx = (2 ^ 128 - pool.feeGrowthGlobalX) % 2 ^ 128 * q.liquidity / 10 ^ 33)
    (hfy : fy = (2 ^ 128 - pool.feeGrowthGlobalY) % 2 ^ 128 * q.liquidity / 10 ^ 33) :
    ∃ amount r, Service.swap env s key false amount false t.sqrtPrice = .ok r ∧
      r.2.amountIn = costUp pool.sqrtPrice t.sqrtPrice pool.liquidity key.feeTier.fee ∧
      ∀ env' : Env, env'.caller = owner → bal r.1.balances owner key.tokenX + fx < 2 ^ 256 →
        bal r.1.balances owner key.tokenY + fy < 2 ^ 256 →
        ∃ r', claimFee env' r.1 k = .ok r' ∧ r'.2 = (fx, fy) := by
  obtain ⟨amount, r, pool', g1, g2, g3, g4, g5⟩ := C54_attack hr hpf hp hI ht h
  refine ⟨amount, r, g1, g2, ?_⟩
  rintro env' rfl hbx hby
  subst hk
  have hre := (reach32_reach s hr).1
  have hac := reach_acc s hre
  have hps := swap_positions g1
  have hr1 : Reach32 r.1 := by
    refine .call (env := env) (c := .swap q.poolKey false amount false t.sqrtPrice) hr ?_ ?_
    · simp only [step, bind_ok_iff, pure_ok_iff]
      exact ⟨_, g1, rfl⟩
    · intro a
      rw [hps]
      exact (reach32_reach s hr).2 a
  obtain ⟨j1, j2⟩ := g5 _ _ _ hlo hx hy
  have hq' : r.1.positions.get env'.caller k = .ok q := posGet_ok.2 (by rw [hps]; exact hq)
  have hin := stored_posIn hr hq
  have qx := hin.accX
  have qy := hin.accY
  have gx := (hac.pool _ _ hp).1
  have gy := (hac.pool _ _ hp).2
  have grid : ∀ j, (s.ticks.get (q.poolKey, j)).isSome → calculateSqrtPrice j = .ok (priceOf j) := by
    intro j hj
    have := tick_grid (reach_wf s hre) hj
    exact calculateSqrtPrice_eq this.2.1 this.2.2
  obtain ⟨wx, wy, hW⟩ : ∃ wx wy, Worth r.1 q pool' wx wy fx fy := by
    refine ⟨_, _, _, _, _, _, grid _ hin.lo, grid _ hin.hi, by rw [hup]; exact j1, by rw [hup]; exact j2, rfl, rfl, ?_, ?_⟩
    · rw [hfx, hn.1]
      congr 2
      omega
    · rw [hfy, hn.2]
      congr 2
      omega
  obtain ⟨r', hc⟩ := (C70_claim (env := env') hr1 hq' g3 hW).2 ⟨hbx, hby⟩
  exact ⟨r', hc, C70_amount (reach32_reach _ hr1).1 hq' g3 hW hc⟩

private theorem price_at {s : Inv} {key : PoolKey} {i : Int} {t : Tick} {p : Nat} (ht : s.ticks.get (key, i) = some t)
    (h : (s.ticks.get (key, i)).map (·.sqrtPrice) = some p) : t.sqrtPrice = p := by
  rw [ht] at h
  exact Option.some.inj h

private theorem reach_of {s : Inv} {key : PoolKey} {i : Int} {who : ActorId}
    (hc : ((s.pools.get key).bind fun pool => (s.ticks.get (key, i)).map fun t =>
      decide (pool.currentTickIndex < i ∧ i ≤ pool.currentTickIndex + 256 * key.feeTier.tickSpacing ∧
        i + key.feeTier.tickSpacing ≤ MAX_TICK ∧ pool.sqrtPrice < t.sqrtPrice ∧
        2 ≤ amountX pool.sqrtPrice t.sqrtPrice pool.liquidity ∧
        bal s.balances who key.tokenX + amountX pool.sqrtPrice t.sqrtPrice pool.liquidity < 2 ^ 255 ∧
        dyUp pool.sqrtPrice t.sqrtPrice pool.liquidity +
          cdiv (dyUp pool.sqrtPrice t.sqrtPrice pool.liquidity * key.feeTier.fee) (10 ^ 12) ≤
            bal s.balances who key.tokenY ∧
        pool.feeProtocolTokenY + (dyUp pool.sqrtPrice t.sqrtPrice pool.liquidity +
          cdiv (dyUp pool.sqrtPrice t.sqrtPrice pool.liquidity * key.feeTier.fee) (10 ^ 12)) < 2 ^ 256)) = some true)
    (hall : ((s.pools.get key).map fun pool => s.ticks.entries.all (fun e =>
      decide (e.1.1 = key → e.1.2 ≤ pool.currentTickIndex ∨ i ≤ e.1.2))) = some true) :
    ∃ pool t, s.pools.get key = some pool ∧ s.ticks.get (key, i) = some t ∧ InReach s key pool i t.sqrtPrice who := by
  obtain ⟨pool, hp, hc⟩ := Option.bind_eq_some_iff.1 hc
  obtain ⟨t, ht, hc⟩ := Option.map_eq_some_iff.1 hc
  obtain ⟨h1, h2, h3, h4, h5, h6, h7, h8⟩ := of_decide_eq_true hc
  rw [hp] at hall
  have hall := Option.some.inj hall
  refine ⟨pool, t, hp, ht, h1, h2, h3, ?_, h4, h5, h6, by rw [costUp_eq]; exact h7, by rw [costUp_eq]; exact h8⟩
  intro j g1 g2
  cases hg : s.ticks.get (key, j) with
  | none => rfl
  | some u =>
    rw [Map.get_mem] at hg
    have := of_decide_eq_true (List.all_eq_true.1 hall _ hg) rfl
    dsimp only at this
    omega

/-- the pool of the demo history, seen by user 2: a position of 3·10^15 ends at the next tick, 10 -/
example : ∃ amount r pool', Service.swap (Demo.by_ 2) Demo.start Demo.key false amount false (priceOf 10) = .ok r ∧
    r.1.pools.get Demo.key = some pool' ∧ pool'.liquidity ≠ activeLiq r.1 Demo.key pool'.currentTickIndex := by
  obtain ⟨pool, t, hp, ht, h⟩ := reach_of (s := Demo.start) (key := Demo.key) (i := 10) (who := 2) (by decide +kernel)
    (by decide +kernel)
  have et : t.sqrtPrice = priceOf 10 := price_at ht (by decide +kernel)
  obtain ⟨amount, r, pool', g1, -, g2, -, -, -, g3⟩ := C34_attack (env := Demo.by_ 2) (clear_reach32 _ demo_start_clear)
    (by decide +kernel) hp (clear_liqOK _ demo_start_clear _ _ hp) ht h
  exact ⟨amount, r, pool', by rw [← et]; exact g1, g2, g3 (by decide +kernel)⟩

/-- the same pool with a position of 10^16 of user 3 that starts at tick 10: user 3 can remove it before, but not after
user 2 has bought the X below -/
example : let s := run (Demo.by_ 3) Demo.start (.createPosition Demo.key 10 20 (10 ^ 16) 0 (10 ^ 25))
    (removePosition (Demo.by_ 3) s 2).toBool = true ∧
    ∃ amount r, Service.swap (Demo.by_ 2) s Demo.key false amount false (priceOf 10) = .ok r ∧
      ∀ s' x y, removePosition (Demo.by_ 3) r.1 2 ≠ .ok (s', x, y) := by
  have hc := clear_run (c := .createPosition Demo.key 10 20 (10 ^ 16) 0 (10 ^ 25)) (env := Demo.by_ 3) demo_start_clear
    ⟨by simp, by simp⟩ (by decide +kernel)
  refine ⟨by decide +kernel, ?_⟩
  obtain ⟨pool, t, hp, ht, h⟩ := reach_of
    (s := run (Demo.by_ 3) Demo.start (.createPosition Demo.key 10 20 (10 ^ 16) 0 (10 ^ 25)))
    (key := Demo.key) (i := 10) (who := 2) (by decide +kernel) (by decide +kernel)
  have et : t.sqrtPrice = priceOf 10 := price_at ht (by decide +kernel)
  obtain ⟨amount, r, g1, g2⟩ := C36_attack (env := Demo.by_ 2) (clear_reach32 _ hc)
    (by decide +kernel) hp (clear_liqOK _ hc _ _ hp) ht h
  refine ⟨amount, r, by rw [← et]; exact g1, fun s' x y => ?_⟩
  have hq : ((run (Demo.by_ 3) Demo.start (.createPosition Demo.key 10 20 (10 ^ 16) 0 (10 ^ 25))).positions.map.get
      (3, 2)).map (fun p => (p.poolKey, p.lowerTickIndex, p.upperTickIndex, p.liquidity)) =
      some (Demo.key, 10, 20, 10 ^ 16) := by decide +kernel
  obtain ⟨p, hq, e⟩ := Option.map_eq_some_iff.1 hq
  simp only [Prod.mk.injEq] at e
  obtain ⟨e1, e2, e3, e4⟩ := e
  refine g2 3 2 p hq e1 (by omega) (by omega) ?_ (Demo.by_ 3) rfl s' x y
  rw [e4]
  decide +kernel

/-- the demo history after user 3 has sold 10^6 of X and user 2 has made a position of 10^15 from tick -20 to the
fresh tick 0 -/
def AttackDemo.start : Inv := runAll Demo.start
  [(Demo.by_ 3, .swap Demo.key true (10 ^ 6) true MIN_SQRT_PRICE),
    (Demo.by_ 2, .createPosition Demo.key (-20) 0 (10 ^ 15) 0 (10 ^ 25))]

/-- a fee has been taken in X, tick 0 is fresh and the position is up to date; after buying the 1248749 of X up to tick
0, for less than 1.3·10^6 of Y, user 2 claims more than 3.4·10^20 of X, of which the program holds 2·10^20 -/
example : Reach32 AttackDemo.start ∧
    (∃ pool t, AttackDemo.start.pools.get Demo.key = some pool ∧ AttackDemo.start.ticks.get (Demo.key, 0) = some t ∧
      InReach AttackDemo.start Demo.key pool 0 t.sqrtPrice 2) ∧
    (AttackDemo.start.pools.get Demo.key).map (fun p => (p.feeGrowthGlobalX,
      decide (p.liquidity = activeLiq AttackDemo.start Demo.key p.currentTickIndex),
      (world AttackDemo.start Demo.key p).insideX (-20) 0)) = some (225 * 10 ^ 18, true, some (225 * 10 ^ 18)) ∧
    (AttackDemo.start.positions.map.get (2, 1)).map (fun p => (p.lowerTickIndex, p.upperTickIndex, p.liquidity,
      p.feeGrowthInsideX)) = some (-20, 0, 10 ^ 15, 225 * 10 ^ 18) ∧
    (Service.swap (Demo.by_ 2) AttackDemo.start Demo.key false 1248749 false (10 ^ 24)).toOption.map (fun r =>
      (decide (r.2.amountIn < 13 * 10 ^ 5), (claimFee (Demo.by_ 2) r.1 1).toOption.map fun r' => r'.2)) =
      some (true, some ((2 ^ 128 - 225 * 10 ^ 18) * 10 ^ 15 / 10 ^ 33, 0)) ∧
    34 * 10 ^ 19 < (2 ^ 128 - 225 * 10 ^ 18) * 10 ^ 15 / 10 ^ 33 := by
  refine ⟨?_, reach_of (by decide +kernel) (by decide +kernel), by decide +kernel, by decide +kernel, by decide +kernel,
    by norm_num⟩
  have h1 := reach32_run (clear_reach32 _ demo_start_clear) (Demo.by_ 3)
    (.swap Demo.key true (10 ^ 6) true MIN_SQRT_PRICE) (few_of_all (by decide +kernel))
  have h2 := reach32_run h1 (Demo.by_ 2) (.createPosition Demo.key (-20) 0 (10 ^ 15) 0 (10 ^ 25))
    (few_of_all (by decide +kernel))
  unfold AttackDemo.start
  simp only [runAll]
  exact h2

end Verif
