import Verif.Spec.Credited
import Verif.Proofs.Keeps
import Verif.Props.AvgPrice
import Verif.Props.Paid

/-!
# Property C107: what a trader pays is credited to the positions and the protocol, but for the roundings

False of the code (`C107_negation`): after a swap that ended exactly at a tick the pool computes with liquidity that
no position has, and the share of what a trader pays for it is credited to nobody. Here: it holds where no swap has
ended near an initialised tick, as long as the growth of the fees of no position turns over.
-/

namespace Verif
open Service Spec

variable {s : Inv} {key : PoolKey}

theorem credited_eq (hr : Reach32 s) {pool : Pool} (hp : s.pools.get key = some pool) (tok : Bool) :
    credited tok s key = poolWorth s.positions key tok (world s key pool) + protoOf tok pool := by
  have hre := (reach32_reach _ hr).1
  have ha := reach_agree _ hre _ _ hp
  unfold credited
  rw [hp]
  dsimp only
  have e1 : curveHeld tok s key pool.sqrtPrice = curveSum s.positions key tok (world s key pool) := by
    unfold world
    rw [curveSum_eq hr ha, curveHeld_eq hr]
  have e2 : ((if tok = true then pool.feeProtocolTokenX else pool.feeProtocolTokenY : Nat) : ℚ) = protoOf tok pool := rfl
  have hwf : (world s key pool).WF :=
    ⟨((reach_acc _ hre).pool _ _ hp).1, ((reach_acc _ hre).pool _ _ hp).2, fun i t ht =>
      ⟨(reach_wf _ hre).indexed _ _ _ ht, ((reach_acc _ hre).tick _ _ ht).1, ((reach_acc _ hre).tick _ _ ht).2⟩⟩
  rw [e1, e2]
  congr 1
  unfold curveSum poolAccrued poolWorth posSum
  rw [← Map.sum_add]
  refine Map.sum_congr fun k q hq => ?_
  dsimp only
  by_cases hk : q.poolKey = key
  · rw [if_pos hk, if_pos hk, if_pos hk]
    unfold worth
    congr 1
    have hin := stored_posIn hr hq
    unfold accrued grown insideOf
    have hs : snapOf tok q < 2 ^ 128 := by unfold snapOf; split; exacts [hin.accX, hin.accY]
    cases e : (if tok = true then (world s key pool).insideX q.lowerTickIndex q.upperTickIndex
      else (world s key pool).insideY q.lowerTickIndex q.upperTickIndex) with
    | none => simp
    | some i =>
      dsimp only
      have hi : i < 2 ^ 128 := inside_lt (tok := tok) hwf e
      rw [fgSub_eq hi hs, ← Nat.add_sub_assoc hs.le]
      rfl
  · rw [if_neg hk, if_neg hk, if_neg hk, add_zero]

/-- C107 for pools in which no swap has ended near an initialised tick (`Near`), and swaps that do not (full statement:
for all swaps; refuted by `C107_negation`): what the trader pays is credited to the positions and the protocol, up to
5·10^-15 parts of it in token X, and one unit and two roundings of the fee growth for each of the `n` rounds of the
swap; what the trader gets is what the positions and the protocol lose, up to one unit a round, as much again in token X,
and, where the output is given, one unit of the price in the last round. The rounds are bounded by the ticks passed,
exact outputs of X aside. -/
theorem C107_credited_partial (hc : Clear s) {env : Env} {xToY byIn : Bool} {amount limit : Nat}
    {r : Inv × CalculateSwapResult} (h : Service.swap env s key xToY amount byIn limit = .ok r)
    (hn : ¬ Near s key xToY byIn limit r.2.targetSqrtPrice) {pool : Pool} (hp : s.pools.get key = some pool)
    {M : Nat} (hM : Roomy xToY s key pool r.2.amountIn M) :
    ∃ n, TookRounds s ⟨key, xToY, byIn, limit, env.now⟩ pool amount r.2 n ∧
    (byIn = true ∨ xToY = true → n ≤ rounds pool r.2 key.feeTier.tickSpacing) ∧
    ((1 - if xToY then 1 / (2 * 10 ^ 14) else 0) * r.2.amountIn - n * (1 + 2 * poolLiq s key / 10 ^ 33) ≤
      credited xToY r.1 key - credited xToY s key ∧
     credited xToY r.1 key - credited xToY s key ≤ r.2.amountIn + if xToY then 1 / 10 ^ 8 else 0) ∧
    (r.2.amountOut ≤ credited (!xToY) s key - credited (!xToY) r.1 key ∧
     credited (!xToY) s key - credited (!xToY) r.1 key ≤
      (1 + if xToY then 0 else 1 / (2 * 10 ^ 14)) * (r.2.amountOut + n) +
        if byIn then 0 else lastUnit xToY pool.sqrtPrice (poolLiq s key)) := by
  have hr := clear_reach32 _ hc
  have hre := (reach32_reach _ hr).1
  obtain ⟨ticks, b1, b2, h1, h2, _, _, e⟩ := swap_ok h
  obtain ⟨⟨hs1, hs2, hs3⟩, _⟩ := (reach_tiers hre).pools key (by rw [hp]; rfl)
  have hr' := clear_reach32 _ (Clear.swap hc h hn)
  have hp' : r.1.pools.get key = some r.2.pool := by rw [e]; exact Map.get_insert_self _ _ _
  have ha := reach_agree _ hre _ _ hp
  have hps : ∀ k q, s.positions.map.get k = some q → q.poolKey = key → PosIn s key q :=
    fun j q hq hk => by have := stored_posIn hr hq; rwa [hk] at this
  have hwf : (world s key pool).WF :=
    ⟨((reach_acc _ hre).pool _ _ hp).1, ((reach_acc _ hre).pool _ _ hp).2, fun i t ht =>
      ⟨(reach_wf _ hre).indexed _ _ _ ht, ((reach_acc _ hre).tick _ _ ht).1, ((reach_acc _ hre).tick _ _ ht).2⟩⟩
  have hL := clear_liqOK _ hc _ _ hp
  obtain ⟨M0, M1, M2⟩ := hM
  have hlt : ∀ k q, s.positions.map.get k = some q → q.poolKey = key →
      grown xToY (world s key pool) q * M + r.2.amountIn * 10 ^ 33 < 2 ^ 128 * M := by
    intro k q hq hk
    have hin := hps k q hq hk
    have hd := Nat.div_add_mod (r.2.amountIn * 10 ^ 33) M
    have hm := Nat.mod_lt (r.2.amountIn * 10 ^ 33) M0
    have hs : snapOf xToY q < 2 ^ 128 := by unfold snapOf; split; exacts [hin.accX, hin.accY]
    have key2 : grown xToY (world s key pool) q + r.2.amountIn * 10 ^ 33 / M + 1 < 2 ^ 128 := by
      obtain ⟨⟨ix, hx⟩, iy, hy⟩ := inside_isSome (w := world s key pool) (q := q) hin.lo hin.hi
      have : ∃ i, insideOf xToY (world s key pool) q = some i := by
        unfold insideOf; cases xToY
        · exact ⟨iy, hy⟩
        · exact ⟨ix, hx⟩
      obtain ⟨i, hi⟩ := this
      have h3 := M2 k q i hq hk hi
      unfold grown
      rw [hi]
      dsimp only
      rw [fgSub_eq (inside_lt hwf hi) hs, ← Nat.add_sub_assoc hs.le]
      exact h3
    have h3 : (grown xToY (world s key pool) q + r.2.amountIn * 10 ^ 33 / M + 1) * M < 2 ^ 128 * M :=
      (Nat.mul_lt_mul_right M0).2 key2
    have h4 : (grown xToY (world s key pool) q + r.2.amountIn * 10 ^ 33 / M + 1) * M =
        grown xToY (world s key pool) q * M + M * (r.2.amountIn * 10 ^ 33 / M) + M := by ring
    omega
  obtain ⟨n, kt, k0, k1, k2⟩ := swap_keeps (reach_wf _ hre) (reach32_ledger _ hr) hps ⟨hs1, hs2⟩ h1 hp ha hn hwf hL
    M1 hlt h2
  obtain ⟨u1, u2⟩ := swap_balance (reach_wf _ hre) (reach32_ledger _ hr) hps ⟨hs1, hs2⟩ h1 hp ha hn hwf hL h2
  have hworld : world r.1 key r.2.pool = ⟨r.2.pool, fun i => ticks.get (key, i)⟩ := by
    unfold world; rw [e]
  have hpos : r.1.positions = s.positions := by rw [e]
  rw [credited_eq hr hp, credited_eq hr hp, credited_eq hr' hp', credited_eq hr' hp', hworld, hpos]
  have er : relOf xToY = if xToY then 1 / (2 * 10 ^ 14) else 0 := rfl
  have er' : relOf (!xToY) = if xToY then 0 else 1 / (2 * 10 ^ 14) := by
    unfold relOf relX; cases xToY <;> rfl
  rw [← er, ← er']
  have eL : allLiq s key = poolLiq s key := rfl
  rw [eL] at k1 k2
  have hx : (if xToY then slackX * 443637 else 0 : ℚ) ≤ if xToY then 1 / 10 ^ 8 else 0 := by
    cases xToY <;> norm_num [slackX]
  refine ⟨n, kt, k0, ⟨?_, ?_⟩, ?_, ?_⟩ <;> linarith

theorem roomy_of {tok : Bool} {pool : Pool} {amount M : Nat} (h0 : 0 < M)
    (h1 : s.positions.map.entries.all (fun e => decide (e.2.poolKey = key → M ≤ e.2.liquidity)) = true)
    (h2 : s.positions.map.entries.all (fun e => match (if tok then
        (world s key pool).insideX e.2.lowerTickIndex e.2.upperTickIndex
        else (world s key pool).insideY e.2.lowerTickIndex e.2.upperTickIndex) with
      | some i => decide ((i + 2 ^ 128 - if tok then e.2.feeGrowthInsideX else e.2.feeGrowthInsideY) % 2 ^ 128 +
          amount * 10 ^ 33 / M + 1 < 2 ^ 128)
      | none => true) = true) : Roomy tok s key pool amount M := by
  refine ⟨h0, fun t ht => ?_, fun k q i hq _ hi => ?_⟩
  · by_contra hc
    refine ht ?_
    have : ∀ k q, s.positions.map.get k = some q →
        (if q.poolKey = key ∧ q.lowerTickIndex ≤ t ∧ t < q.upperTickIndex then q.liquidity else 0) = 0 := by
      intro k q hq
      by_contra h3
      have hle := Map.le_sum (m := s.positions.map) (f := fun _ q =>
        if q.poolKey = key ∧ q.lowerTickIndex ≤ t ∧ t < q.upperTickIndex then q.liquidity else 0) (by simp) hq
      split at h3
      · next h4 =>
        rw [if_pos h4] at hle
        have h5 := of_decide_eq_true (List.all_eq_true.1 h1 _ ((Map.get_mem _ _ _).1 hq)) h4.1
        exact hc (le_trans h5 hle)
      · exact h3 rfl
    unfold activeLiq
    rw [Map.sum_congr (g := fun _ _ => 0) this]
    simp [Map.sum]
  · have h3 := List.all_eq_true.1 h2 _ ((Map.get_mem _ _ _).1 hq)
    dsimp only at h3
    rw [hi] at h3
    exact of_decide_eq_true h3

/-- in the demo account 2 pays 22·10^6 of X and gets 21965657 of Y across an initialised tick: the positions and the
protocol gain more than 21999998 of X and no more than 22000000, and lose less than 21965658 of Y; the least liquidity
of a position, and so of the pool where it has some, is 10^15 -/
example : Clear Demo.start ∧
    ((Demo.start.pools.get Demo.key).map fun p => (p.sqrtPrice, p.currentTickIndex)) = some (10 ^ 24, 0) ∧
    (∃ pool, Demo.start.pools.get Demo.key = some pool ∧ Roomy true Demo.start Demo.key pool (22 * 10 ^ 6) (10 ^ 15)) ∧
    (Service.swap (Demo.by_ 2) Demo.start Demo.key true (22 * 10 ^ 6) true MIN_SQRT_PRICE).toOption.map
      (fun r => (r.2.amountIn, r.2.amountOut, r.2.ticks.length)) = some (22000000, 21965657, 1) ∧
    (Service.swap (Demo.by_ 2) Demo.start Demo.key true (22 * 10 ^ 6) true MIN_SQRT_PRICE).toOption.map
      (fun r => (decide (21999998 < credited true r.1 Demo.key - credited true Demo.start Demo.key),
        decide (credited true r.1 Demo.key - credited true Demo.start Demo.key ≤ 22000000),
        decide (21965657 ≤ credited false Demo.start Demo.key - credited false r.1 Demo.key),
        decide (credited false Demo.start Demo.key - credited false r.1 Demo.key < 21965658))) =
      some (true, true, true, true) := by
  refine ⟨?_, by decide +kernel, ?_, by decide +kernel, by decide +kernel⟩
  · obtain ⟨n, _, h⟩ := demo_start_books
    exact clearBooks_clear h
  · have hq : (Demo.start.pools.get Demo.key).isSome := by decide +kernel
    obtain ⟨pool, hp⟩ := Option.isSome_iff_exists.1 hq
    refine ⟨pool, hp, ?_⟩
    have e : pool = (Demo.start.pools.get Demo.key).get hq := by simp [hp]
    rw [e]
    exact roomy_of (by norm_num) (by decide +kernel) (by clear e hp; decide +kernel +revert)

/-- for 22000001 of Y given as the output account 2 pays 22034425 of X: the positions and the protocol gain more than
22034423 of X and no more than 22034425, and lose less than 22000002 of Y -/
example : (∃ pool, Demo.start.pools.get Demo.key = some pool ∧
      Roomy true Demo.start Demo.key pool 22034425 (10 ^ 15)) ∧
    (Service.swap (Demo.by_ 2) Demo.start Demo.key true 22000001 false MIN_SQRT_PRICE).toOption.map
      (fun r => (r.2.amountIn, r.2.amountOut,
        decide (22034423 < credited true r.1 Demo.key - credited true Demo.start Demo.key),
        decide (credited true r.1 Demo.key - credited true Demo.start Demo.key ≤ 22034425),
        decide (22000001 ≤ credited false Demo.start Demo.key - credited false r.1 Demo.key),
        decide (credited false Demo.start Demo.key - credited false r.1 Demo.key < 22000002))) =
      some (22034425, 22000001, true, true, true, true) := by
  refine ⟨?_, by decide +kernel⟩
  have hq : (Demo.start.pools.get Demo.key).isSome := by decide +kernel
  obtain ⟨pool, hp⟩ := Option.isSome_iff_exists.1 hq
  refine ⟨pool, hp, ?_⟩
  have e : pool = (Demo.start.pools.get Demo.key).get hq := by simp [hp]
  rw [e]
  exact roomy_of (by norm_num) (by decide +kernel) (by clear e hp; decide +kernel +revert)

/-- for 22000001 of X given as the output account 2 pays 22034425 of Y: the positions and the protocol gain more than
22034423 of Y and no more than 22034425, and lose less than 22000003 of X -/
example : (∃ pool, Demo.start.pools.get Demo.key = some pool ∧
      Roomy false Demo.start Demo.key pool 22034425 (10 ^ 15)) ∧
    (Service.swap (Demo.by_ 2) Demo.start Demo.key false 22000001 false MAX_SQRT_PRICE).toOption.map
      (fun r => (r.2.amountIn, r.2.amountOut,
        decide (22034423 < credited false r.1 Demo.key - credited false Demo.start Demo.key),
        decide (credited false r.1 Demo.key - credited false Demo.start Demo.key ≤ 22034425),
        decide (22000001 ≤ credited true Demo.start Demo.key - credited true r.1 Demo.key),
        decide (credited true Demo.start Demo.key - credited true r.1 Demo.key < 22000003))) =
      some (22034425, 22000001, true, true, true, true) := by
  refine ⟨?_, by decide +kernel⟩
  have hq : (Demo.start.pools.get Demo.key).isSome := by decide +kernel
  obtain ⟨pool, hp⟩ := Option.isSome_iff_exists.1 hq
  refine ⟨pool, hp, ?_⟩
  have e : pool = (Demo.start.pools.get Demo.key).get hq := by simp [hp]
  rw [e]
  exact roomy_of (by norm_num) (by decide +kernel) (by clear e hp; decide +kernel +revert)

/-- C107 is false: in the pool of `C34_negation`, after a swap that ended exactly at tick 10, account 2 pays 990000 of
X, and the only position and the protocol are credited with less than 495002 of it. -/
theorem C107_negation : ¬ ∀ s key env xToY byIn amount limit r pool, Reach s →
    Service.swap env s key xToY amount byIn limit = .ok r → s.pools.get key = some pool →
    ∃ n, TookRounds s ⟨key, xToY, byIn, limit, env.now⟩ pool amount r.2 n ∧
    (byIn = true ∨ xToY = true → n ≤ rounds pool r.2 key.feeTier.tickSpacing) ∧
    (1 - if xToY then 1 / (2 * 10 ^ 14) else 0) * (r.2.amountIn : ℚ) - n * (1 + 2 * poolLiq s key / 10 ^ 33) ≤
      credited xToY r.1 key - credited xToY s key := by
  intro h
  obtain ⟨held', hb, _⟩ := s0_books
  have hr2 : Reach Exploit.s2 :=
    books_reach (books_run (books_runAll _ (by simp [NoVara]) hb) _ _ (by simp [NoVara]))
  have hf : (Service.swap (Exploit.by_ 2) Exploit.s2 Exploit.key true 990000 true (10 ^ 24)).toOption.map
      (fun r => (r.2.amountIn, (Exploit.s2.pools.get Exploit.key).map fun p => rounds p r.2 Exploit.key.feeTier.tickSpacing,
        decide (credited true r.1 Exploit.key - credited true Exploit.s2 Exploit.key < 495002))) =
        some (990000, some 3, true) := by
    decide +kernel
  have hT : poolLiq Exploit.s2 Exploit.key ≤ 10 ^ 20 := by decide +kernel
  cases hs : Service.swap (Exploit.by_ 2) Exploit.s2 Exploit.key true 990000 true (10 ^ 24) with
  | error e => rw [hs] at hf; cases hf
  | ok r =>
    rw [hs] at hf
    simp only [Except.toOption, Option.map_some, Option.some.injEq, Prod.mk.injEq] at hf
    obtain ⟨e1, e2, e3⟩ := hf
    obtain ⟨pool, hp, e⟩ := Option.map_eq_some_iff.1 e2
    obtain ⟨n, -, hn, this⟩ := h _ _ _ _ _ _ _ _ _ hr2 hs hp
    rw [e1, if_pos rfl] at this
    have hn := hn (.inl rfl)
    rw [e] at hn
    have hn : (n : ℚ) ≤ 3 := by exact_mod_cast hn
    have n0 : (0 : ℚ) ≤ n := Nat.cast_nonneg _
    have h3 := of_decide_eq_true e3
    have h4 : (poolLiq Exploit.s2 Exploit.key : ℚ) ≤ 10 ^ 20 := by exact_mod_cast hT
    have h5 : 2 * (poolLiq Exploit.s2 Exploit.key : ℚ) / 10 ^ 33 ≤ 1 := by
      rw [div_le_one (by positivity)]
      linarith
    have h6 : (n : ℚ) * (1 + 2 * poolLiq Exploit.s2 Exploit.key / 10 ^ 33) ≤ 3 * 2 :=
      mul_le_mul hn (by linarith) (by positivity) (by norm_num)
    norm_num at this h3 h6
    linarith

end Verif
