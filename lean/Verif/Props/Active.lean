import Verif.Proofs.AtLimit
import Verif.Props.Ledger

/-!
# Property C34: the pool's liquidity counter

`C34_negation` (in `Props/Exploit`) shows that the counter can be wrong. Here: it can only become wrong in
a swap that ends near an initialised tick in the sense of `Near`; a sale for an exact output never does.
-/

namespace Verif
open Verif.Service Verif.Spec

/-- C34 for histories in which no swap ends near an initialised tick (`Near`)
(full statement: in every reachable state; refuted by `C34_negation`). -/
theorem C34_clear_partial {s : Inv} (h : Clear s) {key : PoolKey} {pool : Pool}
    (hp : s.pools.get key = some pool) :
    pool.liquidity = activeLiq s key pool.currentTickIndex := clear_liqOK s h key pool hp

/-- C34, one call in any reachable state with a right counter: it stays right unless the call is a swap
that ends near an initialised tick. -/
theorem C34_step_partial {s : Inv} {env : Env} (hr : Reach32 s) (hI : ∀ key pool, s.pools.get key = some pool →
      pool.liquidity = activeLiq s key pool.currentTickIndex) :
    (∀ c s', (∀ k d a b l, c ≠ .swap k d a b l) → (∀ a e sl h, c ≠ .swapRoute a e sl h) →
      step env s c = .ok s' → ∀ key pool, s'.pools.get key = some pool →
        pool.liquidity = activeLiq s' key pool.currentTickIndex) ∧
    (∀ k d a b l r, Service.swap env s k d a b l = .ok r → ∀ key pool, r.1.pools.get key = some pool →
      pool.liquidity = activeLiq r.1 key pool.currentTickIndex ∨ (key = k ∧ Near s k d b l r.2.targetSqrtPrice)) := by
  constructor
  · intro c s' h1 h2 h
    refine liqOK_step (env := env) hr hI ?_
    have := step_effectIf h2 h
    rwa [eq_false (p := ∃ k d a b l, c = .swap k d a b l)] at this
    rintro ⟨k, d, a, b, l, e⟩
    exact h1 k d a b l e
  · intro k d a b l r h key pool hp
    by_cases hn : Near s k d b l r.2.targetSqrtPrice
    · by_cases hk : key = k
      · exact .inr ⟨hk, hn⟩
      · left
        obtain ⟨ticks, b1, b2, h1, h2, h3, h4, e⟩ := swap_ok h
        rw [activeLiq_eq, swap_positions h, ← activeLiq_eq]
        rw [e] at hp
        dsimp only at hp
        rw [Map.get_insert, if_neg hk] at hp
        exact hI key pool hp
    · exact .inl (liqOK_swap hr hI h hn key pool hp)

/-- Where the counter goes wrong (the cause of `C34_negation`): whenever a purchase of X stops at its limit exactly at
an initialised tick `i`, the pool moves to the tick `i` with the liquidity that was active just below it, so its counter
differs from the liquidity active at `i` by exactly the net liquidity of the positions starting and ending at `i`. -/
theorem C34_limit {s : Inv} {env : Env} (hr : Reach32 s) {key : PoolKey} {pool : Pool}
    (hp : s.pools.get key = some pool) (hI : pool.liquidity = activeLiq s key pool.currentTickIndex)
    {i : Int} {t : Tick} (ht : s.ticks.get (key, i) = some t) {amount : Nat} {byIn : Bool}
    {r : Inv × CalculateSwapResult} (h : Service.swap env s key false amount byIn t.sqrtPrice = .ok r)
    (hend : r.2.targetSqrtPrice = t.sqrtPrice) :
    ∃ pool', r.1.pools.get key = some pool' ∧ pool'.currentTickIndex = i ∧
      pool'.liquidity = activeLiq r.1 key (i - 1) ∧
      (pool'.liquidity : Int) = activeLiq r.1 key i - netOfPositions r.1 key i := by
  have hre := (reach32_reach s hr).1
  have hw := reach_wf s hre
  have hl := reach32_ledger s hr
  obtain ⟨ticks, b1, b2, h1, h2, h3, h4, e⟩ := swap_ok h
  have hsp : Spacing key.feeTier.tickSpacing := by
    have := ((reach_tiers hre).pools key (by rw [hp]; rfl)).1
    exact ⟨this.1, this.2.1⟩
  have hi : (s.ticks.get (key, i)).isSome := by rw [ht]; rfl
  have hk := (hw.tick _ _ _ ht).1
  obtain ⟨c1, c2⟩ := calculateSwap_limit hw hl hsp h1 hp (reach_agree s hre _ _ hp) hI hi
    (calc_grid hk.grid hk.price) hend
  have hpos := swap_positions h
  have ea : ∀ j, activeLiq r.1 key j = activeLiq s key j := fun j => by
    rw [activeLiq_eq, hpos, ← activeLiq_eq]
  have en : netOfPositions r.1 key i = netOfPositions s key i := by
    rw [netOf_eq, hpos, ← netOf_eq]
  have hc := active_cross (key := key) hw hl (c := i - 1) (u := i) (by omega) (fun j h1 h2 => by omega)
  rw [hl.net] at hc
  refine ⟨r.2.pool, ?_, c1, by rw [ea, c2], ?_⟩
  · rw [e]; dsimp only; rw [Map.get_insert, if_pos rfl]
  · rw [ea, en, c2]; omega

/-- a purchase of all of token X the demo pool has below tick 10, with its limit at the price of that tick, where a
position of 3·10^15 ends -/
example : (Service.swap (Demo.by_ 2) Demo.start Demo.key false 19994001 false (priceOf 10)).toOption.map (fun r =>
      (decide (r.2.targetSqrtPrice = (priceOf 10)),
        (r.1.pools.get Demo.key).map (fun p => (p.currentTickIndex, p.liquidity)),
        activeLiq r.1 Demo.key 10, netOfPositions r.1 Demo.key 10)) =
    some (true, some (10, 4 * 10 ^ 15), 10 ^ 15, -(3 * 10 ^ 15)) := by decide +kernel

/-! ### the demo history is clear -/

theorem few_of_all {s : Inv} (h : s.positions.length.entries.all (fun e => decide (e.2 + 1 < 2 ^ 32)) = true) :
    FewPositions s := by
  intro a
  unfold Positions.getLength
  cases hg : s.positions.length.get a with
  | none => simp
  | some v =>
    rw [Map.get_mem] at hg
    exact of_decide_eq_true (List.all_eq_true.1 h _ hg)

theorem clear_run {s : Inv} (h : Clear s) {env : Env} {c : Call}
    (hc : (∀ k d a b l, c ≠ .swap k d a b l) ∧ ∀ a e sl h, c ≠ .swapRoute a e sl h)
    (hf : (run env s c).positions.length.entries.all (fun e => decide (e.2 + 1 < 2 ^ 32)) = true) :
    Clear (run env s c) := by
  have hf := few_of_all hf
  unfold run at hf ⊢
  split
  · next s' hs => rw [hs] at hf; exact .call h hc hs hf
  · exact h

theorem not_near_of_all {s : Inv} {key : PoolKey} {x b : Bool} {l p : Nat}
    (h : s.ticks.entries.all (fun e => decide (e.1.1 = key → ¬ (p ≤ e.2.sqrtPrice ∧
      e.2.sqrtPrice ≤ p + 65536))) = true) : ¬ Near s key x b l p := by
  rintro ⟨i, t, ht, hc⟩
  rw [Map.get_mem] at ht
  refine of_decide_eq_true (List.all_eq_true.1 h _ ht) rfl ?_
  dsimp only
  split at hc <;> constructor <;> omega

theorem demo_start_clear : Clear Demo.start := by
  have h0 : Clear Demo.funded := by
    refine .transfers (s := Inv.init 1 (10 ^ 11)) (aw := ∅) (.init _ _) ?_
    intro k v hk
    simp only [Map.get_insert] at hk
    split_ifs at hk <;> first | (cases hk; norm_num) | simp at hk
  have h1 := clear_run (c := .addFeeTier Demo.tier) (env := Demo.by_ 1) h0 ⟨by simp, by simp⟩ (by decide +kernel)
  have h2 := clear_run (c := .addFeeTier Demo.tier2) (env := Demo.by_ 1) h1 ⟨by simp, by simp⟩ (by decide +kernel)
  have h3 := clear_run (c := .createPool 7 5 Demo.tier (10 ^ 24) 0) (env := Demo.by_ 2) h2 ⟨by simp, by simp⟩
    (by decide +kernel)
  have h4 := clear_run (c := .createPool 5 7 Demo.tier2 (10 ^ 24) 0) (env := Demo.by_ 2) h3 ⟨by simp, by simp⟩
    (by decide +kernel)
  have h5 := clear_run (c := .createPosition Demo.key (-20) 20 (10 ^ 15) (10 ^ 24) (10 ^ 24))
    (env := Demo.by_ 2) h4 ⟨by simp, by simp⟩ (by decide +kernel)
  have h6 := clear_run (c := .createPosition Demo.key (-10) 10 (3 * 10 ^ 15) 0 (10 ^ 25))
    (env := Demo.by_ 3) h5 ⟨by simp, by simp⟩ (by decide +kernel)
  have h7 := clear_run (c := .createPosition Demo.key2 (-100) 100 (10 ^ 16) 0 (10 ^ 25))
    (env := Demo.by_ 3) h6 ⟨by simp, by simp⟩ (by decide +kernel)
  unfold Demo.start
  simp only [runAll]
  exact h7

theorem demo_traded_clear : Clear Demo.traded := by
  unfold Demo.traded
  simp only [runAll]
  unfold run
  split
  · next s' hs =>
    simp only [step, bind_ok_iff, pure_ok_iff] at hs
    obtain ⟨r, hr, rfl⟩ := hs
    refine .swap demo_start_clear hr ?_
    have h1 : (Service.swap (Demo.by_ 2) Demo.start Demo.key true (22 * 10 ^ 6) true MIN_SQRT_PRICE).toOption.map
        (fun r => Demo.start.ticks.entries.all (fun e => decide (e.1.1 = Demo.key →
          ¬ (r.2.targetSqrtPrice ≤ e.2.sqrtPrice ∧ e.2.sqrtPrice ≤ r.2.targetSqrtPrice + 65536)))) =
        some true := by decide +kernel
    rw [hr] at h1
    simp only [Except.toOption, Option.map_some, Option.some.injEq] at h1
    exact not_near_of_all h1
  · exact demo_start_clear

/-- in the demo history the swap crosses tick -10 and ends clear of the ticks; the counter is 10^15 -/
example : (Demo.traded.pools.get Demo.key).map (fun p => (p.currentTickIndex, p.liquidity,
      activeLiq Demo.traded Demo.key p.currentTickIndex, activeLiq Demo.start Demo.key 0)) =
    some (-20, 10 ^ 15, 10 ^ 15, 4 * 10 ^ 15) := by decide +kernel

end Verif
