import Verif.Proofs.LedgerAll
import Verif.Props.Exploit
import Verif.Spec.Demo
import Mathlib.Algebra.BigOperators.Group.Finset.Basic
import Mathlib.Algebra.Order.BigOperators.Group.Finset
import Mathlib.Order.Interval.Finset.Basic
import Mathlib.Data.Int.Interval

/-!
# Properties C33 and C12: ticks are the sums of the positions; the liquidity caps
-/

namespace Verif
open Verif.Service Verif.Spec

/-! ### C33 -/

/-- C33, for histories in which no account gets to 2^32 - 1 positions (beyond that the 32-bit position
counter wraps and positions are overwritten, `C19`): the gross liquidity and the signed liquidity
change of every tick are the sums over the positions, a tick exists exactly if a position is bounded
by it, and exactly those ticks are marked in the tick map. -/
theorem C33_ledger_partial {s : Inv} (h : Reach32 s) (key : PoolKey) (i : Int) :
    (∀ t, s.ticks.get (key, i) = some t →
      t.liquidityGross = grossLiq s key i ∧ netLiq t = netOfPositions s key i) ∧
    (s.ticks.get (key, i) = none → grossLiq s key i = 0 ∧ netOfPositions s key i = 0) ∧
    ((s.ticks.get (key, i)).isSome ↔ ∃ a n p, s.positions.get a n = .ok p ∧ p.poolKey = key ∧
      (p.lowerTickIndex = i ∨ p.upperTickIndex = i)) ∧
    (1 ≤ key.feeTier.tickSpacing → ((s.ticks.get (key, i)).isSome ↔
      tickmapGet s.tickmap i key.feeTier.tickSpacing key = .ok true)) := by
  have hr := (reach32_reach s h).1
  have hw := reach_wf s hr
  have hl := reach32_ledger s h
  have hG := hl.gross key i
  have hN := hl.net key i
  refine ⟨?_, ?_, ?_, ?_⟩
  · intro t ht
    rw [tG_some ht] at hG
    rw [tN_some ht] at hN
    exact ⟨hG, hN⟩
  · intro hn
    rw [tG_none hn] at hG
    rw [tN_none hn] at hN
    exact ⟨hG.symm, hN.symm⟩
  · constructor
    · intro hs
      by_contra hc
      push Not at hc
      have h0 : grossLiq s key i = 0 := by
        unfold grossLiq
        rw [Map.sum_congr (g := fun _ _ => 0)]
        · simp
        · rintro ⟨a, n⟩ p hp
          rw [if_neg]
          rintro ⟨h1, h2⟩
          have := hc a n p (posGet_ok.2 hp) h1
          tauto
      obtain ⟨t, ht⟩ := Option.isSome_iff_exists.1 hs
      rw [tG_some ht, h0] at hG
      exact (hw.tick _ _ _ ht).1.pos hG
    · rintro ⟨a, n, p, hp, hk, hi⟩
      have hp := posGet_ok.1 hp
      by_contra hc
      rw [Option.not_isSome_iff_eq_none] at hc
      rw [tG_none hc, grossLiq_eq] at hG
      have h1 : gC key i p ≤ posSum s.positions (gC key i) :=
        Map.le_sum (f := fun _ p => gC key i p) (fun _ _ _ => Nat.zero_le _) hp
      rw [← hG] at h1
      unfold gC at h1
      rw [if_pos ⟨hk, hi⟩] at h1
      exact (hw.pos _ _ hp).1.liq (by omega)
  · intro hk
    rw [tickmapGet_ok_iff]
    constructor
    · intro hs
      obtain ⟨t, ht⟩ := Option.isSome_iff_exists.1 hs
      have hg := (hw.tick _ _ _ ht).1.grid
      refine ⟨hg, ?_⟩
      rw [hw.bit _ _ hk hg, hs]
    · rintro ⟨hg, hb⟩
      rw [hw.bit _ _ hk hg] at hb
      exact hb.symm

/-- C33, for histories of any length: the ticks count at least the stored positions. The gross liquidity of a tick
is at least the sum over the positions bounded by it, the net liquidity differs from theirs by no more than the
gross one, every bound of a position is an existing tick, and exactly the existing ticks are marked. -/
theorem C33_covers {s : Inv} (h : Reach s) (key : PoolKey) (i : Int) :
    (∀ t, s.ticks.get (key, i) = some t → grossLiq s key i ≤ t.liquidityGross ∧
      |netLiq t - netOfPositions s key i| ≤ (t.liquidityGross : Int) - grossLiq s key i) ∧
    (s.ticks.get (key, i) = none → grossLiq s key i = 0 ∧ netOfPositions s key i = 0) ∧
    (∀ a n p, s.positions.get a n = .ok p → p.poolKey = key → (p.lowerTickIndex = i ∨ p.upperTickIndex = i) →
      (s.ticks.get (key, i)).isSome) ∧
    (1 ≤ key.feeTier.tickSpacing → ((s.ticks.get (key, i)).isSome ↔
      tickmapGet s.tickmap i key.feeTier.tickSpacing key = .ok true)) := by
  have hw := reach_wf s h
  obtain ⟨l, n, hl⟩ := reach_ledgerAll s h
  have hA := hl.abs key i
  have hG := hl.gross key i
  have hN := hl.net key i
  refine ⟨?_, ?_, ?_, ?_⟩
  · intro t ht
    rw [tG_some ht] at hG
    rw [tN_some ht] at hN
    have e : netLiq t = t.net := rfl
    rw [e, abs_le]
    omega
  · intro hn
    rw [tG_none hn] at hG
    rw [tN_none hn] at hN
    have := net_abs_le s.positions key i
    rw [← netOf_eq, ← grossLiq_eq] at this
    omega
  · intro a n p hp hk hi
    have hp := posGet_ok.1 hp
    by_contra hc
    rw [Option.not_isSome_iff_eq_none] at hc
    rw [tG_none hc, grossLiq_eq] at hG
    have h1 : gC key i p ≤ posSum s.positions (gC key i) :=
      Map.le_sum (f := fun _ p => gC key i p) (fun _ _ _ => Nat.zero_le _) hp
    unfold gC at h1
    rw [if_pos ⟨hk, hi⟩] at h1
    have h2 := (hw.pos _ _ hp).1.liq
    unfold gC at hG
    omega
  · intro hk
    rw [tickmapGet_ok_iff]
    constructor
    · intro hs
      obtain ⟨t, ht⟩ := Option.isSome_iff_exists.1 hs
      have hg := (hw.tick _ _ _ ht).1.grid
      refine ⟨hg, ?_⟩
      rw [hw.bit _ _ hk hg, hs]
    · rintro ⟨hg, hb⟩
      rw [hw.bit _ _ hk hg] at hb
      exact hb.symm

theorem reach32_run {s : Inv} (h : Reach32 s) (env : Env) (c : Call)
    (hf : FewPositions (run env s c)) : Reach32 (run env s c) := by
  unfold run at hf ⊢
  split
  · next s' hs => rw [hs] at hf; exact .call h hs hf
  · exact h

/-- tick 10 of the demo pool ends one position of 3·10^15; tick 0 is not in use -/
example : (Demo.start.ticks.get (Demo.key, 10)).map (fun t => (t.liquidityGross, netLiq t)) =
      some (3 * 10 ^ 15, -3 * 10 ^ 15) ∧ grossLiq Demo.start Demo.key 10 = 3 * 10 ^ 15 ∧
    netOfPositions Demo.start Demo.key 10 = -3 * 10 ^ 15 ∧
    (Demo.start.ticks.get (Demo.key, 0)).isNone := by decide +kernel

/-! ### C12 -/

section caps
variable {s : Inv} {key : PoolKey}

theorem posSum_finset {R ι : Type} [AddCommMonoid R] [DecidableEq ι] (ps : Positions) (A : Finset ι)
    (f : ι → Position → R) : posSum ps (fun p => ∑ j ∈ A, f j p) = ∑ j ∈ A, posSum ps (f j) := by
  induction A using Finset.induction_on with
  | empty => simp [posSum]
  | insert a A ha ih =>
    rw [Finset.sum_insert ha, ← ih]
    unfold posSum
    rw [← Map.sum_add]
    exact Map.sum_congr fun k v _ => Finset.sum_insert ha

/-- a legal tick that is not the last one -/
theorem lower_mem {sp : Nat} (hs : 1 ≤ sp) {l u : Int} (hl : Grid sp l) (hu : Grid sp u) (h : l < u) :
    ∃ j ∈ Finset.Ico (-(gridHalf sp : Int)) (gridHalf sp), j * sp = l := by
  obtain ⟨j, e1, h1, h2⟩ := grid_coord hs hl
  obtain ⟨k, e2, h3, h4⟩ := grid_coord hs hu
  refine ⟨j, ?_, e1.symm⟩
  have : j < k := by
    by_contra hc
    push Not at hc
    have : k * sp ≤ j * sp := mul_le_mul_of_nonneg_right hc (by omega)
    omega
  rw [Finset.mem_Ico]
  omega

/-- the liquidity active at a tick is at most the sum of the gross liquidities -/
theorem active_le (hw : StoreWF s) (hs : 1 ≤ key.feeTier.tickSpacing) (t : Int) :
    activeLiq s key t ≤ ∑ j ∈ Finset.Ico (-(gridHalf key.feeTier.tickSpacing : Int))
      (gridHalf key.feeTier.tickSpacing), grossLiq s key (j * key.feeTier.tickSpacing) := by
  have := posSum_finset s.positions (Finset.Ico (-(gridHalf key.feeTier.tickSpacing : Int))
      (gridHalf key.feeTier.tickSpacing)) (fun j => gC key (j * key.feeTier.tickSpacing))
  simp only [grossLiq_eq]
  rw [← this, activeLiq_eq]
  apply Map.sum_le_sum
  intro k p hp
  unfold aC
  split
  · next hc =>
    have hp := (hw.pos _ _ hp).1
    have hl := hp.lower
    have hu := hp.upper
    rw [hc.1] at hl hu
    obtain ⟨j, hj, e⟩ := lower_mem hs hl hu hp.lt
    have h1 := Finset.single_le_sum (f := fun j => gC key (j * key.feeTier.tickSpacing) p)
      (fun _ _ => Nat.zero_le _) hj
    refine le_trans ?_ h1
    unfold gC
    rw [if_pos ⟨hc.1, .inl e.symm⟩]
  · exact Nat.zero_le _

theorem cap_mul {sp : Nat} (h1 : 1 ≤ sp) (h2 : sp ≤ 100) :
    2 * gridHalf sp * (calculateMaxLiquidityPerTick sp - 1) + 1 < 2 ^ 256 ∧
      1 ≤ calculateMaxLiquidityPerTick sp ∧ 1 ≤ gridHalf sp := by
  unfold calculateMaxLiquidityPerTick gridHalf
  have ha : 2 * (221818 / sp) ≤ 443637 / sp := by
    rw [Nat.le_div_iff_mul_le (by omega)]
    have := Nat.div_mul_le_self 221818 sp
    nlinarith
  have hb : 2218 ≤ 221818 / sp := by
    rw [Nat.le_div_iff_mul_le (by omega)]; omega
  have hd : 443637 / sp ≤ 443637 := Nat.div_le_self _ _
  set d := 443637 / sp
  set g := 221818 / sp
  have hd0 : 0 < d := by omega
  have hc : 1 ≤ (2 ^ 256 - 1) / d := by
    rw [Nat.le_div_iff_mul_le hd0]; omega
  refine ⟨?_, hc, by omega⟩
  have h3 : (2 ^ 256 - 1) / d * d ≤ 2 ^ 256 - 1 := Nat.div_mul_le_self _ _
  set c := (2 ^ 256 - 1) / d
  have h4 : 2 * g * (c - 1) ≤ d * (c - 1) := Nat.mul_le_mul_right _ ha
  have h5 : d * (c - 1) + d = c * d := by
    obtain ⟨e, he⟩ : ∃ e, c = e + 1 := ⟨c - 1, by omega⟩
    rw [he, Nat.add_sub_cancel]; ring
  omega

/-- a distribution of liquidity below the caps, with `delta` more at one tick, fits -/
theorem sum_caps {sp : Nat} (h1 : 1 ≤ sp) (h2 : sp ≤ 100) (f : Int → Nat)
    (h : ∀ j, f j < calculateMaxLiquidityPerTick sp) :
    ∑ j ∈ Finset.Ico (-(gridHalf sp : Int)) (gridHalf sp), f j < 2 ^ 256 := by
  obtain ⟨h3, h4, _⟩ := cap_mul h1 h2
  have := Finset.sum_le_card_nsmul (Finset.Ico (-(gridHalf sp : Int)) (gridHalf sp)) f
    (calculateMaxLiquidityPerTick sp - 1) (fun j _ => by have := h j; omega)
  rw [Int.card_Ico, smul_eq_mul] at this
  have e : ((gridHalf sp : Int) - -(gridHalf sp : Int)).toNat = 2 * gridHalf sp := by omega
  rw [e] at this
  exact lt_of_le_of_lt this (by omega)

theorem gross_cap (hw : StoreWF s) (hl : LedgerInv s) (h1 : 1 ≤ key.feeTier.tickSpacing)
    (h2 : key.feeTier.tickSpacing ≤ 100) (i : Int) :
    grossLiq s key i < calculateMaxLiquidityPerTick key.feeTier.tickSpacing := by
  rw [← hl.gross]
  unfold tG
  split
  · next t ht => exact (hw.tick _ _ _ ht).1.cap
  · exact (cap_mul h1 h2).2.1

theorem gross_cap_all (hr : Reach s) (h1 : 1 ≤ key.feeTier.tickSpacing)
    (h2 : key.feeTier.tickSpacing ≤ 100) (i : Int) :
    grossLiq s key i < calculateMaxLiquidityPerTick key.feeTier.tickSpacing := by
  have hw := reach_wf s hr
  obtain ⟨l, n, hl⟩ := reach_ledgerAll s hr
  have hG := hl.gross key i
  cases ht : s.ticks.get (key, i) with
  | none => rw [tG_none ht] at hG; have := (cap_mul h1 h2).2.1; omega
  | some t => rw [tG_some ht] at hG; have := (hw.tick _ _ _ ht).1.cap; omega

theorem net_abs (s : Inv) (key : PoolKey) (i : Int) :
    (netOfPositions s key i).natAbs ≤ grossLiq s key i := by
  have h0 : ((grossLiq s key i : Nat) : Int) = posSum s.positions (fun p => ((gC key i p : Nat) : Int)) := by
    rw [grossLiq_eq]
    unfold posSum
    exact Map.map_sum_hom (Nat.castAddMonoidHom Int) _ _
  have h1 : netOfPositions s key i ≤ posSum s.positions (fun p => ((gC key i p : Nat) : Int)) := by
    rw [netOf_eq]
    apply Map.sum_le_sum
    intro k p _
    unfold nC gC
    split_ifs <;> simp_all
  have h2 : 0 ≤ posSum s.positions (fun p => nC key i p + ((gC key i p : Nat) : Int)) := by
    apply Map.sum_nonneg
    intro k p _
    dsimp only
    unfold nC gC
    split_ifs <;> simp_all
  have h3 : posSum s.positions (fun p => nC key i p + ((gC key i p : Nat) : Int)) =
      netOfPositions s key i + posSum s.positions (fun p => ((gC key i p : Nat) : Int)) := by
    rw [netOf_eq]
    exact Map.sum_add _ _ _
  omega

/-- C12, the counters: in every reachable state the liquidity of the positions in range at any tick, the gross and
net liquidity of every tick and the liquidity of every position fit in 256 bits, whatever the tick spacing and
the distribution of the liquidity. -/
theorem C12_counters (h : Reach s) {pool : Pool} (hp : s.pools.get key = some pool) :
    (∀ t, activeLiq s key t < 2 ^ 256) ∧
    (∀ i t, s.ticks.get (key, i) = some t → t.liquidityGross < 2 ^ 256 ∧
      t.liquidityChange ≤ t.liquidityGross) ∧
    (∀ a n p, s.positions.get a n = .ok p → p.liquidity < 2 ^ 256) := by
  have hw := reach_wf s h
  obtain ⟨l, n, hl⟩ := reach_ledgerAll s h
  obtain ⟨⟨t1, t2, _⟩, _⟩ := (reach_tiers h).pools key (by rw [hp]; rfl)
  refine ⟨?_, ?_, ?_⟩
  · intro t
    exact lt_of_le_of_lt (active_le hw t1 t)
      (sum_caps t1 t2 (fun j => grossLiq s key (j * key.feeTier.tickSpacing))
        (fun j => gross_cap_all h t1 t2 _))
  · intro i t ht
    have h1 := (hw.tick _ _ _ ht).1.cap
    have h2 : calculateMaxLiquidityPerTick key.feeTier.tickSpacing ≤ 2 ^ 256 - 1 := Nat.div_le_self _ _
    have h3 := net_abs s key i
    have hG := hl.gross key i
    have hN := hl.net key i
    have hA := hl.abs key i
    rw [tG_some ht] at hG
    rw [tN_some ht] at hN
    refine ⟨by omega, ?_⟩
    have h4 : t.net.natAbs ≤ t.liquidityGross := by omega
    unfold Tick.net at h4
    split at h4 <;> omega
  · intro a n p hp
    exact (hw.pos _ _ (posGet_ok.1 hp)).1.liqLt

/-- C12, deposits: in a state in which the pool's liquidity is that of the positions in range, a deposit
accepted by the lower tick is never refused because the pool's liquidity would overflow; it can only
fail where the token amounts cannot be computed. `C34_negation` shows that the pool's liquidity can be
different in reachable states. -/
theorem C12_accept_partial (h : Reach s) {pool : Pool} (hp : s.pools.get key = some pool)
    (hL : pool.liquidity = activeLiq s key pool.currentTickIndex) {now delta : Nat} {lower upper : Int}
    {lt : Tick × Bool} {t' : Tick} (hlt : getOrCreateTick s now key lower = .ok lt)
    (hlu : lower < upper) (hg : Grid key.feeTier.tickSpacing upper)
    (hacc : lt.1.update delta (calculateMaxLiquidityPerTick key.feeTier.tickSpacing) false true = .ok t') :
    pool.liquidity + delta < 2 ^ 256 ∧
    ∀ r, calculateAmountDelta pool.currentTickIndex pool.sqrtPrice delta true upper lower = .ok r →
      ∃ r', pool.updateLiquidity delta true upper lower = .ok r' := by
  have hw := reach_wf s h
  obtain ⟨l, n, hl⟩ := reach_ledgerAll s h
  obtain ⟨⟨t1, t2, _⟩, _⟩ := (reach_tiers h).pools key (by rw [hp]; rfl)
  obtain ⟨e1, e2, _⟩ := (tickUpdate_full hacc).dep rfl
  rw [← (getOrCreate_tG hlt).1, hl.gross] at e1
  have hgl := (getOrCreate_grid hw t1 hlt).2.1
  obtain ⟨j, hj, ej⟩ := lower_mem t1 hgl hg hlu
  have hb : pool.liquidity + delta < 2 ^ 256 := by
    have h1 := active_le hw t1 pool.currentTickIndex
    rw [← hL] at h1
    have h2 := sum_caps t1 t2 (fun i => grossLiq s key (i * key.feeTier.tickSpacing) +
      if i = j then delta else 0) (fun i => by
        split
        · next e => rw [e, ej]; omega
        · exact gross_cap_all h t1 t2 _)
    rw [Finset.sum_add_distrib, Finset.sum_ite_eq', if_pos hj] at h2
    omega
  refine ⟨hb, ?_⟩
  intro r hr
  unfold Pool.updateLiquidity
  rw [hr, ok_bind]
  by_cases hc : r.2.2 = false
  · rw [if_pos hc]; exact ⟨_, rfl⟩
  · rw [if_neg hc, if_pos rfl]
    unfold addC fit
    rw [if_pos hb]
    exact ⟨_, rfl⟩

/-- the caps for spacing 1 and 100; a deposit at the cap is refused by the tick -/
example : calculateMaxLiquidityPerTick 1 = (2 ^ 256 - 1) / 443637 ∧
    calculateMaxLiquidityPerTick 100 = (2 ^ 256 - 1) / 4436 ∧
    (createTick Demo.start 100 Demo.key 30).toOption.map (fun t =>
      ((t.update (calculateMaxLiquidityPerTick 10) (calculateMaxLiquidityPerTick 10) false true).toOption.isSome,
       (t.update (calculateMaxLiquidityPerTick 10 - 1) (calculateMaxLiquidityPerTick 10) false true).toOption.isSome)) =
      some (false, true) := by decide +kernel

end caps
end Verif
