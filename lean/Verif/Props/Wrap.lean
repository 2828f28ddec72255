import Verif.Proofs.Accept
import Verif.Proofs.LedgerAll
import Verif.Props.Chart

/-!
# Properties C33 and C57 beyond 2^32 positions of one account

One account deposits 2^32 + 1 times, one unit of liquidity into the same range each time. The last position
overwrites the first one; the ticks count both.
-/

set_option exponentiation.threshold 1000

namespace Verif
open Service Spec

namespace Wrap

/-- a pool without positions; account 2 owns 10^20 of both tokens -/
def base : Inv :=
  runAll Demo.funded [(Demo.by_ 1, .addFeeTier Demo.tier), (Demo.by_ 2, .createPool 7 5 Demo.tier (10 ^ 24) 0)]

def pool0 : Pool := ⟨0, 10 ^ 24, 0, 0, 0, 0, 0, 100, 100, 1⟩

/-- `n` deposits -/
def after : Nat → Inv
  | 0 => base
  | n + 1 => run (Demo.by_ 2) (after n) (.createPosition Demo.key 10 20 1 0 (10 ^ 25))

def Good (p : Position) : Prop :=
  p.poolKey = Demo.key ∧ p.lowerTickIndex = 10 ∧ p.upperTickIndex = 20 ∧ p.liquidity = 1

private theorem good_g {p : Position} (h : Good p) : gC Demo.key 10 p = 1 := by
  obtain ⟨h1, h2, h3, h4⟩ := h
  unfold gC; rw [if_pos ⟨h1, .inl h2⟩, h4]

private theorem good_a {p : Position} (h : Good p) : aC Demo.key 10 p = 1 := by
  obtain ⟨h1, h2, h3, h4⟩ := h
  unfold aC; rw [if_pos ⟨h1, by omega, by omega⟩, h4]

structure W (n : Nat) (s : Inv) : Prop where
  reach : Reach s
  pool : s.pools.get Demo.key = some pool0
  g10 : tG s.ticks Demo.key 10 = n
  g20 : tG s.ticks Demo.key 20 = n
  n10 : tN s.ticks Demo.key 10 = n
  n20 : tN s.ticks Demo.key 20 = -n
  other : ∀ i, i ≠ 10 → i ≠ 20 → s.ticks.get (Demo.key, i) = none
  bal : balOf s.balances 2 5 + n = 10 ^ 20
  len : s.positions.getLength 2 = n % 2 ^ 32
  stored : ∀ i, i < n → i < 2 ^ 32 → ∃ p, s.positions.map.get (2, i) = some p ∧ Good p
  fresh : ∀ i, n ≤ i → s.positions.map.get (2, i) = none
  sumG : posSum s.positions (gC Demo.key 10) = min n (2 ^ 32)
  sumA : posSum s.positions (aC Demo.key 10) = min n (2 ^ 32)

private theorem reach_runAll : ∀ l s, Reach s → Reach (runAll s l) := by
  intro l
  induction l with
  | nil => intro s h; exact h
  | cons e l ih =>
    intro s h
    obtain ⟨env, c⟩ := e
    refine ih _ ?_
    unfold run
    split
    · next s' hs => exact .call h hs
    · exact h

private theorem base_reach : Reach base := by
  refine reach_runAll _ _ (.transfers (s := Inv.init 1 (10 ^ 11)) (aw := ∅) (.init _ _) ?_)
  intro k v hk
  simp only [Map.get_insert] at hk
  split_ifs at hk <;> first | (cases hk; norm_num) | simp at hk

theorem w_base : W 0 base := by
  have ht : base.ticks.entries = [] := by decide +kernel
  have hp : base.positions.map.entries = [] := by decide +kernel
  have ht' : ∀ k, base.ticks.get k = none := by
    intro k; unfold Map.get; rw [ht]; rfl
  have hp' : ∀ k, base.positions.map.get k = none := by
    intro k; unfold Map.get; rw [hp]; rfl
  refine ⟨base_reach, by decide +kernel, by decide +kernel, by decide +kernel, by decide +kernel, by decide +kernel,
    fun i _ _ => ht' _, by decide +kernel, by decide +kernel, fun i hi => absurd hi (Nat.not_lt_zero _),
    fun i _ => hp' _, ?_, ?_⟩
  · unfold posSum Map.sum; rw [hp]; rfl
  · unfold posSum Map.sum; rw [hp]; rfl

theorem w_step {n : Nat} {s : Inv} (hn : n < 2 ^ 33) (h : W n s) :
    W (n + 1) (run (Demo.by_ 2) s (.createPosition Demo.key 10 20 1 0 (10 ^ 25))) := by
  have hcap : 2 ^ 34 < calculateMaxLiquidityPerTick Demo.key.feeTier.tickSpacing := by decide +kernel
  have hamt : calculateAmountDelta pool0.currentTickIndex pool0.sqrtPrice 1 true 20 10 = .ok (1, 0, false) := by
    decide +kernel
  obtain ⟨r, hc⟩ := create_succeeds (env := Demo.by_ 2) (ll := 0) (lu := 10 ^ 25) (delta := 1) h.reach h.pool
    (by norm_num) (lower := 10) (upper := 20) (by norm_num) (by decide) (by decide) (by decide) (by decide)
    (by rw [h.g10]; omega) (by rw [h.g20]; omega) (by rw [h.n10]; simp; omega) (by rw [h.n20]; simp; omega) hamt
    (by intro h1; exact absurd h1 (by decide))
    (by have := h.bal; change 1 ≤ balOf s.balances 2 5; omega) (Nat.zero_le _)
  have hstep : step (Demo.by_ 2) s (.createPosition Demo.key 10 20 1 0 (10 ^ 25)) = .ok r.1 := by
    unfold step
    dsimp only
    rw [hc]; rfl
  have hrun : run (Demo.by_ 2) s (.createPosition Demo.key 10 20 1 0 (10 ^ 25)) = r.1 := by
    unfold run
    rw [hstep]
  rw [hrun]
  have hw := reach_wf s h.reach
  obtain ⟨pool, lt, ut, m, b, tm1, tm2, he, e, c1, c2, bx, by_, d1, d2, e2⟩ := createPosition_full hw.indexed hc
  have hpe := he.hpool
  rw [h.pool] at hpe
  cases hpe
  have hm := he.mod
  have good : Good m.position := by
    have e := hm.pos.eq
    refine ⟨by rw [e], by rw [e], by rw [e], ?_⟩
    have := (hm.pos.add rfl).1
    simpa using this
  have ep : r.1.positions = s.positions.add 2 m.position := by rw [he.res]; rfl
  have amts : m.amountX = 1 ∧ m.amountY = 0 := by
    obtain ⟨i, hi⟩ := hm.pool.amounts
    rw [he.lidx, he.uidx] at hi
    dsimp only at hi
    rw [hamt] at hi
    have := Except.ok.inj hi
    simp only [Prod.mk.injEq] at this
    exact ⟨this.1.symm, this.2.1.symm⟩
  have hpool : m.pool = pool0 := by
    have e1 := hm.pool.eq
    have e2 := hm.pool.out (by rw [he.lidx, he.uidx]; decide)
    rw [e1, e2]
    rfl
  have tk := create_ticks he Demo.key
  have hover := posSum_add_any s.positions 2 m.position (gC Demo.key 10)
  have hoverA := posSum_add_any s.positions 2 m.position (aC Demo.key 10)
  rw [good_g good, h.sumG] at hover
  rw [good_a good, h.sumA] at hoverA
  have hov : (n < 2 ^ 32 → overwritten s.positions 2 = none) ∧
      (2 ^ 32 ≤ n → ∃ q, overwritten s.positions 2 = some q ∧ Good q) := by
    unfold overwritten
    rw [h.len]
    constructor
    · intro hlt
      rw [Nat.mod_eq_of_lt hlt]
      exact h.fresh n (le_refl _)
    · intro hge
      exact h.stored _ (lt_of_lt_of_le (Nat.mod_lt _ (by norm_num)) hge) (Nat.mod_lt _ (by norm_num))
  refine ⟨.call h.reach hstep, ?_, ?_, ?_, ?_, ?_, ?_, ?_, ?_, ?_, ?_, ?_, ?_⟩
  · rw [he.res]
    dsimp only
    rw [Map.get_insert, if_pos rfl, hpool]
  · rw [(tk 10).1, h.g10, good_g good]
  · rw [(tk 20).1, h.g20]
    obtain ⟨h1, h2, h3, h4⟩ := good
    unfold gC; rw [if_pos ⟨h1, .inr h3⟩, h4]
  · rw [(tk 10).2, h.n10]
    obtain ⟨h1, h2, h3, h4⟩ := good
    unfold nC; rw [if_pos h1, h2, h3, h4]; norm_num
  · rw [(tk 20).2, h.n20]
    obtain ⟨h1, h2, h3, h4⟩ := good
    unfold nC; rw [if_pos h1, h2, h3, h4]; norm_num; ring
  · intro i h1 h2
    rw [he.res]
    dsimp only
    rw [Map.get_insert, if_neg (by intro e; exact h2 (Prod.mk.inj e).2), Map.get_insert,
      if_neg (by intro e; exact h1 (Prod.mk.inj e).2)]
    exact h.other i h1 h2
  · have hb : r.1.balances = by_.1 := by rw [he.res, e2]
    have b1 := (decrease_bal d1 2 5).1
    have b2 := (decrease_bal d2 2 5).1
    rw [amts.1] at b1
    rw [amts.2] at b2
    have := h.bal
    rw [if_pos ⟨rfl, rfl⟩] at b1
    rw [hb]
    simp only [ite_self, Nat.add_zero] at b2
    omega
  · rw [ep]
    unfold Positions.add
    dsimp only
    unfold Positions.getLength
    rw [Map.get_insert, if_pos rfl]
    have := h.len
    unfold Positions.getLength at this
    rw [this]
    simp only [Option.getD_some, u32Succ]
    omega
  · intro i hi hi2
    rw [ep]
    unfold Positions.add
    dsimp only
    rw [Map.get_insert, h.len]
    by_cases hc : ((2 : ActorId), i) = (2, n % 2 ^ 32)
    · rw [if_pos hc]; exact ⟨_, rfl, good⟩
    · rw [if_neg hc]
      refine h.stored i ?_ hi2
      have hne : i ≠ n % 2 ^ 32 := fun e => hc (by rw [e])
      by_contra hge
      have : i = n := by omega
      subst this
      exact hne (Nat.mod_eq_of_lt hi2).symm
  · intro i hi
    rw [ep]
    unfold Positions.add
    dsimp only
    rw [Map.get_insert, h.len, if_neg]
    · exact h.fresh i (by omega)
    · intro e
      have h1 := (Prod.mk.inj e).2
      have h2 := Nat.mod_le n (2 ^ 32)
      omega
  · rw [ep]
    rcases Nat.lt_or_ge n (2 ^ 32) with hlt | hge
    · rw [hov.1 hlt] at hover
      simp only [Option.elim_none] at hover
      omega
    · obtain ⟨q, hq, gq⟩ := hov.2 hge
      rw [hq] at hover
      simp only [Option.elim_some, good_g gq] at hover
      omega
  · rw [ep]
    rcases Nat.lt_or_ge n (2 ^ 32) with hlt | hge
    · rw [hov.1 hlt] at hoverA
      simp only [Option.elim_none] at hoverA
      omega
    · obtain ⟨q, hq, gq⟩ := hov.2 hge
      rw [hq] at hoverA
      simp only [Option.elim_some, good_a gq] at hoverA
      omega

theorem w_after : ∀ n, n ≤ 2 ^ 33 → W n (after n) := by
  intro n
  induction n with
  | zero => intro _; exact w_base
  | succ n ih => intro h; exact w_step (by omega) (ih (by omega))

end Wrap

open Wrap

/-- C33 without a bound on the number of positions is false: after 2^32 + 1 deposits of one account the gross
liquidity of the tick 10 is 2^32 + 1, but the positions bounded by it add up to 2^32. -/
theorem C33_negation :
    ¬ ∀ (s : Inv) (key : PoolKey) (i : Int) (t : Tick), Reach s → s.ticks.get (key, i) = some t →
      t.liquidityGross = grossLiq s key i := by
  intro hall
  have h := w_after (2 ^ 32 + 1) (by norm_num)
  have hg := h.g10
  cases ht : (after (2 ^ 32 + 1)).ticks.get (Demo.key, 10) with
  | none => rw [tG_none ht] at hg; norm_num at hg
  | some t =>
    have h1 := hall _ _ _ _ h.reach ht
    rw [tG_some ht] at hg
    rw [hg, grossLiq_eq, h.sumG] at h1
    norm_num at h1

/-- the first deposits of that history -/
example : ((after 3).ticks.get (Demo.key, 10)).map (·.liquidityGross) = some 3 ∧
    grossLiq (after 3) Demo.key 10 = 3 ∧ bal (after 3).balances 2 5 = 10 ^ 20 - 3 ∧
    ((after 3).positions.getLength 2, (after 3).positions.map.entries.length) = (3, 3) := by decide +kernel

/-- C57 without a bound on the number of positions is false: in the same state the exported ticks up to 10 add up to
2^32 + 1, one more than the liquidity of the positions that contain the tick 10. -/
theorem C57_negation :
    ¬ ∀ (s : Inv) (key : PoolKey) (pool : Pool) (ticks : List LiquidityTick) (t : Int), Reach s →
      s.pools.get key = some pool → Sdk.getAllLiquidityTicks s key (getTickmap s key) = .ok ticks →
      ((ticks.filter (fun u => decide (u.index ≤ t))).map changeOf).sum = (activeLiq s key t : Int) := by
  intro hall
  have h := w_after (2 ^ 32 + 1) (by norm_num)
  obtain ⟨ticks, h1, h2, h3⟩ := C51_fetch h.reach h.pool
  have h4 := hall _ _ _ _ 10 h.reach h.pool h1
  rw [activeLiq_eq, h.sumA] at h4
  have hn := h.n10
  cases ht : (after (2 ^ 32 + 1)).ticks.get (Demo.key, 10) with
  | none => rw [tN_none ht] at hn; norm_num at hn
  | some t =>
    rw [tN_some ht] at hn
    have hall10 : ∀ u ∈ ticks.filter (fun u => decide (u.index ≤ 10)), u.index = 10 := by
      intro u hu
      obtain ⟨hu1, hu2⟩ := List.mem_filter.1 hu
      obtain ⟨t', ht', -⟩ := (h3 u).1 hu1
      by_contra hne
      rw [h.other _ hne (by have := of_decide_eq_true hu2; omega)] at ht'
      cases ht'
    have hval : ∀ u ∈ ticks.filter (fun u => decide (u.index ≤ 10)), changeOf u = 2 ^ 32 + 1 := by
      intro u hu
      obtain ⟨hu1, hu2⟩ := List.mem_filter.1 hu
      obtain ⟨t', ht', c1, c2⟩ := (h3 u).1 hu1
      rw [hall10 u hu, ht] at ht'
      cases ht'
      unfold changeOf
      rw [c1, c2]
      have e : t.net = (if t.sign then (t.liquidityChange : Int) else -t.liquidityChange) := rfl
      rw [e] at hn
      simpa using hn
    have hnd : ((ticks.filter (fun u => decide (u.index ≤ 10))).map (·.index)).Nodup :=
      List.Nodup.sublist (List.Sublist.map _ List.filter_sublist) h2
    generalize ticks.filter (fun u => decide (u.index ≤ 10)) = l at *
    match l with
    | [] => norm_num at h4
    | [u] =>
      simp only [List.map_cons, List.map_nil, List.sum_cons, List.sum_nil, hval u (by simp)] at h4
      norm_num at h4
    | u :: v :: l =>
      have a1 := hall10 u (by simp)
      have a2 := hall10 v (by simp)
      simp [a1, a2] at hnd

end Verif
