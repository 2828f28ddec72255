import Verif.Props.Sdk
import Verif.Props.Active
import Verif.Props.Ledger
import Verif.Model.SdkUtils

/-!
# Property C57: the exported ticks describe the liquidity at every price
-/

namespace Verif
open Service Spec

variable {s : Inv}

/-- the signed liquidity change of an exported tick -/
def changeOf (u : LiquidityTick) : Int := if u.sign then (u.liquidityChange : Int) else -(u.liquidityChange : Int)

private theorem sum_swap {α : Type} (m : Map (ActorId × Nat) Position) (g : α → Position → Int) : ∀ l : List α,
    (l.map fun u => m.sum fun _ p => g u p).sum = m.sum fun _ p => (l.map fun u => g u p).sum := by
  intro l
  induction l with
  | nil => simp only [List.map_nil, List.sum_nil]; exact (Map.sum_zero m).symm
  | cons u l ih =>
    rw [List.map_cons, List.sum_cons, ih, ← Map.sum_add]
    simp only [List.map_cons, List.sum_cons]

private theorem sum_sub {α : Type} (f g : α → Int) : ∀ l : List α,
    (l.map fun u => f u - g u).sum = (l.map f).sum - (l.map g).sum := by
  intro l
  induction l with
  | nil => simp
  | cons u l ih => simp only [List.map_cons, List.sum_cons, ih]; omega

private theorem sum_hit (c : Int) (L : Int) : ∀ l : List Int, l.Nodup → (l.map fun i => if c = i then L else 0).sum =
    if c ∈ l then L else 0 := by
  intro l
  induction l with
  | nil => simp
  | cons i l ih =>
    intro h
    obtain ⟨h1, h2⟩ := List.nodup_cons.1 h
    rw [List.map_cons, List.sum_cons, ih h2]
    by_cases hc : c = i
    · subst hc; simp [h1]
    · simp [hc]

/-- C57, for histories in which no account gets to 2^32 - 1 positions (beyond that positions are overwritten,
C19): from the ticks the SDK fetches, the sum of the liquidity changes up to a tick is the liquidity of all
positions whose range contains it. In histories in which no swap ends near an initialised tick
the sum up to the current tick is the liquidity of the pool. -/
theorem C57_chart_partial (hr : Reach32 s) {key : PoolKey} {pool : Pool} (hp : s.pools.get key = some pool) :
    ∃ ticks, Sdk.getAllLiquidityTicks s key (getTickmap s key) = .ok ticks ∧
      (∀ t : Int, ((ticks.filter (fun u => decide (u.index ≤ t))).map changeOf).sum = (activeLiq s key t : Int)) ∧
      (Clear s → ((ticks.filter (fun u => decide (u.index ≤ pool.currentTickIndex))).map changeOf).sum =
        (pool.liquidity : Int)) := by
  have hre := (reach32_reach s hr).1
  obtain ⟨ticks, h1, h2, h3⟩ := C51_fetch hre hp
  have main : ∀ t : Int, ((ticks.filter (fun u => decide (u.index ≤ t))).map changeOf).sum =
      (activeLiq s key t : Int) := by
    intro t
    have e1 : (ticks.filter (fun u => decide (u.index ≤ t))).map changeOf =
        (ticks.filter (fun u => decide (u.index ≤ t))).map (fun u => netOfPositions s key u.index) := by
      apply List.map_congr_left
      intro u hu
      obtain ⟨tk, h4, h5, h6⟩ := (h3 u).1 (List.mem_filter.1 hu).1
      rw [← ((C33_ledger_partial hr key u.index).1 tk h4).2]
      unfold changeOf netLiq
      rw [h5, h6]
    rw [e1]
    unfold netOfPositions
    rw [sum_swap]
    unfold activeLiq
    refine Eq.trans ?_ (Map.map_sum_hom (Nat.castAddMonoidHom ℤ) _ _).symm
    refine Map.sum_congr fun k q hq => ?_
    by_cases hk : q.poolKey = key
    · simp only [hk, if_true, true_and]
      have hw := reach_wf s hre
      obtain ⟨g1, g2⟩ := pos_ticks hw (reach32_ledger s hr) hq
      rw [hk] at g1 g2
      have hlt := (hw.pos _ _ hq).1.lt
      have hin : ∀ i : Int, (s.ticks.get (key, i)).isSome → i ∈ ticks.map (·.index) := by
        intro i hi
        obtain ⟨tk, htk⟩ := Option.isSome_iff_exists.1 hi
        exact List.mem_map.2 ⟨⟨i, tk.liquidityChange, tk.sign⟩, (h3 _).2 ⟨tk, htk, rfl, rfl⟩, rfl⟩
      have hflt : (ticks.filter (fun u => decide (u.index ≤ t))).map (·.index) =
          (ticks.map (·.index)).filter (fun i => decide (i ≤ t)) := by
        rw [List.filter_map]; rfl
      have hnd : ((ticks.filter (fun u => decide (u.index ≤ t))).map (·.index)).Nodup := by
        rw [hflt]; exact h2.filter _
      have hit : ∀ c : Int, (s.ticks.get (key, c)).isSome →
          ((ticks.filter (fun u => decide (u.index ≤ t))).map fun u => if c = u.index then (q.liquidity : Int) else 0).sum =
            if c ≤ t then (q.liquidity : Int) else 0 := by
        intro c hc
        have := sum_hit c q.liquidity _ hnd
        rw [List.map_map] at this
        rw [show ((ticks.filter (fun u => decide (u.index ≤ t))).map fun u => if c = u.index then (q.liquidity : Int) else 0) =
          (ticks.filter (fun u => decide (u.index ≤ t))).map ((fun i => if c = i then (q.liquidity : Int) else 0) ∘ (·.index)) from rfl,
          this, hflt]
        simp [List.mem_filter, hin c hc]
      have e2 : ((ticks.filter (fun u => decide (u.index ≤ t))).map fun u =>
          (if q.lowerTickIndex = u.index then (q.liquidity : Int) else 0) -
            (if q.upperTickIndex = u.index then (q.liquidity : Int) else 0)).sum =
          (if q.lowerTickIndex ≤ t then (q.liquidity : Int) else 0) -
            (if q.upperTickIndex ≤ t then (q.liquidity : Int) else 0) := by
        rw [sum_sub, hit _ g1, hit _ g2]
      rw [e2]
      simp only [Nat.coe_castAddMonoidHom]
      split <;> split <;> split <;> first | omega | simp_all
    · simp [hk]
  exact ⟨ticks, h1, main, fun hc => by rw [main, clear_liqOK s hc _ _ hp]⟩

private theorem bits_sorted {tm : Tickmap} {key : PoolKey} {n sp : Nat} (hs : 1 ≤ sp) :
    (bitsOf tm key n sp).Pairwise (· < ·) := by
  have hs' : (0 : Int) < sp := by exact_mod_cast hs
  have mono : ∀ a b : Nat, a < b → (a : Int) * sp - gridHalf sp * sp < (b : Int) * sp - gridHalf sp * sp := by
    intro a b h
    have : (a : Int) * sp < b * sp := Int.mul_lt_mul_of_pos_right (by exact_mod_cast h) hs'
    omega
  unfold bitsOf
  rw [List.pairwise_flatMap]
  refine ⟨fun c _ => ?_, List.pairwise_lt_range.imp_of_mem ?_⟩
  · rw [List.pairwise_map]
    refine (List.pairwise_lt_range.sublist List.filter_sublist).imp ?_
    intro a b hab
    exact mono _ _ (by omega)
  · intro c d _ _ hcd x hx y hy
    obtain ⟨a, ha, rfl⟩ := List.mem_map.1 hx
    obtain ⟨b, hb, rfl⟩ := List.mem_map.1 hy
    have h1 := List.mem_range.1 (List.mem_filter.1 ha).1
    exact mono _ _ (by omega)

private theorem breakpoints_eq : ∀ (l : List LiquidityTick) (acc : Int),
    (l.map (·.index)).Pairwise (· < ·) →
    Sdk.breakpointsFrom acc l =
      l.map (fun u => (acc + ((l.filter (fun v => decide (v.index ≤ u.index))).map changeOf).sum, u.index)) := by
  intro l
  induction l with
  | nil => intro _ _; rfl
  | cons t l ih =>
    intro acc h
    rw [List.map_cons, List.pairwise_cons] at h
    have hlt : ∀ u ∈ l, t.index < u.index := fun u hu => h.1 _ (List.mem_map.2 ⟨u, hu, rfl⟩)
    have hc : t.liquidityChange * (if t.sign = true then (1 : Int) else -1) = changeOf t := by
      unfold changeOf; split <;> omega
    unfold Sdk.breakpointsFrom
    dsimp only
    rw [hc, ih _ h.2, List.map_cons]
    congr 1
    · have : (t :: l).filter (fun v => decide (v.index ≤ t.index)) = [t] := by
        rw [List.filter_cons, if_pos (by simp)]
        congr 1
        rw [List.filter_eq_nil_iff]
        intro u hu
        have := hlt u hu
        simp only [decide_eq_true_eq]
        omega
      rw [this]
      simp
    · apply List.map_congr_left
      intro u hu
      have := hlt u hu
      rw [List.filter_cons, if_pos (by simp only [decide_eq_true_eq]; omega), List.map_cons, List.sum_cons]
      congr 1
      omega

/-- C57, the chart of the SDK: the fetched ticks are in ascending order, and `calculateLiquidityBreakpoints` gives
for each of them the liquidity of all positions whose range contains it. -/
theorem C57_breakpoints_partial (hr : Reach32 s) {key : PoolKey} {pool : Pool} (hp : s.pools.get key = some pool) :
    ∃ ticks, Sdk.getAllLiquidityTicks s key (getTickmap s key) = .ok ticks ∧
      (ticks.map (·.index)).Pairwise (· < ·) ∧
      Sdk.calculateLiquidityBreakpoints ticks = ticks.map (fun u => ((activeLiq s key u.index : Int), u.index)) := by
  have hre := (reach32_reach s hr).1
  have hw := reach_wf _ hre
  have hs : 1 ≤ key.feeTier.tickSpacing := ((reach_tiers hre).pools key (by rw [hp]; rfl)).1.1
  obtain ⟨ticks, h1, -, h3⟩ := Sdk.fetchAll_ok (key := key) hw hs
  obtain ⟨ticks', h1', h4, -⟩ := C57_chart_partial hr hp
  rw [h1] at h1'
  cases h1'
  have hsort : (ticks.map (·.index)).Pairwise (· < ·) := by
    rw [h3, Sdk.tickIndexes_eq]
    unfold getTickmap
    rw [decode_export, List.pairwise_map, List.pairwise_filterMap]
    refine (bits_sorted hs).imp ?_
    intro i j hij u hu v hv
    have idx : ∀ i u, Sdk.readOne s key i = some u → u.index = i := by
      intro i u hu
      unfold Sdk.readOne at hu
      rw [Option.map_eq_some_iff] at hu
      obtain ⟨t, ht, rfl⟩ := hu
      exact (hw.tick key i t ht).1.index
    rw [idx i u hu, idx j v hv]
    exact hij
  refine ⟨ticks, h1, hsort, ?_⟩
  unfold Sdk.calculateLiquidityBreakpoints
  rw [breakpoints_eq ticks 0 hsort]
  apply List.map_congr_left
  intro u _
  rw [h4, Int.zero_add]

/-- the chart of the pool with two nested positions -/
example : (Sdk.getAllLiquidityTicks Demo.start Demo.key (getTickmap Demo.start Demo.key)).toOption.map
    Sdk.calculateLiquidityBreakpoints =
      some [(10 ^ 15, -20), (4 * 10 ^ 15, -10), (10 ^ 15, 10), (0, 20)] := by
  decide +kernel

/-- after a swap: the exported ticks and the liquidity they add up to around the current tick -20 -/
example : (Sdk.getAllLiquidityTicks Demo.traded Demo.key (getTickmap Demo.traded Demo.key)).toOption.map
    (fun l => ((l.filter (fun u => decide (u.index ≤ -15))).map changeOf).sum) = some (10 ^ 15) ∧
    (Sdk.getAllLiquidityTicks Demo.traded Demo.key (getTickmap Demo.traded Demo.key)).toOption.map
      (fun l => ((l.filter (fun u => decide (u.index ≤ 5))).map changeOf).sum) = some (4 * 10 ^ 15) := by
  decide +kernel

end Verif
