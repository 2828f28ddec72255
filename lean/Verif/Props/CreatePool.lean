import Verif.Proofs.TickInv
import Verif.Proofs.PoolKeys
import Verif.Proofs.TickFloor
import Verif.Props.SwapAccept

/-!
# Property C76: a pool is created exactly when the request is right, at the price asked for

The conditions and the reasons of refusal are complete. The price of the new pool is the price of the tick and
not the price asked for, unless that price is the price of a tick.
-/

namespace Verif
open Service Spec

variable {env : Env} {s s' : Inv} {x y : ActorId} {t : FeeTier} {p : Nat} {i : Int} {sp : Nat}

/-- `p` lies on the grid of spacing `sp` at tick `i`: from the price of `i` up to but excluding the price of the
next tick of the grid; at the last tick of the grid only the price of this tick counts -/
def Spec.AtTick (sp : Nat) (i : Int) (p : Nat) : Prop :=
  ∃ lo, calculateSqrtPrice i = .ok lo ∧ lo ≤ p ∧
    (i + sp ≤ 221818 → ∃ hi, calculateSqrtPrice (i + sp) = .ok hi ∧ p < hi) ∧
    (221818 < i + sp → p = lo)

open Classical in
/-- why `create_pool` refuses, in the order of the checks -/
noncomputable def Spec.refusal (s : Inv) (x y : ActorId) (t : FeeTier) (p : Nat) (i : Int) : Option Err :=
  if t ∉ s.feeTiers then some (.inv .FeeTierNotFound)
  else if ¬ Grid t.tickSpacing i then some (.inv .InvalidInitTick)
  else if x = y then some (.inv .TokensAreSame)
  else if (s.pools.get ⟨min x y, max x y, t⟩).isSome then some (.inv .PoolAlreadyExist)
  else if ¬ AtTick t.tickSpacing i p then some (.inv .InvalidInitSqrtPrice)
  else none

private theorem checkTick_err (h : checkTick i sp ≠ .ok ()) : ∃ e, checkTick i sp = .error e := by
  cases hc : checkTick i sp with
  | error e => exact ⟨e, rfl⟩
  | ok u => exact absurd hc h

private theorem grid_last (hs : 1 ≤ sp) (hg : Grid sp i) (h : 221818 < i + sp) : getMaxTick sp = i := by
  obtain ⟨j, rfl, h1, h2⟩ := grid_coord hs hg
  rw [getMaxTick_eq]
  have hm := gridHalf_mul_le sp
  have : ¬ j + 1 ≤ gridHalf sp := by
    intro hc
    have := Int.mul_le_mul_of_nonneg_right hc (Int.natCast_nonneg sp)
    rw [Int.add_mul, Int.one_mul] at this
    omega
  have : j = gridHalf sp := by omega
  rw [this]

/-- the check of the program decides `AtTick` -/
theorem C76_check (hs : 1 ≤ sp) (hg : Grid sp i) :
    ∃ b, checkTickToSqrtPriceRelationship i sp p = .ok b ∧ (b = true ↔ AtTick sp i p) := by
  obtain ⟨hd, h1, h2⟩ := hg
  have e1 := calculateSqrtPrice_eq (t := i) h1 h2
  unfold checkTickToSqrtPriceRelationship AtTick
  by_cases h : i + sp > MAX_TICK
  · rw [if_pos h, grid_last hs ⟨hd, h1, h2⟩ h, e1]
    refine ⟨_, rfl, ?_⟩
    rw [decide_eq_true_iff]
    simp only [MAX_TICK] at h
    constructor
    · intro hp
      exact ⟨_, rfl, hp.ge, fun hc => by omega, fun _ => hp⟩
    · rintro ⟨lo, hl, -, -, hp⟩
      cases hl
      exact hp h
  · rw [if_neg h]
    have e2 := calculateSqrtPrice_eq (t := i + sp) (by simp only [MIN_TICK]; omega) (by omega)
    rw [e1, e2]
    refine ⟨_, rfl, ?_⟩
    simp only [MAX_TICK] at h
    simp only [Bool.not_eq_true', Bool.or_eq_false_iff, decide_eq_false_iff_not]
    constructor
    · rintro ⟨h3, h4⟩
      exact ⟨_, rfl, by omega, fun _ => ⟨_, rfl, by omega⟩, fun hc => by omega⟩
    · rintro ⟨lo, hl, h3, h4, -⟩
      obtain ⟨hi, hh, h4⟩ := h4 (by omega)
      cases hl; cases hh
      omega

/-- a pool has an entry in the list of keys exactly if it is stored -/
private theorem reach_index (hr : Reach s) : ∀ k, s.pools.get k = none → s.poolKeys.index.get k = none := by
  induction hr with
  | init a f => intro k _; rfl
  | transfers _ _ ih => exact ih
  | @call s s' env c _ h ih =>
    by_cases hc : ∃ x y t p i, c = .createPool x y t p i
    · obtain ⟨x, y, t, p, i, rfl⟩ := hc
      obtain ⟨_, _, _, _, _, pool, _, rfl⟩ := createPool_ok h
      intro k hk
      dsimp only at hk ⊢
      rw [Map.get_insert] at hk ⊢
      split at hk
      · cases hk
      · next hne => rw [if_neg hne]; exact ih k hk
    · obtain ⟨e1, e2⟩ := step_poolsFrame (fun x y t p i e => hc ⟨x, y, t, p, i, e⟩) h
      intro k hk
      rw [e1]
      apply ih
      have := e2 k
      rw [hk] at this
      cases hg : s.pools.get k with
      | none => rfl
      | some q => rw [hg] at this; simp at this

/-- C76: what `create_pool` answers, for every request in every reachable state. -/
theorem C76_answer (hr : Reach s) : failure (createPool env s x y t p i) = refusal s x y t p i := by
  unfold createPool refusal
  by_cases h1 : t ∉ s.feeTiers
  · rw [failIf_pos h1, if_pos h1]; rfl
  rw [failIf_neg h1, if_neg h1, ok_bind]
  have hs : 1 ≤ t.tickSpacing := ((reach_tiers hr).ok t (not_not.1 h1)).1
  by_cases h2 : Grid t.tickSpacing i
  swap
  · rw [if_pos h2]
    obtain ⟨e, he⟩ := checkTick_err (fun hc => h2 ((checkTick_grid hs).1 hc))
    rw [he]; rfl
  rw [if_neg (not_not.2 h2), (checkTick_grid hs).2 h2]
  simp only [mapErr, ok_bind]
  by_cases h3 : x = y
  · rw [if_pos h3, PoolKey.new, if_pos h3]; rfl
  rw [if_neg h3, poolKeyNew_ok.2 ⟨h3, rfl⟩, ok_bind]
  generalize hk : (⟨min x y, max x y, t⟩ : PoolKey) = k
  by_cases h4 : (s.pools.get k).isSome
  · rw [failIf_pos h4, if_pos h4]; rfl
  rw [failIf_neg h4, if_neg h4, ok_bind]
  have h5 : s.pools.get k = none := by simpa using h4
  have h6 := reach_index hr k h5
  obtain ⟨b, hb, hb'⟩ := C76_check (p := p) hs h2
  unfold Pool.create
  rw [hb]
  simp only [mapErr, ok_bind]
  by_cases h7 : AtTick t.tickSpacing i p
  · rw [if_neg (not_not.2 h7), hb'.2 h7, failIf_neg (by simp), ok_bind,
      calculateSqrtPrice_eq (t := i) h2.2.1 h2.2.2]
    simp only [unwrap, mapErr, ok_bind, pure_bind, poolsAdd, h5, PoolKeys.add, h6]
    rfl
  · rw [if_pos h7, failIf_pos (by simpa using fun hc => h7 (hb'.1 hc))]
    rfl

private theorem lookup (hs : 1 ≤ sp) (hg : Grid sp i) (h : AtTick sp i p) : getTickAtSqrtPrice p sp = .ok i := by
  obtain ⟨lo, e1, hlo, hhi, htop⟩ := h
  rw [calculateSqrtPrice_eq hg.2.1 hg.2.2] at e1
  cases e1
  by_cases hc : 221818 < i + sp
  · rw [htop hc]
    exact getTick_of_tick hg.2.1 hg.2.2 hs hg.1
  · obtain ⟨hi, e2, hp⟩ := hhi (by omega)
    have hn1 : MIN_TICK ≤ i + sp := by have := hg.2.1; simp only [MIN_TICK]; omega
    have hn2 : i + sp ≤ MAX_TICK := by simp only [MAX_TICK]; omega
    rw [calculateSqrtPrice_eq hn1 hn2] at e2
    cases e2
    obtain ⟨j, hj⟩ := getTick_total hs (le_trans (priceOf_ge_min hg.2.1 hg.2.2) hlo)
      (le_trans hp.le (priceOf_le_max hn1 hn2))
    obtain ⟨-, -, hl⟩ := getTick_ok hs hj
    obtain ⟨a, rfl⟩ := hg.1
    obtain ⟨b, rfl⟩ := hl.dvd
    rw [hj]
    rcases lt_trichotomy a b with hab | rfl | hab
    · exfalso
      have h3 : (sp : Int) * a + sp ≤ sp * b := by
        have := Int.mul_le_mul_of_nonneg_left (show a + 1 ≤ b from hab) (Int.natCast_nonneg sp)
        rw [Int.mul_add, Int.mul_one] at this
        exact this
      have := hl.low (by omega)
      have := priceOf_le hn1 hl.le h3
      omega
    · rfl
    · exfalso
      have h3 : (sp : Int) * b + sp ≤ sp * a := by
        have := Int.mul_le_mul_of_nonneg_left (show b + 1 ≤ a from hab) (Int.natCast_nonneg sp)
        rw [Int.mul_add, Int.mul_one] at this
        exact this
      have h4 := hg.2.2
      have h5 := hl.above
      have := hl.high (by simp only [MAX_TICK]; omega)
      have := priceOf_le (t := sp * b + sp) (u := sp * a) (by omega) hg.2.2 h3
      omega

/-- C76: what a successful request creates. The pool is new; it has no liquidity, no fees, the tick asked for and
the price of this tick; the admin receives its protocol fees. All else stays, and the list of pools gets the key.
The tick is where the price asked for belongs: the look-up of the price gives it.
(Full statement: the pool has the price asked for. Refuted by `C76_negation`.) -/
theorem C76_pool_partial (hr : Reach s) (h : createPool env s x y t p i = .ok s') :
    ∃ pool k, PoolKey.new x y t = .ok k ∧ s.pools.get k = none ∧ s'.pools.get k = some pool ∧
      (∀ k', k' ≠ k → s'.pools.get k' = s.pools.get k') ∧
      pool.currentTickIndex = i ∧ calculateSqrtPrice i = .ok pool.sqrtPrice ∧ pool.sqrtPrice ≤ p ∧
      getTickAtSqrtPrice p t.tickSpacing = .ok i ∧
      ((∃ j, Grid t.tickSpacing j ∧ calculateSqrtPrice j = .ok p) → pool.sqrtPrice = p) ∧
      pool.liquidity = 0 ∧ pool.feeGrowthGlobalX = 0 ∧ pool.feeGrowthGlobalY = 0 ∧
      pool.feeProtocolTokenX = 0 ∧ pool.feeProtocolTokenY = 0 ∧ pool.startTimestamp = env.now ∧
      pool.lastTimestamp = env.now ∧ pool.feeReceiver = s.admin ∧
      s' = { s with pools := s'.pools, poolKeys := s'.poolKeys } := by
  have ha := C76_answer (env := env) (x := x) (y := y) (t := t) (p := p) (i := i) hr
  rw [h] at ha
  obtain ⟨h1, h2, h3, h4, h5, pool, h6, rfl⟩ := createPool_ok h
  have hs : 1 ≤ t.tickSpacing := ((reach_tiers hr).ok t h1).1
  have hg := (checkTick_grid hs).1 h2
  have hat : AtTick t.tickSpacing i p := by
    by_contra hc
    unfold refusal at ha
    rw [if_neg (not_not.2 h1), if_neg (not_not.2 hg), if_neg h3, h4] at ha
    simp [Spec.failure, hc] at ha
  obtain ⟨lo, e1, hlo, hhi, htop⟩ := hat
  unfold Pool.create at h6
  simp only [bind_ok_iff, failIf_ok_iff, pure_ok_iff] at h6
  obtain ⟨_, _, _, _, q, hq, rfl⟩ := h6
  rw [e1] at hq
  cases hq
  have hlook : getTickAtSqrtPrice p t.tickSpacing = .ok i := lookup hs hg ⟨lo, e1, hlo, hhi, htop⟩
  refine ⟨_, _, poolKeyNew_ok.2 ⟨h3, rfl⟩, h4, Map.get_insert_self .., fun k' hk => ?_, rfl, e1, hlo, hlook, ?_, rfl, rfl,
    rfl, rfl, rfl, rfl, rfl, rfl, rfl⟩
  · dsimp only; rw [Map.get_insert, if_neg hk]
  · rintro ⟨j, hj, ej⟩
    have hl := getTick_of_tick (s := t.tickSpacing) hj.2.1 hj.2.2 hs hj.1
    rw [calculateSqrtPrice_eq hj.2.1 hj.2.2] at ej
    cases ej
    rw [hlook] at hl
    cases hl
    rw [calculateSqrtPrice_eq hj.2.1 hj.2.2] at e1
    cases e1
    rfl

/-- C76 is false as stated: with a spacing of 10, a pool asked for at a price 1.000 4 is made at 1. -/
theorem C76_negation : ¬ ∀ (env : Env) (s s' : Inv) (x y : ActorId) (t : FeeTier) (p : Nat) (i : Int) (k : PoolKey)
    (pool : Pool), Reach s → createPool env s x y t p i = .ok s' → PoolKey.new x y t = .ok k →
    s'.pools.get k = some pool → pool.sqrtPrice = p := by
  intro h
  have hr : Reach { Inv.init 1 0 with feeTiers := [Demo.tier] } :=
    Reach.call (env := Demo.by_ 1) (c := .addFeeTier Demo.tier) (Reach.init 1 0) rfl
  have h1 : (createPool (Demo.by_ 2) { Inv.init 1 0 with feeTiers := [Demo.tier] } 5 7 Demo.tier
      1000400060004000000000000 0).toOption.map (fun s' => (s'.pools.get Demo.key).map (·.sqrtPrice)) =
      some (some (10 ^ 24)) := by decide +kernel
  cases hs : createPool (Demo.by_ 2) { Inv.init 1 0 with feeTiers := [Demo.tier] } 5 7 Demo.tier
      1000400060004000000000000 0 with
  | error e => rw [hs] at h1; cases h1
  | ok s' =>
    rw [hs] at h1
    simp only [Except.toOption, Option.map_some, Option.some.injEq] at h1
    cases hp : s'.pools.get Demo.key with
    | none => rw [hp] at h1; cases h1
    | some pool =>
      rw [hp] at h1
      have := h _ _ _ _ _ _ _ _ Demo.key pool hr hs rfl hp
      simp only [Option.map_some, Option.some.injEq] at h1
      omega

/-- on a grid of 10 the last tick is 221810; below zero the tick is the lower end of the interval -/
example : checkTickToSqrtPriceRelationship (-10) 10 (10 ^ 24 - 1) = .ok true ∧
    checkTickToSqrtPriceRelationship 0 10 (10 ^ 24 - 1) = .ok false ∧
    checkTickToSqrtPriceRelationship (-10) 10 (10 ^ 24) = .ok false ∧
    checkTickToSqrtPriceRelationship 221810 10 65509176333123237000000000000 = .ok true ∧
    checkTickToSqrtPriceRelationship 221810 10 65509176333123237000000000001 = .ok false := by decide +kernel

/-- every reason of refusal, in a state with a pool of the tokens 5 and 7 -/
example : failure (createPool (Demo.by_ 1) Demo.start 5 9 ⟨1, 1⟩ (10 ^ 24) 0) = some (.inv .FeeTierNotFound) ∧
    failure (createPool (Demo.by_ 1) Demo.start 5 9 Demo.key.feeTier (10 ^ 24) 5) = some (.inv .InvalidInitTick) ∧
    failure (createPool (Demo.by_ 1) Demo.start 5 5 Demo.key.feeTier (10 ^ 24) 0) = some (.inv .TokensAreSame) ∧
    failure (createPool (Demo.by_ 1) Demo.start 7 5 Demo.key.feeTier (10 ^ 24) 0) = some (.inv .PoolAlreadyExist) ∧
    failure (createPool (Demo.by_ 1) Demo.start 5 9 Demo.key.feeTier (10 ^ 24 - 1) 0) = some (.inv .InvalidInitSqrtPrice) ∧
    failure (createPool (Demo.by_ 1) Demo.start 5 9 Demo.key.feeTier (10 ^ 24 - 1) (-10)) = none := by
  decide +kernel

/-! ### the limits of the grid -/

/-- The checks of ticks accept exactly the ticks of the grid; `check_ticks` also accepts two equal ticks. -/
theorem C76_ticks (hs : 1 ≤ sp) (j : Int) :
    (checkTick i sp = .ok () ↔ Grid sp i) ∧ (checkTicks i j sp = .ok () ↔ i ≤ j ∧ Grid sp i ∧ Grid sp j) := by
  refine ⟨checkTick_grid hs, ?_⟩
  simp only [checkTicks, bind_ok_iff, failIf_ok_iff, checkTick_grid hs]
  constructor
  · rintro ⟨_, h1, _, h2, h3⟩
    exact ⟨by omega, h2, h3⟩
  · rintro ⟨h1, h2, h3⟩
    exact ⟨(), by omega, (), h2, h3⟩

/-- The lowest and the highest tick of the grid, and their prices: no tick of the grid has a price beyond them. -/
theorem C76_limits (hs : 1 ≤ sp) (h100 : sp ≤ 221818) :
    Grid sp (getMinTick sp) ∧ Grid sp (getMaxTick sp) ∧
    (∀ i, Grid sp i → getMinTick sp ≤ i ∧ i ≤ getMaxTick sp) ∧
    ∃ lo hi, getMinSqrtPrice sp = .ok lo ∧ getMaxSqrtPrice sp = .ok hi ∧ lo < hi ∧
      calculateSqrtPrice (getMinTick sp) = .ok lo ∧ calculateSqrtPrice (getMaxTick sp) = .ok hi ∧
      ∀ i q, Grid sp i → calculateSqrtPrice i = .ok q → lo ≤ q ∧ q ≤ hi := by
  have hm := gridHalf_mul_le sp
  have hpos : 1 ≤ gridHalf sp := Nat.div_pos h100 hs
  have hpos' : (0 : Int) < gridHalf sp * sp := by
    have := Nat.mul_pos hpos hs
    exact_mod_cast this
  have g1 : Grid sp (getMinTick sp) := by
    rw [getMinTick_eq, ← Int.neg_mul]; exact coord_grid le_rfl (by omega)
  have g2 : Grid sp (getMaxTick sp) := by
    rw [getMaxTick_eq]; exact coord_grid (by omega) le_rfl
  have hb : ∀ i, Grid sp i → getMinTick sp ≤ i ∧ i ≤ getMaxTick sp := by
    intro i hi
    obtain ⟨j, rfl, h1, h2⟩ := grid_coord hs hi
    rw [getMinTick_eq, getMaxTick_eq, ← Int.neg_mul]
    exact ⟨(mul_le_iff hs _ _).2 h1, (mul_le_iff hs _ _).2 h2⟩
  have e1 := calculateSqrtPrice_eq g1.2.1 g1.2.2
  have e2 := calculateSqrtPrice_eq g2.2.1 g2.2.2
  refine ⟨g1, g2, hb, _, _, by rw [getMinSqrtPrice, e1]; rfl, by rw [getMaxSqrtPrice, e2]; rfl,
    priceOf_lt g1.2.1 g2.2.2 (by rw [getMinTick_eq, getMaxTick_eq]; omega), e1, e2, ?_⟩
  intro i q hi hq
  rw [calculateSqrtPrice_eq hi.2.1 hi.2.2] at hq
  cases hq
  exact ⟨priceOf_le g1.2.1 hi.2.2 (hb i hi).1, priceOf_le hi.2.1 g2.2.2 (hb i hi).2⟩

example : getMinTick 100 = -221800 ∧ getMaxTick 7 = 221816 ∧ getMaxSqrtPrice 10 = .ok 65509176333123237000000000000 ∧
    checkTicks 10 10 10 = .ok () ∧ checkTicks 20 10 10 ≠ .ok () ∧ checkTicks (-221820) 0 10 ≠ .ok () := by
  decide +kernel

/-! ### the tick that the SDK looks up -/

private theorem sdk_tick (hs : 1 ≤ sp) (h100 : sp ≤ 221818) : ∃ lo hi, getMinSqrtPrice sp = .ok lo ∧
    getMaxSqrtPrice sp = .ok hi ∧
    ∀ p, (∃ i, getTickAtSqrtPrice p sp = .ok i ∧ Grid sp i ∧ AtTick sp i p) ↔ lo ≤ p ∧ p ≤ hi := by
  obtain ⟨g1, g2, hb, lo, hi, e1, e2, hlt, c1, c2, hq⟩ := C76_limits hs h100
  refine ⟨lo, hi, e1, e2, fun p => ⟨?_, ?_⟩⟩
  · rintro ⟨i, -, hg, q, hqi, hle, hnext, hlast⟩
    have hr := hq i q hg hqi
    refine ⟨hr.1.trans hle, ?_⟩
    by_cases h : i + sp ≤ 221818
    · obtain ⟨u, hu, hpu⟩ := hnext h
      have := hq (i + sp) u ⟨(Int.dvd_add_right hg.1).2 (Int.dvd_refl _), by have := hg.2.1; omega, h⟩ hu
      omega
    · rw [hlast (by omega)]; exact hr.2
  · rintro ⟨h1, h2⟩
    have m1 := calculateSqrtPrice_eq g1.2.1 g1.2.2
    have m2 := calculateSqrtPrice_eq g2.2.1 g2.2.2
    rw [c1] at m1
    rw [c2] at m2
    cases m1
    cases m2
    have l1 : 15258932000000000000 ≤ p := by
      have := priceOf_le (t := MIN_TICK) (u := getMinTick sp) (by decide) g1.2.2 g1.2.1
      rw [priceOf_min] at this
      exact this.trans h1
    have l2 : p ≤ 65535383934512647000000000000 := by
      have := priceOf_le (t := getMaxTick sp) (u := MAX_TICK) g2.2.1 (by decide) g2.2.2
      rw [priceOf_max] at this
      exact h2.trans this
    obtain ⟨i, hi⟩ := getTick_total hs l1 l2
    obtain ⟨-, -, hl⟩ := getTick_ok hs hi
    have hab : -221818 - (sp : Int) < i := hl.above
    have hge : -221818 ≤ i := by
      by_contra hc
      have hgn : Grid sp (i + sp) := ⟨(Int.dvd_add_right hl.dvd).2 (Int.dvd_refl _), by omega, by omega⟩
      have : getMinTick sp = i + sp := by
        refine le_antisymm (hb _ hgn).1 ?_
        obtain ⟨a, ha⟩ := hl.dvd
        obtain ⟨b, hb'⟩ := g1.1
        have hlt' : a < b := by
          by_contra hab'
          have := Int.mul_le_mul_of_nonneg_left (not_lt.1 hab') (Int.natCast_nonneg sp)
          have := g1.2.1
          omega
        have := Int.mul_le_mul_of_nonneg_left (show a + 1 ≤ b from hlt') (Int.natCast_nonneg sp)
        rw [Int.mul_add, Int.mul_one] at this
        omega
      have hh := hl.high (show i + sp ≤ 221818 by omega)
      rw [this] at h1
      omega
    have hg : Grid sp i := ⟨hl.dvd, hge, hl.le⟩
    refine ⟨i, hi, hg, _, calculateSqrtPrice_eq hge hl.le, hl.low hge, fun h => ?_, fun h => ?_⟩
    · exact ⟨_, calculateSqrtPrice_eq (show -221818 ≤ i + (sp : Int) by omega) h, hl.high h⟩
    · rw [grid_last hs hg h] at h2
      exact le_antisymm h2 (hl.low hge)

/-- C76: the SDK asks for a pool with a price alone and looks its tick up. Such a request is granted exactly for the
prices from that of the lowest to that of the highest tick of the grid, if tier, tokens and key are right. -/
theorem C76_sdk (hr : Reach s) (ht : t ∈ s.feeTiers) (hxy : x ≠ y) (hk : s.pools.get ⟨min x y, max x y, t⟩ = none) :
    ∃ lo hi, getMinSqrtPrice t.tickSpacing = .ok lo ∧ getMaxSqrtPrice t.tickSpacing = .ok hi ∧ lo < hi ∧
      ∀ p, (∃ i s', getTickAtSqrtPrice p t.tickSpacing = .ok i ∧ createPool env s x y t p i = .ok s') ↔
        lo ≤ p ∧ p ≤ hi := by
  have hv := (reach_tiers hr).ok t ht
  have hs : 1 ≤ t.tickSpacing := hv.1
  have h100 : t.tickSpacing ≤ 221818 := by have := hv.2.1; omega
  obtain ⟨lo, hi, e1, e2, h⟩ := sdk_tick hs h100
  obtain ⟨-, -, -, lo', hi', e1', e2', hlt, -⟩ := C76_limits hs h100
  rw [e1] at e1'; cases e1'
  rw [e2] at e2'; cases e2'
  refine ⟨lo, hi, e1, e2, hlt, fun p => ?_⟩
  rw [← h p]
  have key : ∀ i, (∃ s', createPool env s x y t p i = .ok s') ↔ Grid t.tickSpacing i ∧ AtTick t.tickSpacing i p := by
    intro i
    have ha := C76_answer (env := env) (x := x) (y := y) (t := t) (p := p) (i := i) hr
    unfold refusal at ha
    rw [if_neg (not_not.2 ht), if_neg hxy, if_neg (show ¬ (s.pools.get ⟨min x y, max x y, t⟩).isSome by simp [hk])] at ha
    by_cases hg : Grid t.tickSpacing i
    · rw [if_neg (not_not.2 hg)] at ha
      by_cases hat : AtTick t.tickSpacing i p
      · rw [if_neg (not_not.2 hat)] at ha
        cases hc : createPool env s x y t p i with
        | error e => rw [hc] at ha; cases ha
        | ok s' => exact ⟨fun _ => ⟨hg, hat⟩, fun _ => ⟨s', rfl⟩⟩
      · rw [if_pos hat] at ha
        exact ⟨fun ⟨s', e⟩ => by (rw [e] at ha; cases ha), fun c => absurd c.2 hat⟩
    · rw [if_pos hg] at ha
      exact ⟨fun ⟨s', e⟩ => by (rw [e] at ha; cases ha), fun c => absurd c.1 hg⟩
  constructor
  · rintro ⟨i, s', hi, hc⟩
    exact ⟨i, hi, (key i).1 ⟨s', hc⟩⟩
  · rintro ⟨i, hi, hc⟩
    obtain ⟨s', e⟩ := (key i).2 hc
    exact ⟨i, s', hi, e⟩

/-- with the spacing 10, the price of the SDK's own test is accepted; at the highest price there is of all, whose tick is
looked up as 221810, and at the lowest, the SDK's request is refused -/
example : (getTickAtSqrtPrice 1000175003749000000000000 10 >>= fun i =>
      createPool (Demo.by_ 1) Demo.start 5 9 Demo.key.feeTier 1000175003749000000000000 i).toBool = true ∧
    failure (getTickAtSqrtPrice MAX_SQRT_PRICE 10 >>= fun i =>
      createPool (Demo.by_ 1) Demo.start 5 9 Demo.key.feeTier MAX_SQRT_PRICE i) = some (.inv .InvalidInitSqrtPrice) ∧
    failure (getTickAtSqrtPrice MIN_SQRT_PRICE 10 >>= fun i =>
      createPool (Demo.by_ 1) Demo.start 5 9 Demo.key.feeTier MIN_SQRT_PRICE i) = some (.inv .InvalidInitTick) := by
  decide +kernel

end Verif
