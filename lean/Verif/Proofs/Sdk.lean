import Verif.Model.Sdk
import Verif.Proofs.SwapSim
import Verif.Proofs.TickInv

/-! # The SDK's simulation follows the contract's swap loop -/

set_option exponentiation.threshold 1000

namespace Verif.Sdk
open Service Spec

theorem unwrapOr_ok {v a : Nat} {x : M Nat} (h : x = .ok a) : unwrapOr v x = .ok a := by
  rw [h]; rfl

/-! ### step formulas -/

theorem nextXUp_sim {p L x n : Nat} {b : Bool} (h : Verif.getNextSqrtPriceXUp p L x b = .ok n) :
    getNextSqrtPriceXUp p L x b = .ok n := by
  unfold Verif.getNextSqrtPriceXUp at h
  unfold getNextSqrtPriceXUp
  split at h
  · next h0 => rw [if_pos h0]; exact h
  · next h0 =>
    rw [if_neg h0]
    simp only [bind_ok_iff] at h ⊢
    obtain ⟨d, h1, px, h2, den, h3, num, h4, h5⟩ := h
    refine ⟨d, h1, px, h2, den, ?_, num, h4, unwrapOr_ok h5⟩
    cases b with
    | true => exact unwrapOr_ok h3
    | false => exact unwrapOr_ok h3

theorem nextYDown_sim {p L y n : Nat} {b : Bool} (h : Verif.getNextSqrtPriceYDown p L y b = .ok n) :
    getNextSqrtPriceYDown p L y b = .ok n := by
  unfold Verif.getNextSqrtPriceYDown at h
  unfold getNextSqrtPriceYDown
  cases b with
  | true =>
    simp only [if_true, bind_ok_iff] at h ⊢
    obtain ⟨num, h1, den, h2, q, h3, h4⟩ := h
    exact ⟨num, h1, den, h2, q, unwrapOr_ok h3, unwrapOr_ok h4⟩
  | false =>
    simp only [Bool.false_eq_true, if_false, bind_ok_iff] at h ⊢
    obtain ⟨num, h1, den, h2, q, h3, h4⟩ := h
    exact ⟨num, h1, den, h2, q, unwrapOr_ok h3, unwrapOr_ok h4⟩

theorem fromInput_sim {p L a n : Nat} {b : Bool} (h : Verif.getNextSqrtPriceFromInput p L a b = .ok n) :
    getNextSqrtPriceFromInput p L a b = .ok n := by
  unfold Verif.getNextSqrtPriceFromInput at h
  unfold getNextSqrtPriceFromInput
  cases b with
  | true => rw [if_pos rfl] at h ⊢; exact nextXUp_sim h
  | false => rw [if_neg (by simp)] at h ⊢; exact nextYDown_sim h

theorem fromOutput_sim {p L a n : Nat} {b : Bool} (h : Verif.getNextSqrtPriceFromOutput p L a b = .ok n) :
    getNextSqrtPriceFromOutput p L a b = .ok n := by
  unfold Verif.getNextSqrtPriceFromOutput at h
  unfold getNextSqrtPriceFromOutput
  cases b with
  | true => rw [if_pos rfl] at h ⊢; exact nextYDown_sim h
  | false => rw [if_neg (by simp)] at h ⊢; exact nextXUp_sim h

theorem stepByIn_sim {cur target L amount fee : Nat} {x : Bool} {r : Nat × Nat}
    (h : Verif.stepByIn cur target L amount fee x = .ok r) : stepByIn cur target L amount fee x = .ok r := by
  unfold Verif.stepByIn at h
  unfold stepByIn
  simp only [bind_ok_iff] at h ⊢
  obtain ⟨k, h1, af, h2, ain, h3, n, h4, h5⟩ := h
  refine ⟨k, h1, af, h2, ain, h3, n, ?_, h5⟩
  split at h4
  · next hc => rw [if_pos hc]; exact h4
  · next hc => rw [if_neg hc]; exact fromInput_sim h4

theorem stepByOut_sim {cur target L amount : Nat} {x : Bool} {r : Nat × Nat}
    (h : Verif.stepByOut cur target L amount x = .ok r) : stepByOut cur target L amount x = .ok r := by
  unfold Verif.stepByOut at h
  unfold stepByOut
  simp only [bind_ok_iff] at h ⊢
  obtain ⟨aout, h3, n, h4, h5⟩ := h
  refine ⟨aout, h3, n, ?_, h5⟩
  split at h4
  · next hc => rw [if_pos hc]; exact h4
  · next hc => rw [if_neg hc]; exact fromOutput_sim h4

theorem step_sim {cur target L amount fee : Nat} {byIn : Bool} {r : SwapResult}
    (h : Verif.computeSwapStep cur target L amount byIn fee = .ok r) :
    computeSwapStep cur target L amount byIn fee = .ok r := by
  unfold Verif.computeSwapStep at h
  unfold computeSwapStep
  split at h
  · next h0 => rw [if_pos h0]; exact h
  · next h0 =>
    rw [if_neg h0]
    rw [bind_ok_iff] at h ⊢
    obtain ⟨q, h1, h2⟩ := h
    refine ⟨q, ?_, h2⟩
    cases byIn with
    | true =>
      simp only [if_true, bind_ok_iff] at h1 ⊢
      obtain ⟨v, h3, h4⟩ := h1
      exact ⟨v, stepByIn_sim h3, h4⟩
    | false =>
      simp only [Bool.false_eq_true, if_false, bind_ok_iff] at h1 ⊢
      obtain ⟨v, h3, h4⟩ := h1
      exact ⟨v, stepByOut_sim h3, h4⟩

theorem enough_sim {amount p L fee : Nat} {byIn x b : Bool}
    (h : Verif.isEnoughAmountToChangePrice amount p L fee byIn x = .ok b) :
    isEnoughAmountToChangePrice amount p L fee byIn x = .ok b := by
  unfold Verif.isEnoughAmountToChangePrice at h
  unfold isEnoughAmountToChangePrice
  split at h
  · next h0 => rw [if_pos h0]; exact h
  · next h0 =>
    rw [if_neg h0]
    rw [bind_ok_iff] at h ⊢
    obtain ⟨q, h1, h2⟩ := h
    refine ⟨q, ?_, h2⟩
    cases byIn with
    | true =>
      simp only [if_true, bind_ok_iff] at h1 ⊢
      obtain ⟨k, h3, af, h4, h5⟩ := h1
      exact ⟨k, h3, af, h4, fromInput_sim h5⟩
    | false =>
      simp only [Bool.false_eq_true, if_false] at h1 ⊢
      exact fromOutput_sim h1

/-! ### tick map search -/

variable {bm : List (Nat × Nat)} {tm : Tickmap} {key : PoolKey}

theorem nextLoop_eq (hw : ∀ c, word bm c = chunkWord tm key c) (sp lc lb : Nat) :
    ∀ n c b, nextLoop bm sp lc lb n c b = Verif.nextLoop tm key sp lc lb n c b := by
  intro n
  induction n with
  | zero => intro c b; rfl
  | succ n ih =>
    intro c b
    unfold nextLoop Verif.nextLoop
    simp only [hw, ih]

theorem prevLoop_eq (hw : ∀ c, word bm c = chunkWord tm key c) (sp lc lb : Nat) :
    ∀ c b, prevLoop bm sp lc lb c b = Verif.prevLoop tm key sp lc lb c b := by
  intro c
  induction c with
  | zero =>
    intro b
    unfold prevLoop Verif.prevLoop
    simp only [hw]
    rfl
  | succ c ih =>
    intro b
    unfold prevLoop Verif.prevLoop
    simp only [hw, ih]
    rfl

theorem closer_eq (hw : ∀ c, word bm c = chunkWord tm key c) (limit : Nat) (x : Bool) (cur : Int)
    (sp : Nat) : getCloserLimit bm limit x cur sp = Verif.getCloserLimit tm limit x cur sp key := by
  unfold getCloserLimit Verif.getCloserLimit prevInitialized nextInitialized
    Verif.prevInitialized Verif.nextInitialized
  simp only [nextLoop_eq hw, prevLoop_eq hw]
  rfl

/-! ### one iteration -/

/-- the fetched list of ticks answers look-ups like the contract's storage -/
def TicksAgree (s : Inv) (key : PoolKey) (ticks : List LiquidityTick) : Prop :=
  ∀ i t, s.ticks.get (key, i) = some t →
    ticks.find? (fun u => u.index = i) = some (LiquidityTick.ofTick t)

/-- the SDK's view of a limiting tick -/
def viewTick : Verif.UpdatePoolTick → UpdatePoolTick
  | .noTick => .noTick
  | .initialized t => .initialized (LiquidityTick.ofTick t)
  | .uninitialized i => .uninitialized i

theorem cross_view {t t' : Tick} {p p' : Verif.Pool} {now : Nat} (h : t.cross p now = .ok (t', p')) :
    cross (LiquidityTick.ofTick t) (Pool.of p) = .ok (Pool.of p') ∧
      LiquidityTick.ofTick t' = LiquidityTick.ofTick t := by
  simp only [Tick.cross, bind_ok_iff, pure_ok_iff] at h
  obtain ⟨k, hk, l, hl, e⟩ := h
  cases e
  refine ⟨?_, rfl⟩
  simp only [cross, bind_ok_iff, pure_ok_iff]
  exact ⟨l, hl, rfl⟩

theorem addFee_view {p p' : Verif.Pool} {amount pf : Nat} {x : Bool} (h : p.addFee amount x pf = .ok p') :
    Pool.of p' = Pool.of p := by
  obtain ⟨-, hfull⟩ := addFee_full h
  rw [hfull]
  rfl

theorem update_sim {pool : Verif.Pool} {result : SwapResult} {lim : Nat} {tick : Verif.UpdatePoolTick}
    {rem : Nat} {byIn x : Bool} {now pf : Nat} {tier : FeeTier} {u : Verif.UpdateTickResult}
    (h : UpdateTickCase pool result lim tick rem byIn x now pf tier u) :
    updateTick (Pool.of pool) result lim (viewTick tick) rem byIn x tier =
      .ok ⟨Pool.of u.pool, u.total, u.remaining, u.crossed⟩ := by
  unfold updateTick
  cases h with
  | inside hc hi =>
    have hc' : viewTick tick = .noTick ∨ lim ≠ result.nextSqrtPrice := by
      rcases hc with rfl | hc
      · exact Or.inl rfl
      · exact Or.inr hc
    rw [if_pos hc']
    simp only [bind_ok_iff, unwrap_ok_iff, pure_ok_iff]
    exact ⟨_, hi, rfl⟩
  | @cross t t' pool' enough ht hp he hc hx =>
    subst ht
    rw [if_neg (by simp [viewTick, hp])]
    simp only [bind_ok_iff, unwrap_ok_iff]
    refine ⟨enough, enough_sim he, ?_⟩
    simp only [viewTick]
    rw [if_pos hc]
    simp only [bind_ok_iff, pure_ok_iff]
    exact ⟨_, (cross_view hx).1, rfl⟩
  | @dust t pool' ht hp he hd hr hb hf =>
    subst ht hd hb
    rw [if_neg (by simp [viewTick, hp])]
    simp only [bind_ok_iff, unwrap_ok_iff]
    refine ⟨false, enough_sim he, ?_⟩
    simp only [viewTick]
    rw [if_neg (by simp), if_pos hr, pure_ok_iff]
    have := addFee_view hf
    unfold Pool.of at this ⊢
    simp only [Pool.mk.injEq] at this
    simp only [this.1, this.2.1, if_true]
    rfl
  | @drop t ht hp he hd hr hb =>
    subst ht hd hb
    rw [if_neg (by simp [viewTick, hp])]
    simp only [bind_ok_iff, unwrap_ok_iff]
    refine ⟨false, enough_sim he, ?_⟩
    simp only [viewTick]
    rw [if_neg (by simp), if_pos hr]
    rfl
  | @done t ht hp he hd hr =>
    subst ht hd hr
    rw [if_neg (by simp [viewTick, hp])]
    simp only [bind_ok_iff, unwrap_ok_iff]
    refine ⟨false, enough_sim he, ?_⟩
    simp only [viewTick]
    rw [if_neg (by simp), if_neg (by simp)]
    rfl
  | @uninit i enough ht hp he =>
    subst ht
    rw [if_neg (by simp [viewTick, hp])]
    simp only [bind_ok_iff, unwrap_ok_iff]
    exact ⟨enough, enough_sim he, rfl⟩

/-- the SDK's loop state that corresponds to the contract's -/
def view (st : SwapState) : State :=
  { pool := Pool.of st.pool, crossedTicks := st.ticks.map LiquidityTick.ofTick,
    remaining := st.remaining, totalIn := st.totalIn, totalOut := st.totalOut, fee := st.fee,
    insufficient := false, maxSteps := false, outdated := false }

/-- what an iteration needs of the data: the search and the tick it finds -/
structure LocalAgree (s : Inv) (a : SwapArgs) (bm : List (Nat × Nat)) (ticks : List LiquidityTick)
    (cur : Int) : Prop where
  closer : getCloserLimit bm a.limit a.xToY cur a.key.feeTier.tickSpacing =
    Verif.getCloserLimit s.tickmap a.limit a.xToY cur a.key.feeTier.tickSpacing a.key
  tick : ∀ target i t, Verif.getCloserLimit s.tickmap a.limit a.xToY cur a.key.feeTier.tickSpacing a.key =
    .ok (target, some (i, true)) → s.ticks.get (a.key, i) = some t →
    ticks.find? (fun u => u.index = i) = some (LiquidityTick.ofTick t)

theorem local_of_agree {s : Inv} {a : SwapArgs} {ticks : List LiquidityTick}
    (hw : ∀ c, word bm c = chunkWord s.tickmap a.key c) (ht : TicksAgree s a.key ticks) (cur : Int) :
    LocalAgree s a bm ticks cur := ⟨closer_eq hw _ _ _ _, fun _ i t _ h => ht i t h⟩

theorem iter_sim_local {s : Inv} {a : SwapArgs} {st st' : SwapState} {ticks : List LiquidityTick}
    (ha : LocalAgree s a bm ticks st.pool.currentTickIndex)
    (hle : st.fee ≤ st.totalIn) (h : swapIter s a st = .ok st') :
    iter ⟨bm, a.key.feeTier, ticks, a.xToY, a.byIn, a.limit⟩ (view st) = .ok (.go (view st')) := by
  obtain ⟨target, info, r, remaining, pool, tick, u, h⟩ := swapIter_ok h
  have hin := h.inFits
  unfold iter
  have hlim : getCloserLimit bm a.limit a.xToY (view st).pool.currentTickIndex
      a.key.feeTier.tickSpacing = .ok (target, info) := by
    exact ha.closer.trans h.limit
  have hlt : limitingTick ticks info = some (viewTick tick) := by
    have h1 := h.htick
    unfold Verif.limitingTick at h1
    unfold limitingTick
    split at h1
    · simp only [bind_ok_iff, pure_ok_iff] at h1
      obtain ⟨t, h1, rfl⟩ := h1
      have h1' := ha.tick _ _ t h.limit (by
        unfold ticksGet okOr at h1
        split at h1
        · next e => cases h1; exact e
        · cases h1)
      simp only [h1', Option.map_some, viewTick]
    · cases h1; rfl
    · cases h1; rfl
  simp only [hlim]
  have hrem : (if a.byIn = true then subC .panic (view st).remaining (r.amountIn + r.feeAmount)
      else subC .panic (view st).remaining r.amountOut) = .ok remaining := by
    have := h.rem
    split at this
    · next hb => rw [if_pos hb, subC_ok_iff]; exact this
    · next hb => rw [if_neg hb, subC_ok_iff]; exact this
  have hs : computeSwapStep (view st).pool.sqrtPrice target (view st).pool.liquidity (view st).remaining
      a.byIn a.key.feeTier.fee = .ok r := step_sim h.step
  rw [bind_ok_iff]
  refine ⟨r, hs, ?_⟩
  rw [bind_ok_iff]
  refine ⟨r.amountIn + r.feeAmount, by rw [addC_ok_iff]; exact ⟨by omega, rfl⟩, ?_⟩
  rw [bind_ok_iff]
  refine ⟨remaining, hrem, ?_⟩
  rw [bind_ok_iff]
  refine ⟨st.fee + r.feeAmount, by rw [addC_ok_iff]; exact ⟨by show st.fee + r.feeAmount < _; omega, rfl⟩, ?_⟩
  rw [bind_ok_iff]
  refine ⟨st.totalIn + (r.amountIn + r.feeAmount), by
    rw [addC_ok_iff]; exact ⟨by show st.totalIn + _ < _; omega, rfl⟩, ?_⟩
  rw [bind_ok_iff]
  refine ⟨st.totalOut + r.amountOut, by rw [addC_ok_iff]; exact ⟨h.outFits, rfl⟩, ?_⟩
  rw [if_neg h.notLimit, hlt]
  dsimp only
  unfold iterTick
  have hp : Pool.of pool = Pool.of st.pool := addFee_view h.fee
  have hp' : Pool.of { pool with sqrtPrice := r.nextSqrtPrice } =
      { (view st).pool with sqrtPrice := r.nextSqrtPrice } := by
    unfold view Pool.of
    unfold Pool.of at hp
    simp only [Pool.mk.injEq] at hp
    simp only [hp.1, hp.2.2]
  have hu := update_sim h.upd
  rw [hp'] at hu
  simp only [hu]
  rw [bind_ok_iff]
  refine ⟨st.totalIn + (r.amountIn + r.feeAmount) + u.total, by rw [addC_ok_iff]; exact ⟨hin, rfl⟩, ?_⟩
  have hnt := h.notTickLimit
  have hcond : ¬ ((a.xToY = true ∧ (Pool.of u.pool).currentTickIndex ≤
        (if a.xToY = true then getMinTick a.key.feeTier.tickSpacing else getMaxTick a.key.feeTier.tickSpacing)) ∨
      (a.xToY = false ∧ (Pool.of u.pool).currentTickIndex ≥
        (if a.xToY = true then getMinTick a.key.feeTier.tickSpacing else getMaxTick a.key.feeTier.tickSpacing))) := by
    cases hx : a.xToY with
    | true => rw [hx] at hnt; simpa [Pool.of] using hnt
    | false => rw [hx] at hnt; simpa [Pool.of] using hnt
  rw [if_neg hcond, pure_ok_iff, h.res]
  congr 1
  unfold view
  congr 1
  -- the crossed ticks
  have hticks : u.crossed = true → ∃ t t', tick = .initialized t ∧ u.tick = .initialized t' ∧
      LiquidityTick.ofTick t' = LiquidityTick.ofTick t := by
    intro hc
    cases h.upd with
    | inside => cases hc
    | @cross t t' pool' enough ht hp he hc hx => exact ⟨t, t', ht, rfl, (cross_view hx).2⟩
    | dust => cases hc
    | drop => cases hc
    | done => cases hc
    | uninit => cases hc
  cases hcr : u.crossed with
  | true =>
    obtain ⟨t, t', e1, e2, e3⟩ := hticks hcr
    rw [e1, e2]
    simp [viewTick, e3]
  | false =>
    simp only [Bool.false_eq_true, if_false]
    split <;> split <;> rfl

/-- the contract's loop ends after the given number of iterations -/
inductive Steps (s : Inv) (a : SwapArgs) : Nat → SwapState → SwapState → Prop
  | done {st : SwapState} : st.remaining = 0 → Steps s a 0 st st
  | step {n : Nat} {st st1 st' : SwapState} : st.remaining ≠ 0 → swapIter s a st = .ok st1 → Steps s a n st1 st' →
      Steps s a (n + 1) st st'

theorem loop_steps {s : Inv} {a : SwapArgs} : ∀ n st st', swapLoop s a n st = some (.ok st') →
    ∃ m, Steps s a m st st' := by
  intro n
  induction n with
  | zero => intro st st' h; simp [swapLoop] at h
  | succ n ih =>
    intro st st' h
    unfold swapLoop at h
    split at h
    · next h0 => cases h; exact ⟨0, .done h0⟩
    · next h0 =>
      cases hi : swapIter s a st with
      | error e => rw [hi] at h; cases h
      | ok st1 =>
        rw [hi] at h
        obtain ⟨m, hm⟩ := ih st1 st' h
        exact ⟨m + 1, .step h0 hi hm⟩

/-- a simulation that ends without an error or another flag reports too many steps exactly if it took more than
allowed -/
theorem loop_flag {s : Inv} {a : SwapArgs} {ticks : List LiquidityTick} {P : SwapState → Prop}
    (hP : ∀ st st', P st → st.remaining ≠ 0 → swapIter s a st = .ok st' → P st')
    (ha : ∀ st, P st → st.remaining ≠ 0 → LocalAgree s a bm ticks st.pool.currentTickIndex) {m : Nat}
    {st st' : SwapState} (h : Steps s a m st st') : ∀ k r, P st → st.fee ≤ st.totalIn →
      loop ⟨bm, a.key.feeTier, ticks, a.xToY, a.byIn, a.limit⟩ k (view st) = .ok r →
      r.maxSteps = decide (k < m) := by
  induction h with
  | @done st h0 =>
    intro k r _ _ hl
    unfold loop at hl
    rw [if_pos (show (view st).remaining = 0 from h0)] at hl
    cases hl
    simp [view]
  | @step n st st1 st' h0 hi _ ih =>
    intro k r hp hle hl
    unfold loop at hl
    rw [if_neg (show ¬ (view st).remaining = 0 from h0), iter_sim_local (ha st hp h0) hle hi, ok_bind] at hl
    dsimp only at hl
    cases k with
    | zero => cases hl; simp
    | succ k =>
      rw [ih k r (hP st st1 hp h0 hi) (iter_fee_le hi hle).1 hl, decide_eq_decide]
      omega

theorem steps_ticks {s : Inv} {a : SwapArgs} {m : Nat} {st st' : SwapState} (h : Steps s a m st st') :
    st'.ticks.length ≤ st.ticks.length + m := by
  induction h with
  | done => omega
  | @step n st st1 st' h0 hi _ ih =>
    obtain ⟨target, info, r, remaining, pool, tick, u, h⟩ := swapIter_ok hi
    have : st1.ticks.length ≤ st.ticks.length + 1 := by
      rw [h.res]
      dsimp only
      split
      · split
        · rw [List.length_append]; exact le_rfl
        · omega
      · omega
    omega

theorem loop_sim_local {s : Inv} {a : SwapArgs} {ticks : List LiquidityTick} {P : SwapState → Prop}
    (hP : ∀ st st', P st → st.remaining ≠ 0 → swapIter s a st = .ok st' → P st')
    (ha : ∀ st, P st → st.remaining ≠ 0 → LocalAgree s a bm ticks st.pool.currentTickIndex) :
    ∀ n k st st', swapLoop s a n st = some (.ok st') → P st → st.fee ≤ st.totalIn →
      ∃ r, loop ⟨bm, a.key.feeTier, ticks, a.xToY, a.byIn, a.limit⟩ k (view st) = .ok r ∧
        r.insufficient = false ∧ r.outdated = false ∧ (r.maxSteps = false → r = view st') := by
  intro n
  induction n with
  | zero => intro k st st' h; simp [swapLoop] at h
  | succ n ih =>
    intro k st st' h hp hle
    unfold swapLoop at h
    unfold loop
    split at h
    · next h0 =>
      cases h
      exact ⟨view st, by rw [if_pos (show (view st).remaining = 0 from h0)], rfl, rfl, fun _ => rfl⟩
    · next h0 =>
      rw [if_neg (show ¬ (view st).remaining = 0 from h0)]
      cases hi : swapIter s a st with
      | error e => rw [hi] at h; cases h
      | ok st1 =>
        rw [hi] at h
        rw [iter_sim_local (ha st hp h0) hle hi, ok_bind]
        dsimp only
        cases k with
        | zero => exact ⟨_, rfl, rfl, rfl, fun hc => by cases hc⟩
        | succ k => exact ih k st1 st' h (hP st st1 hp h0 hi) (iter_fee_le hi hle).1

theorem loop_sim {s : Inv} {a : SwapArgs} {ticks : List LiquidityTick}
    (hw : ∀ c, word bm c = chunkWord s.tickmap a.key c) (ht : TicksAgree s a.key ticks) :
    ∀ n k st st', swapLoop s a n st = some (.ok st') → st.fee ≤ st.totalIn →
      ∃ r, loop ⟨bm, a.key.feeTier, ticks, a.xToY, a.byIn, a.limit⟩ k (view st) = .ok r ∧
        r.insufficient = false ∧ r.outdated = false ∧ (r.maxSteps = false → r = view st') :=
  fun n k st st' h => loop_sim_local (P := fun _ => True) (fun _ _ _ _ _ => trivial)
    (fun _ _ _ => local_of_agree hw ht _) n k st st' h trivial

end Verif.Sdk
