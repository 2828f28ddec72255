import Verif.Proofs.Frame

/-! # The swap loop: inversion and induction -/

namespace Verif
open Service Spec

variable {s : Inv} {a : SwapArgs} {st st' : SwapState}

/-- what `updateTick` did -/
inductive UpdateTickCase (pool : Pool) (result : SwapResult) (swapLimit : Nat) (tick : UpdatePoolTick)
    (remaining : Nat) (byIn xToY : Bool) (now protocolFee : Nat) (tier : FeeTier) :
    UpdateTickResult → Prop
  /-- the price stopped before the limiting tick -/
  | inside {i : Int} (hc : tick = .noTick ∨ swapLimit ≠ result.nextSqrtPrice)
      (hi : getTickAtSqrtPrice result.nextSqrtPrice tier.tickSpacing = .ok i) :
      UpdateTickCase pool result swapLimit tick remaining byIn xToY now protocolFee tier
        ⟨{ pool with currentTickIndex := i }, tick, 0, remaining, false⟩
  /-- an initialised tick was crossed -/
  | cross {t t' : Tick} {pool' : Pool} {enough : Bool} (ht : tick = .initialized t)
      (hp : swapLimit = result.nextSqrtPrice)
      (he : isEnoughAmountToChangePrice remaining result.nextSqrtPrice pool.liquidity tier.fee byIn
        xToY = .ok enough)
      (hc : xToY = false ∨ enough = true) (hx : t.cross pool now = .ok (t', pool')) :
      UpdateTickCase pool result swapLimit tick remaining byIn xToY now protocolFee tier
        ⟨{ pool' with currentTickIndex := if xToY && enough then t.index - tier.tickSpacing else t.index },
          .initialized t', 0, remaining, true⟩
  /-- the rest of the input is taken as a fee -/
  | dust {t : Tick} {pool' : Pool} (ht : tick = .initialized t) (hp : swapLimit = result.nextSqrtPrice)
      (he : isEnoughAmountToChangePrice remaining result.nextSqrtPrice pool.liquidity tier.fee byIn
        xToY = .ok false)
      (hd : xToY = true) (hr : remaining ≠ 0) (hb : byIn = true)
      (hf : pool.addFee remaining xToY protocolFee = .ok pool') :
      UpdateTickCase pool result swapLimit tick remaining byIn xToY now protocolFee tier
        ⟨{ pool' with currentTickIndex := t.index }, tick, remaining, 0, false⟩
  /-- the rest of the requested output is dropped -/
  | drop {t : Tick} (ht : tick = .initialized t) (hp : swapLimit = result.nextSqrtPrice)
      (he : isEnoughAmountToChangePrice remaining result.nextSqrtPrice pool.liquidity tier.fee byIn
        xToY = .ok false)
      (hd : xToY = true) (hr : remaining ≠ 0) (hb : byIn = false) :
      UpdateTickCase pool result swapLimit tick remaining byIn xToY now protocolFee tier
        ⟨{ pool with currentTickIndex := t.index }, tick, 0, 0, false⟩
  /-- nothing remains -/
  | done {t : Tick} (ht : tick = .initialized t) (hp : swapLimit = result.nextSqrtPrice)
      (he : isEnoughAmountToChangePrice remaining result.nextSqrtPrice pool.liquidity tier.fee byIn
        xToY = .ok false)
      (hd : xToY = true) (hr : remaining = 0) :
      UpdateTickCase pool result swapLimit tick remaining byIn xToY now protocolFee tier
        ⟨{ pool with currentTickIndex := t.index }, tick, 0, 0, false⟩
  /-- the end of the search range -/
  | uninit {i : Int} {enough : Bool} (ht : tick = .uninitialized i)
      (hp : swapLimit = result.nextSqrtPrice)
      (he : isEnoughAmountToChangePrice remaining result.nextSqrtPrice pool.liquidity tier.fee byIn
        xToY = .ok enough) :
      UpdateTickCase pool result swapLimit tick remaining byIn xToY now protocolFee tier
        ⟨{ pool with currentTickIndex := if xToY && enough then i - tier.tickSpacing else i },
          tick, 0, remaining, false⟩

theorem updateTick_ok {pool : Pool} {result : SwapResult} {swapLimit : Nat} {tick : UpdatePoolTick}
    {remaining : Nat} {byIn xToY : Bool} {now protocolFee : Nat} {tier : FeeTier}
    {u : UpdateTickResult}
    (h : pool.updateTick result swapLimit tick remaining byIn xToY now protocolFee tier = .ok u) :
    UpdateTickCase pool result swapLimit tick remaining byIn xToY now protocolFee tier u := by
  unfold Pool.updateTick at h
  split at h
  · next hc =>
    simp only [bind_ok_iff, unwrap_ok_iff, pure_ok_iff] at h
    obtain ⟨i, hi, rfl⟩ := h
    exact .inside hc hi
  · next hc =>
    push Not at hc
    obtain ⟨hc1, hc2⟩ := hc
    rw [bind_ok_iff] at h
    obtain ⟨enough, he, h⟩ := h
    rw [unwrap_ok_iff] at he
    cases tick with
    | noTick => exact absurd rfl hc1
    | initialized t =>
      simp only at h
      split at h
      · next hx =>
        simp only [bind_ok_iff, unwrap_ok_iff, pure_ok_iff] at h
        obtain ⟨⟨t', pool'⟩, h1, rfl⟩ := h
        exact .cross rfl hc2 he hx h1
      · next hx =>
        have hd : xToY = true := by
          cases xToY
          · exact absurd (Or.inl rfl) hx
          · rfl
        have hen : enough = false := by
          cases enough
          · rfl
          · exact absurd (Or.inr rfl) hx
        subst hen
        split at h
        · next hr =>
          cases byIn with
          | true =>
            simp only [if_true, bind_ok_iff, unwrap_ok_iff, pure_ok_iff] at h
            obtain ⟨pool', h1, rfl⟩ := h
            exact .dust rfl hc2 he hd hr rfl h1
          | false =>
            simp only [Bool.false_eq_true, if_false, pure_ok_iff] at h
            subst h
            exact .drop rfl hc2 he hd hr rfl
        · next hr =>
          push Not at hr
          subst hr
          simp only [pure_ok_iff] at h
          subst h
          exact .done rfl hc2 he hd rfl
    | uninitialized i =>
      simp only [pure_ok_iff] at h
      subst h
      exact .uninit rfl hc2 he

/-- what one iteration did -/
structure SwapIterOk (s : Inv) (a : SwapArgs) (st st' : SwapState) (target : Nat)
    (info : Option (Int × Bool)) (r : SwapResult) (remaining : Nat) (pool : Pool)
    (tick : UpdatePoolTick) (u : UpdateTickResult) : Prop where
  limit : getCloserLimit s.tickmap a.limit a.xToY st.pool.currentTickIndex a.key.feeTier.tickSpacing
    a.key = .ok (target, info)
  step : computeSwapStep st.pool.sqrtPrice target st.pool.liquidity st.remaining a.byIn
    a.key.feeTier.fee = .ok r
  rem : if a.byIn then r.amountIn + r.feeAmount ≤ st.remaining ∧
      remaining = st.remaining - (r.amountIn + r.feeAmount)
    else r.amountOut ≤ st.remaining ∧ remaining = st.remaining - r.amountOut
  fee : st.pool.addFee r.feeAmount a.xToY s.protocolFee = .ok pool
  notLimit : ¬ (r.nextSqrtPrice = a.limit ∧ remaining ≠ 0)
  htick : limitingTick s a.key info = .ok tick
  upd : UpdateTickCase { pool with sqrtPrice := r.nextSqrtPrice } r target tick remaining a.byIn
    a.xToY a.now s.protocolFee a.key.feeTier u
  notTickLimit : ¬ ((a.xToY = true ∧ u.pool.currentTickIndex ≤ getMinTick a.key.feeTier.tickSpacing) ∨
     (a.xToY = false ∧ u.pool.currentTickIndex ≥ getMaxTick a.key.feeTier.tickSpacing))
  inFits : st.totalIn + (r.amountIn + r.feeAmount) + u.total < 2 ^ 256
  outFits : st.totalOut + r.amountOut < 2 ^ 256
  res : st' = { pool := u.pool
                ticks := match u.tick with
                  | .initialized t => if u.crossed then st.ticks ++ [t] else st.ticks
                  | _ => st.ticks
                remaining := u.remaining
                totalIn := st.totalIn + (r.amountIn + r.feeAmount) + u.total
                totalOut := st.totalOut + r.amountOut
                fee := st.fee + r.feeAmount }

theorem swapIter_ok (h : swapIter s a st = .ok st') :
    ∃ target info r remaining pool tick u,
      SwapIterOk s a st st' target info r remaining pool tick u := by
  unfold swapIter at h
  simp only [bind_ok_iff, unwrap_ok_iff, addC_ok_iff, failIf_ok_iff, pure_ok_iff] at h
  obtain ⟨⟨target, info⟩, h1, r, h2, inFee, ⟨h3, rfl⟩, remaining, h4, pool, h5, fee, ⟨h6, rfl⟩, tin,
    ⟨h7, rfl⟩, tout, ⟨h8, rfl⟩, _, h9, tick, h10, u, h11, tin2, ⟨h12, rfl⟩, _, h13, rfl⟩ := h
  refine ⟨target, info, r, remaining, pool, tick, u, h1, h2, ?_, h5, h9, h10, updateTick_ok h11, ?_, h12,
    h8, rfl⟩
  · cases hb : a.byIn with
    | true => rw [hb] at h4; simpa using h4
    | false => rw [hb] at h4; simpa using h4
  · cases hx : a.xToY with
    | true => rw [hx] at h13; simpa using h13
    | false => rw [hx] at h13; simpa using h13

/-- an invariant of the iterations holds of the final state -/
theorem swapLoop_ind {P : SwapState → Prop}
    (hstep : ∀ st st', P st → st.remaining ≠ 0 → swapIter s a st = .ok st' → P st') :
    ∀ n st st', P st → swapLoop s a n st = some (.ok st') → P st' ∧ st'.remaining = 0 := by
  intro n
  induction n with
  | zero => intro st st' _ h; simp [swapLoop] at h
  | succ n ih =>
    intro st st' hP h
    unfold swapLoop at h
    split at h
    · next h0 => cases h; exact ⟨hP, h0⟩
    · next h0 =>
      cases hi : swapIter s a st with
      | error e => rw [hi] at h; cases h
      | ok st1 =>
        rw [hi] at h
        exact ih st1 st' (hstep st st1 hP h0 hi) h

theorem calculateSwap_ok {now : Nat} {key : PoolKey} {xToY byIn : Bool} {amount limit : Nat}
    {r : CalculateSwapResult} (h : calculateSwap s now key xToY amount byIn limit = .ok r) :
    ∃ pool st, s.pools.get key = some pool ∧ amount ≠ 0 ∧
      (xToY = true → limit < pool.sqrtPrice ∧ limit ≤ MAX_SQRT_PRICE) ∧
      (xToY = false → pool.sqrtPrice < limit ∧ MIN_SQRT_PRICE ≤ limit) ∧
      swapLoop s ⟨key, xToY, byIn, limit, now⟩ swapFuel
        { pool := pool, ticks := [], remaining := amount, totalIn := 0, totalOut := 0, fee := 0 }
        = some (.ok st) ∧ st.totalOut ≠ 0 ∧
      r = { amountIn := st.totalIn, amountOut := st.totalOut, startSqrtPrice := pool.sqrtPrice,
            targetSqrtPrice := st.pool.sqrtPrice, fee := st.fee, pool := st.pool, ticks := st.ticks } := by
  simp only [calculateSwap, bind_ok_iff, swapStart, failIf_ok_iff, poolsGet_ok, pure_ok_iff] at h
  obtain ⟨_, ⟨_, h0, p, h1, _, h2, _, h3, rfl⟩, st, h4, _, h5, rfl⟩ := h
  refine ⟨p, st, h1, h0, ?_, ?_, ?_, h5, rfl⟩
  · intro hx; subst hx; push Not at h2; exact h2 rfl
  · intro hx; subst hx; push Not at h3; exact h3 rfl
  · cases hl : swapLoop s ⟨key, xToY, byIn, limit, now⟩ swapFuel
      { pool := p, ticks := [], remaining := amount, totalIn := 0, totalOut := 0, fee := 0 } with
    | none => rw [hl] at h4; cases h4
    | some x =>
      rw [hl] at h4
      simp only [Option.getD_some] at h4
      rw [h4]

/-- invariants of a whole swap computation -/
theorem calculateSwap_ind {now : Nat} {key : PoolKey} {xToY byIn : Bool} {amount limit : Nat}
    {r : CalculateSwapResult} {pool : Pool} {P : SwapState → Prop}
    (h : calculateSwap s now key xToY amount byIn limit = .ok r) (hp : s.pools.get key = some pool)
    (h0 : P { pool := pool, ticks := [], remaining := amount, totalIn := 0, totalOut := 0, fee := 0 })
    (hstep : ∀ st st', P st → st.remaining ≠ 0 →
      swapIter s ⟨key, xToY, byIn, limit, now⟩ st = .ok st' → P st') :
    ∃ st, P st ∧ st.remaining = 0 ∧ st.totalOut ≠ 0 ∧
      r = { amountIn := st.totalIn, amountOut := st.totalOut, startSqrtPrice := pool.sqrtPrice,
            targetSqrtPrice := st.pool.sqrtPrice, fee := st.fee, pool := st.pool, ticks := st.ticks } := by
  obtain ⟨p, st, h1, _, _, _, h2, h3, e⟩ := calculateSwap_ok h
  rw [hp] at h1
  cases h1
  obtain ⟨h4, h5⟩ := swapLoop_ind hstep _ _ _ h0 h2
  exact ⟨st, h4, h5, h3, e⟩

end Verif
