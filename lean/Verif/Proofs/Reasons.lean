import Verif.Proofs.Terminate
import Verif.Proofs.SwapAmounts
import Verif.Proofs.Crossed
import Verif.Spec.Reasons

/-! # The reasons given for refused swaps -/

namespace Verif
open Service Spec

variable {s : Inv} {a : SwapArgs} {st st' : SwapState} {e : InvErr}

theorem bind_inv_iff {α β : Type} {x : M α} {f : α → M β} :
    (x >>= f) = .error (.inv e) ↔ x = .error (.inv e) ∨ ∃ v, x = .ok v ∧ f v = .error (.inv e) := by
  cases x with
  | error y => simp [bind, Except.bind]
  | ok v => simp [bind, Except.bind]

theorem unwrap_inv {α : Type} {x : M α} : unwrap x ≠ .error (.inv e) := by
  unfold unwrap; split <;> simp

theorem addC_inv {w m n : Nat} : addC w .panic m n ≠ .error (.inv e) := by
  unfold addC fit; split <;> simp

theorem subC_inv {m n : Nat} : subC .panic m n ≠ .error (.inv e) := by
  unfold subC; split <;> simp

theorem failIf_inv {c : Prop} [Decidable c] {y : Err} : failIf c y = .error (.inv e) ↔ c ∧ y = .inv e := by
  unfold failIf; split <;> simp_all

theorem pure_inv {α : Type} {v : α} : (pure v : M α) ≠ .error (.inv e) := by simp [pure, Except.pure]

theorem tickToPosition_inv {t : Int} {sp : Nat} : tickToPosition t sp ≠ .error (.inv e) := by
  unfold tickToPosition ensure
  split <;> split <;> simp [bind, Except.bind, pure, Except.pure]

theorem closer_inv {tm : Tickmap} {limit : Nat} {x : Bool} {cur : Int} {sp : Nat} {key : PoolKey}
    (h : getCloserLimit tm limit x cur sp key = .error (.inv e)) :
    e = .TickLimitReached ∧ cur = getSearchLimit cur sp (!x) := by
  unfold getCloserLimit at h
  rw [bind_inv_iff] at h
  rcases h with h | ⟨c, _, h⟩
  · exfalso
    cases x
    · simp only [Bool.false_eq_true, if_false] at h
      unfold nextInitialized at h
      split at h
      · exact absurd h pure_inv
      · simp only [bind_inv_iff, tickToPosition_inv, false_or, pure_inv, and_false, exists_false] at h
    · simp only [if_true] at h
      unfold prevInitialized at h
      simp only [bind_inv_iff, tickToPosition_inv, false_or, pure_inv, and_false, exists_false, or_false] at h
  · cases c with
    | some j =>
      simp only [bind_inv_iff, unwrap_inv, false_or] at h
      obtain ⟨q, _, h⟩ := h
      split at h <;> exact absurd h pure_inv
    | none =>
      simp only [bind_inv_iff, unwrap_inv, false_or, failIf_inv] at h
      obtain ⟨q, _, h⟩ := h
      rcases h with ⟨h, he⟩ | ⟨_, _, h⟩
      · exact ⟨by injection he with he; exact he.symm, h⟩
      · split at h <;> exact absurd h pure_inv

theorem updateTick_inv {pool : Pool} {r : SwapResult} {lim : Nat} {tick : UpdatePoolTick} {rem : Nat}
    {b x : Bool} {now f : Nat} {tier : FeeTier} :
    pool.updateTick r lim tick rem b x now f tier ≠ .error (.inv e) := by
  unfold Pool.updateTick
  split
  · simp only [ne_eq, bind_inv_iff, unwrap_inv, false_or, pure_inv, and_false, exists_false, not_false_eq_true]
  · simp only [ne_eq, bind_inv_iff, unwrap_inv, false_or]
    rintro ⟨v, _, h⟩
    split at h
    · split at h
      · simp only [bind_inv_iff, unwrap_inv, false_or, pure_inv, and_false, exists_false] at h
      · split at h
        · split at h
          · simp only [bind_inv_iff, unwrap_inv, false_or, pure_inv, and_false, exists_false] at h
          · exact absurd h pure_inv
        · exact absurd h pure_inv
    · exact absurd h pure_inv
    · cases h

/-- what is known of a round that refuses -/
inductive IterRefused (s : Inv) (a : SwapArgs) (st : SwapState) : InvErr → Prop
  | search (h : st.pool.currentTickIndex =
      getSearchLimit st.pool.currentTickIndex a.key.feeTier.tickSpacing (!a.xToY)) : IterRefused s a st .TickLimitReached
  | price {target : Nat} {info : Option (Int × Bool)} {r : SwapResult} {remaining : Nat}
      (limit : getCloserLimit s.tickmap a.limit a.xToY st.pool.currentTickIndex a.key.feeTier.tickSpacing
        a.key = .ok (target, info))
      (step : computeSwapStep st.pool.sqrtPrice target st.pool.liquidity st.remaining a.byIn a.key.feeTier.fee = .ok r)
      (rem : if a.byIn then r.amountIn + r.feeAmount ≤ st.remaining ∧
          remaining = st.remaining - (r.amountIn + r.feeAmount)
        else r.amountOut ≤ st.remaining ∧ remaining = st.remaining - r.amountOut)
      (hit : r.nextSqrtPrice = a.limit ∧ remaining ≠ 0) : IterRefused s a st .PriceLimitReached
  | tick {e' : InvErr} {target : Nat} {info : Option (Int × Bool)}
      (limit : getCloserLimit s.tickmap a.limit a.xToY st.pool.currentTickIndex a.key.feeTier.tickSpacing
        a.key = .ok (target, info))
      (htick : limitingTick s a.key info = .error (.inv e')) : IterRefused s a st e'
  | last {target : Nat} {info : Option (Int × Bool)} {r : SwapResult} {remaining : Nat} {pool : Pool}
      {tick : UpdatePoolTick} {u : UpdateTickResult}
      (limit : getCloserLimit s.tickmap a.limit a.xToY st.pool.currentTickIndex a.key.feeTier.tickSpacing
        a.key = .ok (target, info))
      (step : computeSwapStep st.pool.sqrtPrice target st.pool.liquidity st.remaining a.byIn a.key.feeTier.fee = .ok r)
      (rem : if a.byIn then r.amountIn + r.feeAmount ≤ st.remaining ∧
          remaining = st.remaining - (r.amountIn + r.feeAmount)
        else r.amountOut ≤ st.remaining ∧ remaining = st.remaining - r.amountOut)
      (htick : limitingTick s a.key info = .ok tick)
      (upd : UpdateTickCase { pool with sqrtPrice := r.nextSqrtPrice } r target tick remaining a.byIn
        a.xToY a.now s.protocolFee a.key.feeTier u)
      (hlast : (a.xToY = true ∧ u.pool.currentTickIndex ≤ getMinTick a.key.feeTier.tickSpacing) ∨
        (a.xToY = false ∧ u.pool.currentTickIndex ≥ getMaxTick a.key.feeTier.tickSpacing)) :
      IterRefused s a st .TickLimitReached

theorem swapIter_inv (h : swapIter s a st = .error (.inv e)) : IterRefused s a st e := by
  unfold swapIter at h
  rw [bind_inv_iff] at h
  rcases h with h | ⟨⟨target, info⟩, hlim, h⟩
  · obtain ⟨rfl, hc⟩ := closer_inv h
    exact .search hc
  simp only [bind_inv_iff, unwrap_inv, addC_inv, false_or] at h
  obtain ⟨r, hr, inFee, hin, h⟩ := h
  simp only [unwrap_ok_iff] at hr
  simp only [addC_ok_iff] at hin
  obtain ⟨_, rfl⟩ := hin
  rcases h with h | ⟨remaining, hrem, h⟩
  · exfalso
    split at h <;> exact absurd h subC_inv
  have hrem' : if a.byIn then r.amountIn + r.feeAmount ≤ st.remaining ∧
          remaining = st.remaining - (r.amountIn + r.feeAmount)
        else r.amountOut ≤ st.remaining ∧ remaining = st.remaining - r.amountOut := by
    split at hrem
    · next hb => rw [if_pos hb]; rw [subC_ok_iff] at hrem; exact hrem
    · next hb => rw [if_neg hb]; rw [subC_ok_iff] at hrem; exact hrem
  obtain ⟨pool, hf, fee, _, tin, _, tout, _, h⟩ := h
  rw [failIf_inv] at h
  rcases h with ⟨h, he⟩ | ⟨_, hnl, h⟩
  · injection he with he
    subst he
    exact .price hlim hr hrem' h
  rcases h with h | ⟨tick, htick, h⟩
  · exact .tick hlim h
  rcases h with h | ⟨u, hu, h⟩
  · exact absurd h updateTick_inv
  obtain ⟨_, _, h⟩ := h
  rw [failIf_inv] at h
  rcases h with ⟨h, he⟩ | ⟨_, _, h⟩
  · injection he with he
    subst he
    refine .last hlim hr hrem' htick (updateTick_ok hu) ?_
    rcases h with ⟨hx, h⟩ | ⟨hx, h⟩
    · rw [if_pos hx] at h; exact .inl ⟨hx, h⟩
    · rw [if_neg (by simp [hx])] at h; exact .inr ⟨hx, h⟩
  · exact absurd h pure_inv

/-- a refusal of the loop comes from one of its rounds -/
theorem swapLoop_inv {P : SwapState → Prop}
    (hstep : ∀ st st', P st → st.remaining ≠ 0 → swapIter s a st = .ok st' → P st') :
    ∀ n st, P st → swapLoop s a n st = some (.error (.inv e)) →
      ∃ st', P st' ∧ st'.remaining ≠ 0 ∧ swapIter s a st' = .error (.inv e) := by
  intro n
  induction n with
  | zero => intro st _ h; simp [swapLoop] at h
  | succ n ih =>
    intro st hP h
    unfold swapLoop at h
    split at h
    · cases h
    · next h0 =>
      cases hi : swapIter s a st with
      | error y =>
        rw [hi] at h
        simp only [Option.some.injEq, Except.error.injEq] at h
        subst h
        exact ⟨st, hP, h0, hi⟩
      | ok st1 =>
        rw [hi] at h
        exact ih st1 (hstep st st1 hP h0 hi) h

theorem minTick_grid {sp : Nat} (hs : Spacing sp) : Grid sp (getMinTick sp) ∧ Grid sp (getMinTick sp + sp) ∧
    Grid sp (getMaxTick sp) ∧ ∀ j, Grid sp j → getMinTick sp ≤ j ∧ j ≤ getMaxTick sp := by
  have h1 := gridHalf_mul_le sp
  have hs1 := hs.1
  have hs2 := hs.2
  have h0 : 0 ≤ (gridHalf sp : Int) * sp := by positivity
  have hh : (1 : Int) ≤ gridHalf sp := by
    have : 1 ≤ gridHalf sp := by unfold gridHalf; exact (Nat.one_le_div_iff (by omega)).2 (by omega)
    exact_mod_cast this
  have hm : (sp : Int) ≤ (gridHalf sp : Int) * sp := by nlinarith
  rw [getMinTick_eq, getMaxTick_eq]
  refine ⟨⟨⟨-(gridHalf sp : Int), by ring⟩, ?_, ?_⟩, ⟨⟨1 - (gridHalf sp : Int), by ring⟩, ?_, ?_⟩,
    ⟨⟨(gridHalf sp : Int), by ring⟩, ?_, ?_⟩, ?_⟩ <;> try omega
  intro j hj
  obtain ⟨c, rfl, h2, h3⟩ := grid_coord hs.1 hj
  have hp : (0 : Int) ≤ sp := by positivity
  constructor
  · have := mul_le_mul_of_nonneg_right h2 hp
    linarith
  · exact mul_le_mul_of_nonneg_right h3 hp

theorem past_down {sp : Nat} {x : Bool} {limit : Nat} (hs : Spacing sp) (hx : x = true)
    (h : limit ≤ priceOf (getMinTick sp + sp) + 65536) : PastLast sp x limit := by
  obtain ⟨_, h2, _, h4⟩ := minTick_grid hs
  refine ⟨_, _, h2, calculateSqrtPrice_eq h2.min h2.max, ?_⟩
  rw [if_pos hx]
  exact ⟨fun j hj => by have := (h4 j hj).1; omega, h⟩

theorem past_up {sp : Nat} {x : Bool} {limit : Nat} (hs : Spacing sp) (hx : x = false)
    (h : priceOf (getMaxTick sp) ≤ limit) : PastLast sp x limit := by
  obtain ⟨_, _, h3, h4⟩ := minTick_grid hs
  refine ⟨_, _, h3, calculateSqrtPrice_eq h3.min h3.max, ?_⟩
  rw [if_neg (by simp [hx])]
  exact ⟨fun j hj => (h4 j hj).2, h⟩

theorem search_end {sp : Nat} {cur : Int} {x : Bool} (hs : Spacing sp) (hg : Grid sp cur)
    (h : cur = getSearchLimit cur sp (!x)) : if x then cur = getMinTick sp else cur = getMaxTick sp := by
  obtain ⟨j, rfl, h1, h2⟩ := grid_coord hs.1 hg
  have hs0 : (0 : Int) < sp := by exact_mod_cast hs.1
  cases x
  · simp only [Bool.not_false, getSearchLimit_up hs.1] at h
    have := mul_right_cancel₀ hs0.ne' h
    simp only [Bool.false_eq_true, if_false, getMaxTick_eq]
    rw [show j = (gridHalf sp : Int) by omega]
  · simp only [Bool.not_true, getSearchLimit_down hs.1] at h
    have := mul_right_cancel₀ hs0.ne' h
    simp only [if_true, getMinTick_eq]
    rw [show j = -(gridHalf sp : Int) by omega]
    ring

/-- a limit that is taken as the target lies this side of a tick -/
theorem closer_none {tm : Tickmap} {limit : Nat} {x : Bool} {cur : Int} {sp : Nat} {key : PoolKey} (hwf : TmWF tm)
    (hs : Spacing sp) (hg : Grid sp cur) (h : getCloserLimit tm limit x cur sp key = .ok (limit, none)) :
    ∃ i, Grid sp i ∧ if x then priceOf i ≤ limit else limit ≤ priceOf i := by
  obtain ⟨j, hj, h1, h2⟩ := grid_coord hs.1 hg
  unfold getCloserLimit at h
  rw [bind_ok_iff] at h
  obtain ⟨closest, hcl, h⟩ := h
  have fin : ∀ i q, Grid sp i → calculateSqrtPrice i = .ok q →
      ¬ ((x = true ∧ q > limit) ∨ (x = false ∧ q < limit)) →
      ∃ i, Grid sp i ∧ if x then priceOf i ≤ limit else limit ≤ priceOf i := by
    intro i q hi hq hn
    have e := calc_grid hi hq
    refine ⟨i, hi, ?_⟩
    cases x
    · simp at hn ⊢; omega
    · simp at hn ⊢; omega
  cases closest with
  | some u =>
    have gu : Grid sp u := by
      cases x
      · simp only [Bool.false_eq_true, if_false] at hcl
        obtain ⟨r, hr, h3, _⟩ := nextInitialized_spec hwf hs.1 hg key
        rw [hr] at hcl
        cases hcl
        exact (h3 u rfl).1
      · simp only [if_true] at hcl
        obtain ⟨r, hr, h3, _⟩ := prevInitialized_spec (tm := tm) hs.1 hg key
        rw [hr] at hcl
        cases hcl
        exact (h3 u rfl).1
    simp only [bind_ok_iff, unwrap_ok_iff] at h
    obtain ⟨q, hq, h⟩ := h
    split at h
    · cases h
    · next hn => exact fin u q gu hq hn
  | none =>
    have gl : Grid sp (getSearchLimit cur sp (!x)) := by
      rw [hj]
      cases x
      · rw [Bool.not_false, getSearchLimit_up hs.1]
        exact coord_grid (by omega) (by omega)
      · rw [Bool.not_true, getSearchLimit_down hs.1]
        exact coord_grid (by omega) (by omega)
    simp only [bind_ok_iff, unwrap_ok_iff] at h
    obtain ⟨q, hq, _, _, h⟩ := h
    split at h
    · cases h
    · next hn => exact fin _ q gl hq hn

/-- the reasons of the rounds -/
theorem iter_reason (hw : StoreWF s) {start : Nat} (hs : Spacing a.key.feeTier.tickSpacing)
    (hi : SwapSide a start st) (h0 : st.remaining ≠ 0) (h : IterRefused s a st e) :
    (e = .PriceLimitReached ∧ ∃ i, Grid a.key.feeTier.tickSpacing i ∧
      if a.xToY then priceOf i ≤ a.limit else a.limit ≤ priceOf i) ∨
    (e = .TickLimitReached ∧ PastLast a.key.feeTier.tickSpacing a.xToY a.limit) := by
  have hl : if a.xToY then a.limit ≤ st.pool.sqrtPrice else st.pool.sqrtPrice ≤ a.limit := by
    have := hi.limit
    cases hx : a.xToY
    · simpa [hx] using this
    · simp only [hx, if_true] at this ⊢
      omega
  obtain ⟨g1, g2, g3, g4⟩ := minTick_grid hs
  have hs1 := hs.1
  have hag := hi.agree
  cases h with
  | search h =>
    right
    refine ⟨rfl, ?_⟩
    have hc := search_end hs hag.grid h
    cases hx : a.xToY
    · simp only [hx, Bool.false_eq_true, if_false] at hc hl
      refine past_up hs rfl ?_
      rw [← hc]
      exact le_trans hag.low hl
    · simp only [hx, if_true] at hc hl
      refine past_down hs rfl ?_
      have := hag.high (by rw [hc]; exact g2.max)
      rw [hc] at this
      omega
  | @price target info r remaining hlim hstep hrem hit =>
    left
    refine ⟨rfl, ?_⟩
    have ht := iter_target hw hs hag hl hlim
    have hn := iter_next (remaining := remaining) hag.price ht hstep hrem
    have hts := ht.side
    have et : target = a.limit := by
      cases hx : a.xToY
      · have h1 := hn.side
        simp only [hx, Bool.false_eq_true, if_false] at hts h1
        omega
      · simp only [hx, if_true] at hts
        have := hn.over hx
        omega
    match info, ht, hlim with
    | some (i, b), ht, _ =>
      obtain ⟨e1, hg, _⟩ := ht.tick i b rfl
      exact ⟨i, hg, by split <;> omega⟩
    | none, _, hlim =>
      rw [et] at hlim
      exact closer_none hw.wf hs hag.grid hlim
  | @tick e' target info hlim htick =>
    exfalso
    have ht := iter_target hw hs hag hl hlim
    match info, ht, htick with
    | none, _, htick => cases htick
    | some (i, false), _, htick => cases htick
    | some (i, true), ht, htick =>
      obtain ⟨_, _, h3, _⟩ := ht.tick i true rfl
      obtain ⟨t, h3⟩ := Option.isSome_iff_exists.1 h3
      simp [limitingTick, ticksGet, h3, okOr, bind, Except.bind, pure, Except.pure] at htick
  | @last target info r remaining pool tick u hlim hstep hrem htick hupd hlast =>
    right
    refine ⟨rfl, ?_⟩
    have ht := iter_target hw hs hag hl hlim
    have hn := iter_next (remaining := remaining) hag.price ht hstep hrem
    have hts := ht.side
    have at_tick : ∀ i, Grid a.key.feeTier.tickSpacing i → target = priceOf i →
        (u.pool.currentTickIndex = i ∨
          (a.xToY = true ∧ u.pool.currentTickIndex = i - a.key.feeTier.tickSpacing)) →
        PastLast a.key.feeTier.tickSpacing a.xToY a.limit := by
      intro i hg et hu
      rcases hlast with ⟨hx, hc⟩ | ⟨hx, hc⟩
      · simp only [hx, if_true] at hts
        refine past_down hs hx ?_
        have := priceOf_le hg.min g2.max (by omega : i ≤ getMinTick a.key.feeTier.tickSpacing + a.key.feeTier.tickSpacing)
        omega
      · simp only [hx, Bool.false_eq_true, if_false] at hts
        refine past_up hs hx ?_
        have e1 : u.pool.currentTickIndex = i := by
          rcases hu with h | h
          · exact h
          · rw [hx] at h; cases h.1
        have := priceOf_le g3.min hg.max (by omega : getMaxTick a.key.feeTier.tickSpacing ≤ i)
        omega
    cases hupd with
    | @inside i hc hti =>
      obtain ⟨-, -, hlk⟩ := getTick_ok hs1 hti
      dsimp only at hlast
      rcases hlast with ⟨hx, hc⟩ | ⟨hx, hc⟩
      · simp only [hx, if_true] at hts
        refine past_down hs hx ?_
        have h1 := g2.max
        have h2 := hlk.high (by omega)
        have h3 := priceOf_le (by have := hlk.above; omega) g2.max
          (by omega : i + a.key.feeTier.tickSpacing ≤ getMinTick a.key.feeTier.tickSpacing + a.key.feeTier.tickSpacing)
        have := hn.over hx
        omega
      · have hsd := hn.side
        simp only [hx, Bool.false_eq_true, if_false] at hts hsd
        refine past_up hs hx ?_
        have h1 := g3.min
        have h2 := hlk.low (by omega)
        have h3 := priceOf_le g3.min hlk.le hc
        omega
    | @cross t t' pool' enough hti hpr he hc hx =>
      subst hti
      obtain ⟨e1, e2⟩ := limiting_index hw.indexed htick
      obtain ⟨e3, hg, _⟩ := ht.tick _ _ e1
      refine at_tick t.index hg e3 ?_
      dsimp only
      split
      · next hb => right; exact ⟨by simp at hb; exact hb.1, rfl⟩
      · left; rfl
    | @dust t pool' hti hpr =>
      subst hti
      obtain ⟨e1, e2⟩ := limiting_index hw.indexed htick
      obtain ⟨e3, hg, _⟩ := ht.tick _ _ e1
      exact at_tick t.index hg e3 (.inl rfl)
    | @drop t hti hpr =>
      subst hti
      obtain ⟨e1, e2⟩ := limiting_index hw.indexed htick
      obtain ⟨e3, hg, _⟩ := ht.tick _ _ e1
      exact at_tick t.index hg e3 (.inl rfl)
    | @done t hti hpr =>
      subst hti
      obtain ⟨e1, e2⟩ := limiting_index hw.indexed htick
      obtain ⟨e3, hg, _⟩ := ht.tick _ _ e1
      exact at_tick t.index hg e3 (.inl rfl)
    | @uninit i enough hti hpr =>
      subst hti
      have e1 := limiting_uninit htick
      obtain ⟨e3, hg, _⟩ := ht.tick _ _ e1
      refine at_tick i hg e3 ?_
      dsimp only
      split
      · next hb => right; exact ⟨by simp at hb; exact hb.1, rfl⟩
      · left; rfl

/-! ### balances -/

theorem decrease_inv {b : Balances} {t w : ActorId} {n : Nat}
    (h : decreaseTokenBalance b t w (some n) = .error (.inv e)) :
    (e = .NoBalanceForTheToken ∧ b.get (w, t) = none ∧ n ≠ 0) ∨
      (e = .FailedToChangeTokenBalance ∧ bal b w t < n) := by
  unfold decreaseTokenBalance at h
  cases n with
  | zero => cases h
  | succ n =>
    simp only [bind_inv_iff] at h
    unfold bal
    cases hg : b.get (w, t) with
    | none =>
      rw [hg] at h
      rcases h with h | ⟨v, h, _⟩
      · simp only [okOr, Except.error.injEq, Err.inv.injEq] at h
        exact .inl ⟨h.symm, rfl, by omega⟩
      · cases h
    | some v =>
      rw [hg] at h
      rcases h with h | ⟨v', h, h2⟩
      · cases h
      · cases h
        right
        split at h2
        · rw [bind_inv_iff] at h2
          rcases h2 with h2 | ⟨_, _, h2⟩
          · unfold subC at h2
            split at h2
            · cases h2
            · next hc =>
              simp only [Except.error.injEq, Err.inv.injEq] at h2
              exact ⟨h2.symm, by dsimp only; omega⟩
          · exact absurd h2 pure_inv
        · exact absurd h2 pure_inv

theorem decrease_get {b : Balances} {t u w : ActorId} {n : Nat} {r : Balances × Nat}
    (h : decreaseTokenBalance b t w (some n) = .ok r) (hne : t ≠ u) : r.1.get (w, u) = b.get (w, u) := by
  unfold decreaseTokenBalance at h
  have hk : (w, u) ≠ (w, t) := by simp [hne.symm]
  cases n with
  | zero => cases h; rfl
  | succ n =>
    simp only [bind_ok_iff] at h
    obtain ⟨v, _, h⟩ := h
    split at h
    · simp only [bind_ok_iff, pure_ok_iff] at h
      obtain ⟨_, _, rfl⟩ := h
      rw [Map.get_insert, if_neg hk]
    · simp only [pure_ok_iff] at h
      subst h
      rw [Map.get_erase, if_neg hk]

theorem increase_inv {b : Balances} {t w : ActorId} {n : Nat}
    (h : increaseTokenBalance b t w n = .error (.inv e)) :
    e = .FailedToChangeTokenBalance ∧ 2 ^ 256 ≤ bal b w t + n := by
  unfold increaseTokenBalance at h
  split at h
  · cases h
  · rw [bind_inv_iff] at h
    rcases h with h | ⟨_, _, h⟩
    · unfold addC fit at h
      split at h
      · cases h
      · next hc =>
        simp only [Except.error.injEq, Err.inv.injEq] at h
        refine ⟨h.symm, ?_⟩
        unfold bal
        cases hg : b.get (w, t) <;> simp only [hg, Option.getD_none, Option.getD_some] at hc ⊢ <;> omega
    · exact absurd h pure_inv

end Verif
