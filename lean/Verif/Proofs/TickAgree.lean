import Verif.Proofs.TickFloor
import Verif.Proofs.PriceRange
import Verif.Props.Tickmap
import Verif.Props.Step

/-! # Price, current tick, direction and limit during a swap -/

namespace Verif
open Service Spec

variable {env : Env} {s s' : Inv}

/-- price and tick of a pool agree -/
structure TickAgree (sp : Nat) (pool : Pool) : Prop where
  price : PriceOK pool.sqrtPrice
  grid : Grid sp pool.currentTickIndex
  low : priceOf pool.currentTickIndex ≤ pool.sqrtPrice
  high : pool.currentTickIndex + sp ≤ MAX_TICK →
    pool.sqrtPrice ≤ priceOf (pool.currentTickIndex + sp)

theorem Spec.Grid.min {sp : Nat} {t : Int} (h : Grid sp t) : MIN_TICK ≤ t := h.2.1
theorem Spec.Grid.max {sp : Nat} {t : Int} (h : Grid sp t) : t ≤ MAX_TICK := h.2.2

theorem grid_next {sp : Nat} {i j : Int} (hi : (sp : Int) ∣ i) (hj : (sp : Int) ∣ j)
    (h : i < j) : i + sp ≤ j := by
  obtain ⟨a, rfl⟩ := hi
  obtain ⟨b, rfl⟩ := hj
  rcases Nat.eq_zero_or_pos sp with h0 | h0
  · simp [h0] at h
  · have hs' : (0 : Int) < sp := by exact_mod_cast h0
    have : a < b := lt_of_mul_lt_mul_left h hs'.le
    nlinarith

/-- lookups are monotone on the grid -/
theorem LookupOk.ge {p sp : Nat} {i c : Int} (h : LookupOk p sp i) (hc : Grid sp c)
    (hp : priceOf c ≤ p) : c ≤ i := by
  by_contra hlt
  have h1 := grid_next h.dvd hc.1 (by omega)
  have h2 := h.high (le_trans h1 hc.max)
  have h3 := priceOf_le (by have := h.above; omega) hc.max h1
  omega

theorem calc_grid {sp : Nat} {i : Int} {p : Nat} (h : Grid sp i) (hp : calculateSqrtPrice i = .ok p) :
    p = priceOf i := by
  rw [calculateSqrtPrice_eq h.min h.max] at hp
  cases hp; rfl

/-- the search result bounds the limit that replaces it -/
theorem closer_limit_range {tm : Tickmap} {limit : Nat} {xToY : Bool} {cur : Int} {sp : Nat}
    {key : PoolKey} (h : getCloserLimit tm limit xToY cur sp key = .ok (limit, none)) :
    if xToY then MIN_SQRT_PRICE ≤ limit else limit ≤ MAX_SQRT_PRICE := by
  unfold getCloserLimit at h
  rw [bind_ok_iff] at h
  obtain ⟨c, _, h⟩ := h
  have key : ∀ {i : Int} {q : Nat}, calculateSqrtPrice i = .ok q →
      ¬ ((xToY = true ∧ q > limit) ∨ (xToY = false ∧ q < limit)) →
      if xToY then MIN_SQRT_PRICE ≤ limit else limit ≤ MAX_SQRT_PRICE := by
    intro i q hq hn
    have := priceOK_of_tick hq
    unfold PriceOK at this
    cases xToY
    · simp at hn ⊢; omega
    · simp at hn ⊢; omega
  cases c with
  | some j =>
    simp only [bind_ok_iff, unwrap_ok_iff] at h
    obtain ⟨q, hq, h⟩ := h
    split at h
    · cases h
    · next hn => exact key hq hn
  | none =>
    simp only [bind_ok_iff, unwrap_ok_iff] at h
    obtain ⟨q, hq, _, _, h⟩ := h
    split at h
    · cases h
    · next hn => exact key hq hn

/-- the loop invariant: price and tick agree, and the price is between start and limit, except
possibly at the end -/
structure SwapSide (a : SwapArgs) (start : Nat) (st : SwapState) : Prop where
  agree : TickAgree a.key.feeTier.tickSpacing st.pool
  side : if a.xToY then st.pool.sqrtPrice ≤ start else start ≤ st.pool.sqrtPrice
  limit : if a.xToY then a.limit ≤ st.pool.sqrtPrice ∨ (st.remaining = 0 ∧ a.byIn = true ∧
      a.limit ≤ st.pool.sqrtPrice + 65536 ∧ a.limit < 10 ^ 24 + 1)
    else st.pool.sqrtPrice ≤ a.limit

/-- what an iteration knows about its target -/
structure IterTarget (s : Inv) (a : SwapArgs) (pool : Pool) (target : Nat)
    (info : Option (Int × Bool)) : Prop where
  price : PriceOK target
  side : if a.xToY then a.limit ≤ target ∧ target ≤ pool.sqrtPrice
    else pool.sqrtPrice ≤ target ∧ target ≤ a.limit
  tick : ∀ i b, info = some (i, b) → target = priceOf i ∧ Grid a.key.feeTier.tickSpacing i ∧
    (s.ticks.get (a.key, i)).isSome = b ∧
    (if a.xToY then i ≤ pool.currentTickIndex else pool.currentTickIndex < i)
  none : info = none → target = a.limit
  /-- no initialised tick strictly between -/
  gap : ∀ i, Grid a.key.feeTier.tickSpacing i → (s.ticks.get (a.key, i)).isSome →
    if a.xToY then i ≤ pool.currentTickIndex → priceOf i ≤ target
    else pool.currentTickIndex < i → target ≤ priceOf i

theorem iter_target (hw : StoreWF s) {a : SwapArgs} {pool : Pool} {target : Nat}
    {info : Option (Int × Bool)} (hs : Spacing a.key.feeTier.tickSpacing)
    (ha : TickAgree a.key.feeTier.tickSpacing pool)
    (hl : if a.xToY then a.limit ≤ pool.sqrtPrice else pool.sqrtPrice ≤ a.limit)
    (h : getCloserLimit s.tickmap a.limit a.xToY pool.currentTickIndex a.key.feeTier.tickSpacing
      a.key = .ok (target, info)) : IterTarget s a pool target info := by
  obtain ⟨c1, c2, c3, c4⟩ := C16_closer_limit hw.wf hs ha.grid h
  have bit : ∀ i b, Grid a.key.feeTier.tickSpacing i →
      (tickmapGet s.tickmap i a.key.feeTier.tickSpacing a.key = .ok b ↔
        (s.ticks.get (a.key, i)).isSome = b) := by
    intro i b hg
    rw [tickmapGet_eq hg, ← hw.bit a.key i hs.1 hg]
    constructor
    · intro h; cases h; rfl
    · intro h; rw [h]
  have htick : ∀ i b, info = some (i, b) → target = priceOf i ∧ Grid a.key.feeTier.tickSpacing i ∧
      (s.ticks.get (a.key, i)).isSome = b ∧
      (if a.xToY then i ≤ pool.currentTickIndex else pool.currentTickIndex < i) := by
    intro i b e
    obtain ⟨h1, h2, h3, h4⟩ := c3 i b e
    exact ⟨calc_grid h2 h1, h2, (bit i b h2).1 h3, h4⟩
  have hside : if a.xToY then a.limit ≤ target ∧ target ≤ pool.sqrtPrice
      else pool.sqrtPrice ≤ target ∧ target ≤ a.limit := by
    match info, c4, htick with
    | none, c4, _ =>
      rw [c4 rfl]
      cases hx : a.xToY <;> simp [hx] at hl ⊢ <;> exact hl
    | some (i, b), _, htick =>
      obtain ⟨e, hg, _, hi⟩ := htick i b rfl
      cases hx : a.xToY
      · simp only [hx, Bool.false_eq_true, if_false] at hi c1 ⊢
        refine ⟨?_, c1⟩
        have h1 := grid_next ha.grid.1 hg.1 hi
        have h2 := ha.high (le_trans h1 hg.max)
        have h3 := priceOf_le (by have := ha.grid.min; omega) hg.max h1
        omega
      · simp only [hx, if_true] at hi c1 ⊢
        refine ⟨c1, ?_⟩
        have h3 := priceOf_le hg.min ha.grid.max hi
        have := ha.low
        omega
  refine ⟨?_, hside, htick, c4, ?_⟩
  · match info, c4, htick with
    | none, c4, _ =>
      have e := c4 rfl
      subst e
      have hr := closer_limit_range h
      have hp := ha.price
      unfold PriceOK at hp ⊢
      cases hx : a.xToY
      · simp only [hx, Bool.false_eq_true, if_false] at hr hl
        omega
      · simp only [hx, if_true] at hr hl
        omega
    | some (i, b), _, htick =>
      obtain ⟨e, hg, _, hi⟩ := htick i b rfl
      rw [e]
      exact ⟨priceOf_ge_min hg.min hg.max, priceOf_le_max hg.min hg.max⟩
  · intro i hg hi
    have := c2 i _ ((bit i true hg).2 hi) (calculateSqrtPrice_eq hg.min hg.max)
    exact this

/-- where the price of an iteration ends up -/
structure IterNext (a : SwapArgs) (st : SwapState) (target next remaining : Nat) : Prop where
  side : if a.xToY then next ≤ st.pool.sqrtPrice else st.pool.sqrtPrice ≤ next ∧ next ≤ target
  over : a.xToY = true → target ≤ next ∨
    (remaining = 0 ∧ a.byIn = true ∧ target ≤ next + 65536 ∧ target < 10 ^ 24 + 1)

theorem iter_next {a : SwapArgs} {st : SwapState} {target remaining : Nat}
    {info : Option (Int × Bool)} {r : SwapResult} (hp : PriceOK st.pool.sqrtPrice)
    (ht : IterTarget s a st.pool target info)
    (h : computeSwapStep st.pool.sqrtPrice target st.pool.liquidity st.remaining a.byIn
      a.key.feeTier.fee = .ok r)
    (hr : if a.byIn then r.amountIn + r.feeAmount ≤ st.remaining ∧
        remaining = st.remaining - (r.amountIn + r.feeAmount)
      else r.amountOut ≤ st.remaining ∧ remaining = st.remaining - r.amountOut) :
    IterNext a st target r.nextSqrtPrice remaining := by
  obtain ⟨c1, c2, c3, c4⟩ := C06_partial hp.1 ht.price.1 h
  have hside := ht.side
  refine ⟨?_, ?_⟩
  · cases hx : a.xToY
    · simp only [hx, Bool.false_eq_true, if_false] at hside ⊢
      exact c1 hside.1
    · simp only [hx, if_true] at hside ⊢
      exact c2 hside.2
  · intro hx
    simp only [hx, if_true] at hside
    by_cases hle : target ≤ r.nextSqrtPrice
    · exact .inl hle
    · right
      cases hb : a.byIn
      · exact absurd (c3 hside.2 hb) hle
      · have hL : st.pool.liquidity ≠ 0 := by
          intro h0
          rw [h0, computeSwapStep_zero] at h
          cases h
          exact hle le_rfl
        have F := computeSwapStep_ok hL h
        have hf := F.feeEq
        rw [if_pos ⟨hb, by omega⟩] at hf
        rw [hb, if_pos rfl] at hr
        refine ⟨by omega, rfl, C06_overshoot_bound_partial hp.1 hside.2 h, ?_⟩
        by_contra hc
        refine hle (c4 hside.2 hb ?_)
        exact Nat.mul_le_mul (by omega) (by omega)

theorem limiting_index (hi : TickIndexed s.ticks) {key : PoolKey} {info : Option (Int × Bool)} {t : Tick}
    (h : limitingTick s key info = .ok (.initialized t)) :
    info = some (t.index, true) ∧ s.ticks.get (key, t.index) = some t := by
  match info with
  | none => simp [limitingTick] at h
  | some (i, false) => simp [limitingTick] at h
  | some (i, true) =>
    simp only [limitingTick, bind_ok_iff, pure_ok_iff, ticksGet, okOr_ok_iff] at h
    obtain ⟨t', ht', e⟩ := h
    cases e
    have := hi key i t ht'
    rw [this]
    exact ⟨rfl, ht'⟩

theorem limiting_uninit {key : PoolKey} {info : Option (Int × Bool)} {i : Int}
    (h : limitingTick s key info = .ok (.uninitialized i)) : info = some (i, false) := by
  match info with
  | none => simp [limitingTick] at h
  | some (j, false) => simp only [limitingTick] at h; cases h; rfl
  | some (j, true) =>
    simp only [limitingTick, bind_ok_iff, pure_ok_iff] at h
    obtain ⟨t, _, e⟩ := h
    cases e

theorem iter_side (hw : StoreWF s) {a : SwapArgs} {start : Nat} {st st' : SwapState}
    (hs : Spacing a.key.feeTier.tickSpacing) (hi : SwapSide a start st) (h0 : st.remaining ≠ 0)
    (h : swapIter s a st = .ok st') : SwapSide a start st' := by
  have hprice := iter_price h
  obtain ⟨target, info, r, remaining, pool, tick, u, h⟩ := swapIter_ok h
  have hl : if a.xToY then a.limit ≤ st.pool.sqrtPrice else st.pool.sqrtPrice ≤ a.limit := by
    have := hi.limit
    cases hx : a.xToY
    · simpa [hx] using this
    · simp only [hx, if_true] at this ⊢
      omega
  have ht := iter_target hw hs hi.agree hl h.limit
  have hn := iter_next (remaining := remaining) hi.agree.price ht h.step h.rem
  have hs1 := hs.1
  have hpool : pool.sqrtPrice = st.pool.sqrtPrice := by rw [(addFee_full h.fee).2]
  -- the price after the iteration
  have hp' : st'.pool.sqrtPrice = r.nextSqrtPrice := by
    rw [h.res]
    cases h.upd with
    | inside => rfl
    | cross ht hp _ _ hx => have e := (cross_full hx).2.1; dsimp only; rw [e]
    | dust ht hp _ _ _ _ hf => have e := (addFee_full hf).2; dsimp only; rw [e]
    | drop => rfl
    | done => rfl
    | uninit => rfl
  have hrem : remaining = 0 → st'.remaining = 0 := by
    intro h1
    rw [h.res]
    cases h.upd <;> simp [h1]
  refine ⟨?_, ?_, ?_⟩
  · -- agreement of price and tick
    have at_tick : ∀ (i : Int), r.nextSqrtPrice = priceOf i → Grid a.key.feeTier.tickSpacing i →
        (st'.pool.currentTickIndex = i ∨
          (a.xToY = true ∧ st'.pool.currentTickIndex = i - a.key.feeTier.tickSpacing)) →
        TickAgree a.key.feeTier.tickSpacing st'.pool := by
      intro i e hg hc
      rcases hc with hc | ⟨hx, hc⟩
      · refine ⟨hprice, by rw [hc]; exact hg, by rw [hc, hp', e], ?_⟩
        rw [hc, hp', e]
        intro hm
        exact priceOf_le hg.min hm (by omega)
      · have hnl := h.notTickLimit
        have e2 : u.pool = st'.pool := by rw [h.res]
        rw [e2, hc] at hnl
        have hmin : getMinTick a.key.feeTier.tickSpacing < i - a.key.feeTier.tickSpacing := by
          by_contra hcon
          exact hnl (.inl ⟨hx, by omega⟩)
        rw [getMinTick_eq] at hmin
        have hgm := gridHalf_mul_le a.key.feeTier.tickSpacing
        have hge := hg.max
        simp only [MAX_TICK] at hge
        refine ⟨hprice, by rw [hc]; exact ⟨Int.dvd_sub hg.1 (dvd_refl _), by omega, by omega⟩, ?_, ?_⟩
        · rw [hc, hp', e]
          exact priceOf_le (by simp only [MIN_TICK]; omega) hg.max (by omega)
        · rw [hc, hp', e, sub_add_cancel]
          intro _; exact le_rfl
    cases h.upd with
    | @inside i hc hti =>
      have hcur : st'.pool.currentTickIndex = i := by rw [h.res]
      obtain ⟨-, -, hlk⟩ := getTick_ok hs1 hti
      have hmin : MIN_TICK ≤ i := by
        cases hx : a.xToY
        · have hsd := hn.side
          simp only [hx, Bool.false_eq_true, if_false] at hsd
          have := hlk.ge hi.agree.grid (le_trans hi.agree.low hsd.1)
          exact le_trans hi.agree.grid.min this
        · have hnl := h.notTickLimit
          have hgm := gridHalf_mul_le a.key.feeTier.tickSpacing
          have : getMinTick a.key.feeTier.tickSpacing < i := by
            by_contra hcon
            exact hnl (.inl ⟨hx, by dsimp only; omega⟩)
          rw [getMinTick_eq] at this
          simp only [MIN_TICK]
          omega
      refine ⟨hprice, by rw [hcur]; exact ⟨hlk.dvd, hmin, hlk.le⟩, ?_, ?_⟩
      · rw [hcur, hp']; exact hlk.low hmin
      · rw [hcur, hp']; intro hm; exact (hlk.high hm).le
    | @cross t t' pool' enough hti hpr he hc hx =>
      subst hti
      obtain ⟨e1, e2⟩ := limiting_index hw.indexed h.htick
      obtain ⟨e3, hg, _⟩ := ht.tick _ _ e1
      refine at_tick t.index (by rw [← hpr, e3]) hg ?_
      rw [h.res]
      dsimp only
      split
      · next hb => right; exact ⟨by simp at hb; exact hb.1, rfl⟩
      · left; rfl
    | @dust t pool' hti hpr =>
      subst hti
      obtain ⟨e1, e2⟩ := limiting_index hw.indexed h.htick
      obtain ⟨e3, hg, _⟩ := ht.tick _ _ e1
      exact at_tick t.index (by rw [← hpr, e3]) hg (.inl (by rw [h.res]))
    | @drop t hti hpr =>
      subst hti
      obtain ⟨e1, e2⟩ := limiting_index hw.indexed h.htick
      obtain ⟨e3, hg, _⟩ := ht.tick _ _ e1
      exact at_tick t.index (by rw [← hpr, e3]) hg (.inl (by rw [h.res]))
    | @done t hti hpr =>
      subst hti
      obtain ⟨e1, e2⟩ := limiting_index hw.indexed h.htick
      obtain ⟨e3, hg, _⟩ := ht.tick _ _ e1
      exact at_tick t.index (by rw [← hpr, e3]) hg (.inl (by rw [h.res]))
    | @uninit i enough hti hpr =>
      subst hti
      have e1 := limiting_uninit h.htick
      obtain ⟨e3, hg, _⟩ := ht.tick _ _ e1
      refine at_tick i (by rw [← hpr, e3]) hg ?_
      rw [h.res]
      dsimp only
      split
      · next hb => right; exact ⟨by simp at hb; exact hb.1, rfl⟩
      · left; rfl
  · have h1 := hi.side
    have h2 := hn.side
    rw [hp']
    cases hx : a.xToY
    · simp only [hx, Bool.false_eq_true, if_false] at h1 h2 ⊢; omega
    · simp only [hx, if_true] at h1 h2 ⊢; omega
  · have h1 := ht.side
    have h2 := hn.side
    have h3 := hn.over
    rw [hp']
    cases hx : a.xToY
    · simp only [hx, Bool.false_eq_true, if_false] at h1 h2 ⊢; omega
    · simp only [hx, if_true] at h1 h2 ⊢
      rcases h3 hx with h4 | ⟨h4, h5, h6, h7⟩
      · left; omega
      · right; exact ⟨hrem h4, h5, by omega, by omega⟩

/-- the state after a whole swap computation -/
theorem calculateSwap_side (hw : StoreWF s) {now : Nat} {key : PoolKey} {xToY byIn : Bool}
    {amount limit : Nat} {r : CalculateSwapResult} {pool : Pool}
    (hs : Spacing key.feeTier.tickSpacing)
    (h : calculateSwap s now key xToY amount byIn limit = .ok r) (hp : s.pools.get key = some pool)
    (ha : TickAgree key.feeTier.tickSpacing pool) :
    TickAgree key.feeTier.tickSpacing r.pool ∧ r.startSqrtPrice = pool.sqrtPrice ∧
    r.targetSqrtPrice = r.pool.sqrtPrice ∧
    (if xToY then r.pool.sqrtPrice ≤ pool.sqrtPrice ∧ (limit ≤ r.pool.sqrtPrice ∨
        (byIn = true ∧ limit ≤ r.pool.sqrtPrice + 65536 ∧ limit < 10 ^ 24 + 1))
      else pool.sqrtPrice ≤ r.pool.sqrtPrice ∧ r.pool.sqrtPrice ≤ limit) := by
  obtain ⟨p, st, h1, _, h3, h4, _⟩ := calculateSwap_ok h
  rw [hp] at h1
  cases h1
  obtain ⟨st, hst, h5, h6, e⟩ := calculateSwap_ind
    (P := SwapSide ⟨key, xToY, byIn, limit, now⟩ pool.sqrtPrice) h hp
    (by
      refine ⟨ha, ?_, ?_⟩
      · dsimp only; split <;> exact le_rfl
      · dsimp only
        cases xToY
        · simpa using (h4 rfl).1.le
        · simp only [if_true]; left; exact (h3 rfl).1.le)
    (fun st st' hP h0 hi => iter_side hw hs hP h0 hi)
  rw [e]
  refine ⟨hst.agree, rfl, rfl, ?_⟩
  have h7 := hst.side
  have h8 := hst.limit
  dsimp only at h7 h8 ⊢
  cases xToY
  · simp only [Bool.false_eq_true, if_false] at h7 h8 ⊢
    exact ⟨h7, h8⟩
  · simp only [if_true] at h7 h8 ⊢
    refine ⟨h7, ?_⟩
    rcases h8 with h8 | ⟨_, h9⟩
    · exact .inl h8
    · exact .inr h9

theorem reach_agree : ∀ s, Reach s → ∀ k p, s.pools.get k = some p →
    TickAgree k.feeTier.tickSpacing p := by
  refine reach_ind ?_ ?_ ?_
  · intro a f k p h; simp [Inv.init] at h
  · intro s b aw h; exact h
  · intro env s s' hr hw he
    have ins : ∀ (k : PoolKey) (q : Pool), TickAgree k.feeTier.tickSpacing q →
        ∀ k' p, (s.pools.insert k q).get k' = some p → TickAgree k'.feeTier.tickSpacing p := by
      intro k q hq k' p hp
      rw [Map.get_insert] at hp
      split at hp
      · next e => cases hp; subst e; exact hq
      · exact hw k' p hp
    cases he with
    | other => exact hw
    | newPool ht hc _ hp =>
      refine ins _ _ ?_
      have htier := (reach_tiers hr).ok _ ht
      have hg := (checkTick_grid htier.1).1 hc
      simp only [Pool.create, bind_ok_iff, unwrap_ok_iff, pure_ok_iff] at hp
      obtain ⟨_, _, _, _, _, h, rfl⟩ := hp
      have e := calc_grid hg h
      refine ⟨priceOK_of_tick h, hg, by dsimp only; rw [e], ?_⟩
      dsimp only
      intro hm
      rw [e]
      exact priceOf_le hg.min hm (by omega)
    | poolField hp hq =>
      refine ins _ _ ?_
      have := hw _ _ hp
      rw [hq]; exact ⟨this.price, this.grid, this.low, this.high⟩
    | create h =>
      obtain ⟨pool, lt, ut, m, b, tm1, tm2, h, _⟩ := createPosition_full (reach_wf s hr).indexed h
      rw [h.res]
      refine ins _ _ ?_
      have := hw _ _ h.hpool
      rw [h.mod.pool.eq]; exact ⟨this.price, this.grid, this.low, this.high⟩
    | remove h =>
      obtain ⟨p, lower, upper, pool, m, ps, b, tm1, tm2, h, _⟩ :=
        removePosition_full (reach_wf s hr).indexed h
      rw [h.res]
      refine ins _ _ ?_
      have := hw _ _ h.hpool
      rw [h.mod.pool.eq]; exact ⟨this.price, this.grid, this.low, this.high⟩
    | claim h =>
      obtain ⟨p, lower, upper, pool, m, ps, b, h, _⟩ := claimFee_full (reach_wf s hr).indexed h
      rw [h.res]
      refine ins _ _ ?_
      have := hw _ _ h.hpool
      rw [h.mod.pool.eq]; exact ⟨this.price, this.grid, this.low, this.high⟩
    | transfer h => exact hw
    | @swap key xToY byIn amount limit r h =>
      obtain ⟨ticks, b1, b2, h1, h2, h3, h4, e⟩ := swap_ok h
      obtain ⟨p, hp, _⟩ := calculateSwap_pool h1
      have hsp : Spacing key.feeTier.tickSpacing := by
        have := ((reach_tiers hr).pools key (by rw [hp]; rfl)).1
        exact ⟨this.1, this.2.1⟩
      rw [e]
      exact ins _ _ (calculateSwap_side (reach_wf s hr) hsp h1 hp (hw _ _ hp)).1

end Verif
