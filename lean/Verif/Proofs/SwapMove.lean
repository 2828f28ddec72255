import Verif.Proofs.Active

/-! # One iteration of the swap loop, seen from the initialised ticks -/

namespace Verif
open Service Spec

variable {s : Inv} {key : PoolKey}

/-- what the iteration does to the tick index and to the crossed ticks -/
inductive MoveKind (s : Inv) (a : SwapArgs) (st st' : SwapState) (p : Pool) : Prop
  /-- every initialised tick stays on its side -/
  | stay (ticks : st'.ticks = st.ticks)
      (pool : st'.pool = { p with currentTickIndex := st'.pool.currentTickIndex })
      (side : ∀ j, (s.ticks.get (a.key, j)).isSome →
        (j ≤ st'.pool.currentTickIndex ↔ j ≤ st.pool.currentTickIndex))
  /-- exactly one initialised tick changes its side -/
  | cross (t t' : Tick) (q : Pool) (stored : s.ticks.get (a.key, t.index) = some t)
      (hx : t.cross p a.now = .ok (t', q)) (ticks : st'.ticks = st.ticks ++ [t'])
      (pool : st'.pool = { q with currentTickIndex := st'.pool.currentTickIndex })
      (hit : st'.pool.sqrtPrice = priceOf t.index)
      (dir : if a.xToY then t.index ≤ st.pool.currentTickIndex else st.pool.currentTickIndex < t.index)
      (flips : t.index ≤ st'.pool.currentTickIndex ↔ ¬ t.index ≤ st.pool.currentTickIndex)
      (side : ∀ j, j ≠ t.index → (s.ticks.get (a.key, j)).isSome →
        (j ≤ st'.pool.currentTickIndex ↔ j ≤ st.pool.currentTickIndex))

/-- an iteration: `r` is the step, `p1` the pool with its fee, `dust` the fee taken besides -/
structure IterMove (s : Inv) (a : SwapArgs) (st st' : SwapState) (target : Nat) (r : SwapResult)
    (dust : Nat) (p1 p2 : Pool) : Prop where
  step : computeSwapStep st.pool.sqrtPrice target st.pool.liquidity st.remaining a.byIn
    a.key.feeTier.fee = .ok r
  priceOK : PriceOK target
  tgt : if a.xToY then target ≤ st.pool.sqrtPrice else st.pool.sqrtPrice ≤ target
  next : if a.xToY then r.nextSqrtPrice ≤ st.pool.sqrtPrice
    else st.pool.sqrtPrice ≤ r.nextSqrtPrice ∧ r.nextSqrtPrice ≤ target
  fee : st.pool.addFee r.feeAmount a.xToY s.protocolFee = .ok p1
  rest : { p1 with sqrtPrice := r.nextSqrtPrice }.addFee dust a.xToY s.protocolFee = .ok p2
  price : st'.pool.sqrtPrice = r.nextSqrtPrice
  totalIn : st'.totalIn = st.totalIn + (r.amountIn + r.feeAmount) + dust
  totalOut : st'.totalOut = st.totalOut + r.amountOut
  kind : MoveKind s a st st' p2

theorem tokMulPctUp_zero (pf : Nat) : tokMulPctUp 0 pf = .ok 0 := by
  have hp : ∀ w : Nat, 0 < 2 ^ w := fun w => Nat.two_pow_pos w
  have h2 : 0 + (pctOne - 1) < 2 ^ 512 :=
    Nat.lt_of_lt_of_le (by decide : 0 + (pctOne - 1) < 2 ^ 40) (Nat.pow_le_pow_right (by decide) (by decide))
  unfold tokMulPctUp bigMulUp
  simp only [bind_ok_iff, mulC_ok_iff, addC_ok_iff, fit_ok_iff]
  exact ⟨0, ⟨by rw [Nat.zero_mul]; exact hp _, by rw [Nat.zero_mul]⟩, _, ⟨h2, rfl⟩,
    Nat.lt_of_le_of_lt (Nat.le_of_eq (by decide : (0 + (pctOne - 1)) / pctOne = 0)) (hp _), by decide⟩

theorem addFee_zero {p : Pool} {x : Bool} {pf : Nat} : p.addFee 0 x pf = .ok p := by
  unfold Pool.addFee
  rw [tokMulPctUp_zero]
  simp [subC]

theorem iter_moves (hw : StoreWF s) {a : SwapArgs} {start : Nat} {st st' : SwapState}
    (hs : Spacing a.key.feeTier.tickSpacing)
    (hi : SwapSide a start st) (h0 : st.remaining ≠ 0)
    (h : swapIter s a st = .ok st') :
    (st'.remaining = 0 ∧ Near s a.key a.xToY a.byIn a.limit st'.pool.sqrtPrice) ∨
    ∃ target r dust p1 p2, IterMove s a st st' target r dust p1 p2 := by
  have hagree := hi.agree
  obtain ⟨target, info, r, remaining, pool, tick, u, h⟩ := swapIter_ok h
  have hlim : if a.xToY then a.limit ≤ st.pool.sqrtPrice else st.pool.sqrtPrice ≤ a.limit := by
    have := hi.limit
    cases hx : a.xToY
    · simpa [hx] using this
    · simp only [hx, if_true] at this ⊢
      omega
  have ht := iter_target hw hs hagree hlim h.limit
  have hn := iter_next (remaining := remaining) hagree.price ht h.step h.rem
  have hs1 := hs.1
  have hpc : pool.currentTickIndex = st.pool.currentTickIndex := by rw [(addFee_full h.fee).2]
  have hp' : st'.pool.sqrtPrice = r.nextSqrtPrice := by
    rw [h.res]
    cases h.upd with
    | inside => rfl
    | cross ht hp _ _ hx => have e := (cross_full hx).2.1; dsimp only; rw [e]
    | dust ht hp _ _ _ _ hf => have e := (addFee_full hf).2; dsimp only; rw [e]
    | drop => rfl
    | done => rfl
    | uninit => rfl
  have hrem : remaining = 0 → st'.remaining = 0 := by
    intro h1
    rw [h.res]
    cases h.upd <;> simp [h1]
  -- initialised ticks in the way
  have gapD : a.xToY = true → ∀ i, Grid a.key.feeTier.tickSpacing i → target = priceOf i →
      ∀ j, i < j → j ≤ st.pool.currentTickIndex → (s.ticks.get (a.key, j)).isSome → False := by
    intro hx i hg e j h1 h2 hj
    have hgj := tick_grid hw hj
    have := ht.gap j hgj hj
    simp only [hx, if_true] at this
    have h3 := this h2
    have h4 := priceOf_lt hg.min hgj.max h1
    omega
  have gapU : a.xToY = false → ∀ i, Grid a.key.feeTier.tickSpacing i → target = priceOf i →
      ∀ j, st.pool.currentTickIndex < j → j < i → (s.ticks.get (a.key, j)).isSome → False := by
    intro hx i hg e j h1 h2 hj
    have hgj := tick_grid hw hj
    have := ht.gap j hgj hj
    simp only [hx, Bool.false_eq_true, if_false] at this
    have h3 := this h1
    have h4 := priceOf_lt hgj.min hg.max h2
    omega
  have off : ∀ i, Grid a.key.feeTier.tickSpacing i → ∀ j, i - a.key.feeTier.tickSpacing < j → j < i →
      (s.ticks.get (a.key, j)).isSome → False := by
    intro i hg j h1 h2 hj
    have := grid_next (tick_grid hw hj).1 hg.1 h2
    omega
  have stay : a.xToY = true → ∀ i, Grid a.key.feeTier.tickSpacing i → target = priceOf i →
      i ≤ st.pool.currentTickIndex → ∀ j, (s.ticks.get (a.key, j)).isSome →
      (j ≤ i ↔ j ≤ st.pool.currentTickIndex) := by
    intro hx i hg e hle j hj
    refine ⟨fun h => le_trans h hle, fun h => ?_⟩
    by_contra hc
    exact gapD hx i hg e j (by omega) h hj
  have htgt : if a.xToY then target ≤ st.pool.sqrtPrice else st.pool.sqrtPrice ≤ target := by
    have := ht.side
    cases hx : a.xToY
    · simp only [hx, Bool.false_eq_true, if_false] at this ⊢; exact this.1
    · simp only [hx, if_true] at this ⊢; exact this.2
  -- everything but the kind of the move
  have mk : ∀ dust p2, { pool with sqrtPrice := r.nextSqrtPrice }.addFee dust a.xToY s.protocolFee = .ok p2 →
      u.total = dust → MoveKind s a st st' p2 →
      ∃ target r dust p1 p2, IterMove s a st st' target r dust p1 p2 := by
    intro dust p2 hd hu hk
    exact ⟨target, r, dust, pool, p2, h.step, ht.price, htgt, hn.side, h.fee, hd, hp',
      by rw [h.res, ← hu], by rw [h.res], hk⟩
  have hu := h.upd
  have hres := h.res
  generalize hpp : ({ pool with sqrtPrice := r.nextSqrtPrice } : Pool) = pp at hu mk
  have hppc : pp.currentTickIndex = st.pool.currentTickIndex := by rw [← hpp]; exact hpc
  have zero := addFee_zero (p := pp) (x := a.xToY) (pf := s.protocolFee)
  cases hu with
  | @inside i hc hti =>
    have hcur : st'.pool.currentTickIndex = i := by rw [hres]
    obtain ⟨-, -, hlk⟩ := getTick_ok hs1 hti
    have limitIs : r.nextSqrtPrice = target → target = a.limit := by
      intro e
      have hno : tick = .noTick := by
        rcases hc with hc | hc
        · exact hc
        · exact absurd e.symm hc
      exact ht.none (limiting_none (by rw [← hno]; exact h.htick))
    have atLimit : r.nextSqrtPrice = target → remaining = 0 := by
      intro e
      have hno : tick = .noTick := by
        rcases hc with hc | hc
        · exact hc
        · exact absurd e.symm hc
      have e2 := ht.none (limiting_none (by rw [← hno]; exact h.htick))
      by_contra hr
      exact h.notLimit ⟨by omega, hr⟩
    have good : (∀ j, (s.ticks.get (a.key, j)).isSome → (j ≤ i ↔ j ≤ st.pool.currentTickIndex)) →
        ∃ target r dust p1 p2, IterMove s a st st' target r dust p1 p2 := by
      intro hg
      refine mk 0 pp zero rfl (.stay ?_ (by rw [hres]) (by rw [hcur]; exact hg))
      rw [hres]; dsimp only; cases tick <;> simp
    rw [hp']
    cases hx : a.xToY
    · -- upwards
      have hsd := hn.side
      simp only [hx, Bool.false_eq_true, if_false] at hsd
      have hci := hlk.ge hagree.grid (le_trans hagree.low hsd.1)
      by_cases hex : ∃ j, st.pool.currentTickIndex < j ∧ j ≤ i ∧ (s.ticks.get (a.key, j)).isSome
      · left
        obtain ⟨j, h1, h2, hj⟩ := hex
        have hgj := tick_grid hw hj
        have h3 := ht.gap j hgj hj
        simp only [hx, Bool.false_eq_true, if_false] at h3
        have h3 := h3 h1
        have h4 := priceOf_le hgj.min hlk.le h2
        have h5 := hlk.low (le_trans hgj.min h2)
        have e : target = r.nextSqrtPrice := by omega
        exact ⟨hrem (atLimit e.symm), near_up hw hj rfl (by omega) (by rw [← limitIs e.symm]; exact e)⟩
      · right
        push Not at hex
        refine good fun j hj => ⟨fun h => ?_, fun h => le_trans h hci⟩
        by_contra hcon
        exact hex j (by omega) h hj
    · -- downwards
      have hsd := hn.side
      simp only [hx, if_true] at hsd
      by_cases hci : i ≤ st.pool.currentTickIndex
      · by_cases hex : ∃ j, i < j ∧ j ≤ st.pool.currentTickIndex ∧ (s.ticks.get (a.key, j)).isSome
        · left
          obtain ⟨j, h1, h2, hj⟩ := hex
          have hgj := tick_grid hw hj
          have h3 := ht.gap j hgj hj
          simp only [hx, if_true] at h3
          have h3 := h3 h2
          have h4 := grid_next hlk.dvd hgj.1 h1
          have h5 := hlk.high (le_trans h4 hgj.max)
          have h6 := priceOf_le (by have := hlk.above; omega) hgj.max h4
          rcases hn.over hx with h7 | ⟨h7, hb7, h8, h9⟩
          · omega
          · exact ⟨hrem h7, near_over hw hj rfl hb7 (by omega) (by omega) (by omega)⟩
        · right
          push Not at hex
          refine good fun j hj => ⟨fun h => le_trans h hci, fun h => ?_⟩
          by_contra hcon
          exact hex j (by omega) h hj
      · have hci' : st.pool.currentTickIndex < i := by omega
        have h1 := grid_next hagree.grid.1 hlk.dvd hci'
        have h2 := hagree.high (le_trans h1 hlk.le)
        have hmin := hagree.grid.min
        have h3 := hlk.low (by omega)
        have h4 := priceOf_le (t := st.pool.currentTickIndex + a.key.feeTier.tickSpacing) (u := i)
          (by omega) hlk.le h1
        have e1 : r.nextSqrtPrice = priceOf i := by omega
        have e2 : st.pool.sqrtPrice = r.nextSqrtPrice := by omega
        have e3 : i = st.pool.currentTickIndex + a.key.feeTier.tickSpacing := by
          by_contra hne
          have := priceOf_lt (t := st.pool.currentTickIndex + a.key.feeTier.tickSpacing) (u := i)
            (by omega) hlk.le (by omega)
          omega
        have hgi : Grid a.key.feeTier.tickSpacing i := ⟨hlk.dvd, by simp only [MIN_TICK] at hmin; omega, hlk.le⟩
        by_cases hj : (s.ticks.get (a.key, i)).isSome
        · left
          have hts := ht.side
          simp only [hx, if_true] at hts
          obtain ⟨hb, hlt, hz⟩ := round_still hts.2 e2.symm h0 h.step h.rem atLimit
          exact ⟨hrem hz, near_at hw hj rfl hb (by omega) (by omega)⟩
        · right
          refine good fun j hj' => ⟨fun h => ?_, fun h => le_trans h hci'.le⟩
          by_contra hcon
          rcases eq_or_lt_of_le h with e | h2
          · rw [e] at hj'; exact hj hj'
          · exact off i hgi j (by omega) h2 hj'
  | @cross t t' pool' enough hti hpr he hc hxx =>
    right
    subst hti
    obtain ⟨e1, e2⟩ := limiting_index hw.indexed h.htick
    obtain ⟨e3, hg, _, hdir⟩ := ht.tick _ _ e1
    have hcur : st'.pool.currentTickIndex =
      if a.xToY && enough then t.index - a.key.feeTier.tickSpacing else t.index := by rw [hres]
    refine mk 0 pp zero rfl (.cross t t' pool' e2 hxx (by rw [hres]; simp) (by rw [hres])
      (by rw [hp', ← hpr, e3]) hdir ?_ ?_)
    · rw [hcur]
      cases hx : a.xToY
      · simp only [hx, Bool.false_eq_true, if_false, Bool.false_and] at hdir ⊢
        omega
      · have hen : enough = true := by
          rcases hc with hc | hc
          · rw [hx] at hc; cases hc
          · exact hc
        simp only [hx, if_true, hen, Bool.and_self] at hdir ⊢
        omega
    · intro j hjne hj
      rw [hcur]
      cases hx : a.xToY
      · simp only [hx, Bool.false_eq_true, if_false, Bool.false_and] at hdir ⊢
        refine ⟨fun h => ?_, fun h => by omega⟩
        by_contra hcon
        exact gapU hx _ hg e3 j (by omega) (by omega) hj
      · have hen : enough = true := by
          rcases hc with hc | hc
          · rw [hx] at hc; cases hc
          · exact hc
        simp only [hx, if_true, hen, Bool.and_self] at hdir ⊢
        refine ⟨fun h => by omega, fun h => ?_⟩
        have hle : j ≤ t.index := by
          by_contra hcon
          exact gapD hx _ hg e3 j (by omega) h hj
        by_contra hcon
        exact off _ hg j (by omega) (by omega) hj
  | @dust t pool' hti hpr he hd _ _ hf =>
    right
    subst hti
    obtain ⟨e1, e2⟩ := limiting_index hw.indexed h.htick
    obtain ⟨e3, hg, _, hdir⟩ := ht.tick _ _ e1
    simp only [hd, if_true] at hdir
    have hcur : st'.pool.currentTickIndex = t.index := by rw [hres]
    exact mk remaining pool' hf rfl (.stay (by rw [hres]; simp) (by rw [hres])
      (by rw [hcur]; exact stay hd _ hg e3 hdir))
  | @drop t hti hpr he hd =>
    right
    subst hti
    obtain ⟨e1, e2⟩ := limiting_index hw.indexed h.htick
    obtain ⟨e3, hg, _, hdir⟩ := ht.tick _ _ e1
    simp only [hd, if_true] at hdir
    have hcur : st'.pool.currentTickIndex = t.index := by rw [hres]
    exact mk 0 pp zero rfl (.stay (by rw [hres]; simp) (by rw [hres])
      (by rw [hcur]; exact stay hd _ hg e3 hdir))
  | @done t hti hpr he hd =>
    right
    subst hti
    obtain ⟨e1, e2⟩ := limiting_index hw.indexed h.htick
    obtain ⟨e3, hg, _, hdir⟩ := ht.tick _ _ e1
    simp only [hd, if_true] at hdir
    have hcur : st'.pool.currentTickIndex = t.index := by rw [hres]
    exact mk 0 pp zero rfl (.stay (by rw [hres]; simp) (by rw [hres])
      (by rw [hcur]; exact stay hd _ hg e3 hdir))
  | @uninit i enough hti hpr =>
    right
    subst hti
    have e1 := limiting_uninit h.htick
    obtain ⟨e3, hg, hni, hdir⟩ := ht.tick _ _ e1
    have hcur : st'.pool.currentTickIndex =
      if a.xToY && enough then i - a.key.feeTier.tickSpacing else i := by rw [hres]
    refine mk 0 pp zero rfl (.stay (by rw [hres]) (by rw [hres]) ?_)
    intro j hj
    rw [hcur]
    have hji : j ≠ i := by rintro rfl; rw [hni] at hj; cases hj
    cases hx : a.xToY
    · simp only [hx, Bool.false_eq_true, if_false, Bool.false_and] at hdir ⊢
      refine ⟨fun h => ?_, fun h => by omega⟩
      by_contra hcon
      exact gapU hx _ hg e3 j (by omega) (by omega) hj
    · simp only [hx, if_true, Bool.true_and] at hdir ⊢
      rw [← stay hx _ hg e3 hdir j hj]
      cases enough
      · simp
      · simp only [if_true]
        refine ⟨fun h => by omega, fun h => ?_⟩
        by_contra hcon
        exact off _ hg j (by omega) (by omega) hj

end Verif
