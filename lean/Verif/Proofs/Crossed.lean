import Verif.Proofs.Events

/-! # The ticks that a swap reports as crossed -/

namespace Verif
open Service Spec

variable {env : Env} {s s' : Inv}

/-- what the crossed ticks say about the counter, and their order -/
structure CrossInv (s : Inv) (a : SwapArgs) (start : Nat) (L0 : Nat) (st : SwapState) : Prop where
  side : SwapSide a start st
  liq : (st.pool.liquidity : Int) =
    L0 + (if a.xToY then -1 else 1) * (st.ticks.map (fun t => tN s.ticks a.key t.index)).sum
  order : (st.ticks.map (·.index)).Pairwise (fun i j => if a.xToY then j < i else i < j)
  stored : ∀ t ∈ st.ticks, (s.ticks.get (a.key, t.index)).isSome
  passed : st.remaining = 0 ∨ ∀ t ∈ st.ticks,
    if a.xToY then st.pool.currentTickIndex < t.index else t.index ≤ st.pool.currentTickIndex
  between : ∀ t ∈ st.ticks, if a.xToY then st.pool.sqrtPrice ≤ priceOf t.index ∧ priceOf t.index ≤ start
    else start ≤ priceOf t.index ∧ priceOf t.index ≤ st.pool.sqrtPrice

theorem iter_crossed (hw : StoreWF s) {a : SwapArgs} {start L0 : Nat} {st st' : SwapState}
    (hs : Spacing a.key.feeTier.tickSpacing) (hi : CrossInv s a start L0 st) (h0 : st.remaining ≠ 0)
    (h : swapIter s a st = .ok st') : CrossInv s a start L0 st' := by
  have hside := iter_side hw hs hi.side h0 h
  have hpass : ∀ t ∈ st.ticks,
      if a.xToY then st.pool.currentTickIndex < t.index else t.index ≤ st.pool.currentTickIndex := by
    rcases hi.passed with h | h
    · exact absurd h h0
    · exact h
  have hmv := iter_moves hw hs hi.side h0 h
  have hagree := hi.side.agree
  obtain ⟨target, info, r, remaining, pool, tick, u, h⟩ := swapIter_ok h
  have hlim : if a.xToY then a.limit ≤ st.pool.sqrtPrice else st.pool.sqrtPrice ≤ a.limit := by
    have := hi.side.limit
    cases hx : a.xToY
    · simpa [hx] using this
    · simp only [hx, if_true] at this ⊢
      omega
  have ht := iter_target hw hs hagree hlim h.limit
  have hn := iter_next (remaining := remaining) hagree.price ht h.step h.rem
  have hpl : pool.liquidity = st.pool.liquidity := by rw [(addFee_full h.fee).2]
  have hpc : pool.currentTickIndex = st.pool.currentTickIndex := by rw [(addFee_full h.fee).2]
  -- the price moves in the direction of the swap
  have hprice : if a.xToY then st'.pool.sqrtPrice ≤ st.pool.sqrtPrice
      else st.pool.sqrtPrice ≤ st'.pool.sqrtPrice := by
    have hp' : st'.pool.sqrtPrice = r.nextSqrtPrice := by
      rw [h.res]
      cases h.upd with
      | inside => rfl
      | cross ht hp _ _ hx => have e := (cross_full hx).2.1; dsimp only; rw [e]
      | dust ht hp _ _ _ _ hf => have e := (addFee_full hf).2; dsimp only; rw [e]
      | drop => rfl
      | done => rfl
      | uninit => rfl
    have := hn.side
    cases hx : a.xToY
    · simp only [hx, Bool.false_eq_true, if_false] at this ⊢; omega
    · simp only [hx, if_true] at this ⊢; omega
  have old : ∀ t ∈ st.ticks, if a.xToY then st'.pool.sqrtPrice ≤ priceOf t.index ∧ priceOf t.index ≤ start
      else start ≤ priceOf t.index ∧ priceOf t.index ≤ st'.pool.sqrtPrice := by
    intro t htm
    have h1 := hi.between t htm
    cases hx : a.xToY
    · simp only [hx, Bool.false_eq_true, if_false] at h1 hprice ⊢; omega
    · simp only [hx, if_true] at h1 hprice ⊢; omega
  -- iterations that cross nothing
  have same : st'.ticks = st.ticks → st'.pool.liquidity = st.pool.liquidity →
      CrossInv s a start L0 st' := by
    intro e1 e2
    refine ⟨hside, by rw [e1, e2]; exact hi.liq, by rw [e1]; exact hi.order, by rw [e1]; exact hi.stored, ?_,
      by rw [e1]; exact old⟩
    rcases hmv with hm | ⟨_, _, _, _, _, hm⟩
    · exact .inl hm.1
    · right
      rw [e1]
      intro t htm
      have h1 := hpass t htm
      have h2 := hi.stored t htm
      cases hm.kind with
      | stay _ _ hsd =>
        have := hsd t.index h2
        cases hx : a.xToY
        · simp only [hx, Bool.false_eq_true, if_false] at h1 ⊢; exact this.2 h1
        · simp only [hx, if_true] at h1 ⊢; omega
      | cross c c' q _ _ e _ _ _ _ _ => rw [e1] at e; simp at e
  cases hu : h.upd with
  | inside => exact same (by rw [h.res]; dsimp only; split <;> simp) (by rw [h.res]; exact hpl)
  | dust hti _ _ _ _ _ hf =>
    refine same (by rw [h.res]; dsimp only; rw [hti]; simp) ?_
    rw [h.res]
    have e := (addFee_full hf).2
    dsimp only
    rw [e]
    exact hpl
  | drop hti => exact same (by rw [h.res]; dsimp only; rw [hti]; simp) (by rw [h.res]; exact hpl)
  | done hti => exact same (by rw [h.res]; dsimp only; rw [hti]; simp) (by rw [h.res]; exact hpl)
  | uninit hti => exact same (by rw [h.res]; dsimp only; rw [hti]) (by rw [h.res]; exact hpl)
  | @cross t t' pool' enough hti hp he hc hx =>
    rw [hti] at h
    obtain ⟨hinfo, hget⟩ := limiting_index hw.indexed h.htick
    obtain ⟨e3, hg, -, hdir⟩ := ht.tick _ _ hinfo
    obtain ⟨c1, c2, c3⟩ := cross_full hx
    have hidx : t'.index = t.index := by rw [c1]
    have e1 : st'.ticks = st.ticks ++ [t'] := by rw [h.res]; simp
    have e2 : st'.pool.liquidity = pool'.liquidity := by rw [h.res]
    have e4 : st'.pool.sqrtPrice = priceOf t.index := by
      rw [h.res]; dsimp only; rw [c2]; dsimp only; omega
    have hN : tN s.ticks a.key t.index = t.net := tN_some hget
    refine ⟨hside, ?_, ?_, ?_, ?_, ?_⟩
    · rw [e1, e2, List.map_append, List.sum_append]
      simp only [List.map_cons, List.map_nil, List.sum_cons, List.sum_nil, add_zero]
      rw [hidx, hN]
      have hl := hi.liq
      dsimp only at c3
      rw [hpc, hpl] at c3
      unfold Tick.net
      cases hxy : a.xToY
      · simp only [hxy, Bool.false_eq_true, if_false] at hl hdir ⊢
        have hd : decide (st.pool.currentTickIndex ≥ t.index) = false := by simp; omega
        rw [hd] at c3
        cases hsg : t.sign <;> simp [hsg] at c3 ⊢ <;> omega
      · simp only [hxy, if_true] at hl hdir ⊢
        have hd : decide (st.pool.currentTickIndex ≥ t.index) = true := by simp; omega
        rw [hd] at c3
        cases hsg : t.sign <;> simp [hsg] at c3 ⊢ <;> omega
    · rw [e1, List.map_append, List.pairwise_append]
      refine ⟨hi.order, by simp, ?_⟩
      intro i hi1 j hj
      simp only [List.map_cons, List.map_nil, List.mem_singleton] at hj
      subst hj
      obtain ⟨q, hq, rfl⟩ := List.mem_map.1 hi1
      have h1 := hpass q hq
      rw [hidx]
      cases hxy : a.xToY
      · simp only [hxy, Bool.false_eq_true, if_false] at h1 hdir ⊢; omega
      · simp only [hxy, if_true] at h1 hdir ⊢; omega
    · rw [e1]
      intro q hq
      rcases List.mem_append.1 hq with hq | hq
      · exact hi.stored q hq
      · simp only [List.mem_singleton] at hq
        rw [hq, hidx, hget]; rfl
    · rcases hmv with hm | ⟨_, _, _, _, _, hm⟩
      · exact .inl hm.1
      · right
        cases hm.kind with
        | stay e => rw [e1] at e; simp at e
        | cross c c' q _ hcx e _ _ hd hfl hsd =>
          rw [e1] at e
          have ec : t' = c' := by simpa using e
          have hci : c'.index = c.index := by rw [(cross_full hcx).1]
          rw [e1]
          intro q hq
          rcases List.mem_append.1 hq with hq | hq
          · have h1 := hpass q hq
            have h2 := hi.stored q hq
            have h3 : q.index ≠ c.index := by
              intro e
              rw [e] at h1
              cases hxy : a.xToY
              · simp only [hxy, Bool.false_eq_true, if_false] at h1 hd; omega
              · simp only [hxy, if_true] at h1 hd; omega
            have := hsd q.index h3 h2
            cases hxy : a.xToY
            · simp only [hxy, Bool.false_eq_true, if_false] at h1 ⊢; exact this.2 h1
            · simp only [hxy, if_true] at h1 ⊢; omega
          · simp only [List.mem_singleton] at hq
            rw [hq, ec, hci]
            cases hxy : a.xToY
            · simp only [hxy, Bool.false_eq_true, if_false] at hd ⊢; exact hfl.2 (by omega)
            · simp only [hxy, if_true] at hd ⊢
              by_contra hcc
              exact hfl.1 (by omega) hd
    · rw [e1]
      intro q hq
      rcases List.mem_append.1 hq with hq | hq
      · exact old q hq
      · simp only [List.mem_singleton] at hq
        rw [hq, hidx, ← e4]
        have := hside.side
        cases hxy : a.xToY
        · simp only [hxy, Bool.false_eq_true, if_false] at this ⊢; exact ⟨this, le_rfl⟩
        · simp only [hxy, if_true] at this ⊢; exact ⟨le_rfl, this⟩

theorem calculateSwap_crossed (hr : Reach s) {now : Nat} {key : PoolKey} {xToY byIn : Bool}
    {amount limit : Nat} {r : CalculateSwapResult} {pool : Pool}
    (h : calculateSwap s now key xToY amount byIn limit = .ok r) (hp : s.pools.get key = some pool) :
    (r.pool.liquidity : Int) = pool.liquidity +
      (if xToY then -1 else 1) * (r.ticks.map (fun t => tN s.ticks key t.index)).sum ∧
    (r.ticks.map (·.index)).Pairwise (fun i j => if xToY then j < i else i < j) ∧
    (∀ t ∈ r.ticks, (s.ticks.get (key, t.index)).isSome ∧
      if xToY then r.targetSqrtPrice ≤ priceOf t.index ∧ priceOf t.index ≤ pool.sqrtPrice
      else pool.sqrtPrice ≤ priceOf t.index ∧ priceOf t.index ≤ r.targetSqrtPrice) := by
  have hw := reach_wf s hr
  have ha := reach_agree s hr _ _ hp
  have hs : Spacing key.feeTier.tickSpacing := by
    have := ((reach_tiers hr).pools key (by rw [hp]; rfl)).1
    exact ⟨this.1, this.2.1⟩
  obtain ⟨p, st, h1, _, h3, h4, _⟩ := calculateSwap_ok h
  rw [hp] at h1
  cases h1
  obtain ⟨st, hst, h5, h6, e⟩ := calculateSwap_ind
    (P := CrossInv s ⟨key, xToY, byIn, limit, now⟩ pool.sqrtPrice pool.liquidity) h hp
    (by
      refine ⟨⟨ha, ?_, ?_⟩, by simp, by simp, by simp, .inr (by simp), by simp⟩
      · dsimp only; split <;> exact le_rfl
      · dsimp only
        cases xToY
        · simpa using (h4 rfl).1.le
        · simp only [if_true]; left; exact (h3 rfl).1.le)
    (fun st st' hP h0 hi => iter_crossed hw hs hP h0 hi)
  rw [e]
  exact ⟨hst.liq, hst.order, fun t ht => ⟨hst.stored t ht, hst.between t ht⟩⟩

end Verif
