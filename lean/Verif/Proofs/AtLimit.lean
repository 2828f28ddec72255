import Verif.Proofs.Active

/-! # Purchases of X that stop at their limit exactly at an initialised tick -/

namespace Verif
open Service Spec

variable {env : Env} {s s' : Inv} {key : PoolKey}

/-- going up, a tick is a target only if its price is below the limit -/
theorem closer_strict {tm : Tickmap} {limit target : Nat} {cur i : Int} {sp : Nat} {b : Bool}
    (h : getCloserLimit tm limit false cur sp key = .ok (target, some (i, b))) : target < limit := by
  unfold getCloserLimit at h
  rw [bind_ok_iff] at h
  obtain ⟨c, _, h⟩ := h
  cases c with
  | some j =>
    simp only [bind_ok_iff, unwrap_ok_iff] at h
    obtain ⟨q, hq, h⟩ := h
    split at h
    · next hc =>
      cases h
      rcases hc with hc | hc
      · cases hc.1
      · exact hc.2
    · cases h
  | none =>
    simp only [bind_ok_iff, unwrap_ok_iff] at h
    obtain ⟨q, hq, _, _, h⟩ := h
    split at h
    · next hc =>
      cases h
      rcases hc with hc | hc
      · cases hc.1
      · exact hc.2
    · cases h

/-- the loop: right below the limit, and wrong once the limit is reached -/
structure LimInv (s : Inv) (a : SwapArgs) (start : Nat) (i : Int) (st : SwapState) : Prop where
  side : SwapSide a start st
  liq : (st.pool.liquidity = activeLiq s a.key st.pool.currentTickIndex ∧ st.pool.sqrtPrice < a.limit) ∨
    (st.remaining = 0 ∧ st.pool.currentTickIndex = i ∧ st.pool.liquidity = activeLiq s a.key (i - 1))

theorem iter_limit (hw : StoreWF s) (hl : LedgerInv s) {a : SwapArgs} {start : Nat} {st st' : SwapState} {i : Int}
    (hs : Spacing a.key.feeTier.tickSpacing) (hx : a.xToY = false)
    (hi : (s.ticks.get (a.key, i)).isSome) (hlim : a.limit = priceOf i)
    (hI : LimInv s a start i st) (h0 : st.remaining ≠ 0)
    (h : swapIter s a st = .ok st') : LimInv s a start i st' := by
  have hside := iter_side hw hs hI.side h0 h
  have hL : st.pool.liquidity = activeLiq s a.key st.pool.currentTickIndex ∧ st.pool.sqrtPrice < a.limit := by
    rcases hI.liq with h | h
    · exact h
    · exact absurd h.1 h0
  obtain ⟨hL, hlt⟩ := hL
  have hact := iter_active hw hl hs ⟨hI.side, .inl hL⟩ h0 h
  refine ⟨hside, ?_⟩
  have hle : st'.pool.sqrtPrice ≤ a.limit := by
    have := hside.limit
    simpa [hx] using this
  rcases Nat.lt_or_ge st'.pool.sqrtPrice a.limit with hlt' | hge
  · left
    refine ⟨?_, hlt'⟩
    rcases hact.liq with h | ⟨_, j, t, _, hn⟩
    · exact h
    · rw [hx, if_neg (by decide)] at hn
      omega
  right
  have hagree := hI.side.agree
  have hgi := tick_grid hw hi
  obtain ⟨target, info, r, remaining, pool, tick, u, h⟩ := swapIter_ok h
  have ht := iter_target hw hs hagree (by rw [hx]; simpa using hlt.le) h.limit
  have hn := iter_next (remaining := remaining) hagree.price ht h.step h.rem
  have hpl : pool.liquidity = st.pool.liquidity := by rw [(addFee_full h.fee).2]
  have hpr : u.pool.sqrtPrice = r.nextSqrtPrice := by
    cases h.upd with
    | inside => rfl
    | cross _ _ _ _ hx => dsimp only; rw [(cross_full hx).2.1]
    | dust _ _ _ _ _ _ hf => dsimp only; rw [(addFee_full hf).2]
    | drop => rfl
    | done => rfl
    | uninit => rfl
  have hre : st'.pool = u.pool := by rw [h.res]
  have hsd := hn.side
  have hts := ht.side
  simp only [hx, Bool.false_eq_true, if_false] at hsd hts
  have en : r.nextSqrtPrice = a.limit := by rw [← hpr, ← hre]; omega
  have et : target = a.limit := by omega
  have hnone : info = none := by
    match info, h.limit with
    | none, _ => rfl
    | some (j, b), hc =>
      rw [hx] at hc
      have := closer_strict hc
      omega
  have hno : tick = .noTick := by
    have := h.htick
    rw [hnone] at this
    simpa [limitingTick] using this.symm
  have hrem : remaining = 0 := by
    by_contra hr
    exact h.notLimit ⟨en, hr⟩
  have hcur : st.pool.currentTickIndex < i := by
    by_contra hc
    have := priceOf_le hgi.min hagree.grid.max (by omega : i ≤ st.pool.currentTickIndex)
    have := hagree.low
    omega
  rw [h.res]
  have hupd := h.upd
  rw [hno] at hupd
  cases hupd with
  | @inside j hc hti =>
    dsimp only
    obtain ⟨-, -, hlk⟩ := getTick_ok hs.1 hti
    have e : j = i := by
      have h1 := hlk.ge hgi (by omega)
      by_contra hne
      have h2 := priceOf_lt hgi.min hlk.le (by omega : i < j)
      have h3 := hlk.low (by have := hgi.min; omega)
      omega
    refine ⟨hrem, e, ?_⟩
    rw [hpl, hL]
    refine (active_same hw hl (by omega) (fun j h1 h2 hj => ?_)).symm
    have hgj := tick_grid hw hj
    have h3 := ht.gap j hgj hj
    simp only [hx, Bool.false_eq_true, if_false] at h3
    have h3 := h3 h1
    have h4 := priceOf_lt hgj.min hgi.max (by omega : j < i)
    omega
  | _ => simp_all

/-- the counter after a purchase of X that stops at its limit exactly at the initialised tick `i` -/
theorem calculateSwap_limit (hw : StoreWF s) (hl : LedgerInv s) {now : Nat} {byIn : Bool}
    {amount limit : Nat} {r : CalculateSwapResult} {pool : Pool} {i : Int}
    (hs : Spacing key.feeTier.tickSpacing)
    (h : calculateSwap s now key false amount byIn limit = .ok r) (hp : s.pools.get key = some pool)
    (ha : TickAgree key.feeTier.tickSpacing pool)
    (hL : pool.liquidity = activeLiq s key pool.currentTickIndex)
    (hi : (s.ticks.get (key, i)).isSome) (hlim : limit = priceOf i) (hend : r.targetSqrtPrice = limit) :
    r.pool.currentTickIndex = i ∧ r.pool.liquidity = activeLiq s key (i - 1) := by
  obtain ⟨p, st, h1, _, h3, h4, _⟩ := calculateSwap_ok h
  rw [hp] at h1
  cases h1
  obtain ⟨st, hst, h5, h6, e⟩ := calculateSwap_ind
    (P := LimInv s ⟨key, false, byIn, limit, now⟩ pool.sqrtPrice i) h hp
    (by
      refine ⟨⟨ha, ?_, ?_⟩, .inl ⟨hL, (h4 rfl).1⟩⟩
      · simp
      · simpa using (h4 rfl).1.le)
    (fun st st' hP h0 hs' => iter_limit hw hl hs rfl hi hlim hP h0 hs')
  rw [e] at hend ⊢
  dsimp only at hend ⊢
  rcases hst.liq with ⟨_, h⟩ | ⟨_, h⟩
  · dsimp only at h; omega
  · exact h

end Verif
