import Verif.Proofs.TickInv

/-! # The price of a pool stays within the global bounds -/

namespace Verif
open Service Spec

variable {env : Env} {s s' : Inv}

/-- price within the global bounds -/
def PriceOK (p : Nat) : Prop := MIN_SQRT_PRICE ≤ p ∧ p ≤ MAX_SQRT_PRICE

theorem priceOK_of_tick {t : Int} {p : Nat} (h : calculateSqrtPrice t = .ok p) : PriceOK p :=
  ⟨calculateSqrtPrice_ge_min h, calculateSqrtPrice_le_max h⟩

theorem getTick_range {p sp : Nat} {i : Int} (h : getTickAtSqrtPrice p sp = .ok i) : PriceOK p := by
  simp only [getTickAtSqrtPrice, bind_ok_iff, failIf_ok_iff] at h
  obtain ⟨_, h, _⟩ := h
  push Not at h
  exact ⟨h.2, h.1⟩

/-- the target of an iteration with a limiting tick is that tick's price -/
theorem closer_price {tm : Tickmap} {limit target : Nat} {xToY b : Bool} {cur i : Int} {sp : Nat}
    {key : PoolKey} (h : getCloserLimit tm limit xToY cur sp key = .ok (target, some (i, b))) :
    calculateSqrtPrice i = .ok target := by
  unfold getCloserLimit at h
  rw [bind_ok_iff] at h
  obtain ⟨c, _, h⟩ := h
  cases c with
  | some j =>
    simp only [bind_ok_iff, unwrap_ok_iff] at h
    obtain ⟨q, hq, h⟩ := h
    split at h
    · cases h; exact hq
    · cases h
  | none =>
    simp only [bind_ok_iff, unwrap_ok_iff] at h
    obtain ⟨q, hq, _, _, h⟩ := h
    split at h
    · cases h; exact hq
    · cases h

/-- every iteration ends with a legal price -/
theorem iter_price {a : SwapArgs} {st st' : SwapState} (h : swapIter s a st = .ok st') :
    PriceOK st'.pool.sqrtPrice := by
  obtain ⟨target, info, r, remaining, pool, tick, u, h⟩ := swapIter_ok h
  have hl := h.limit
  have hk := h.htick
  have key : tick ≠ .noTick → target = r.nextSqrtPrice → PriceOK r.nextSqrtPrice := by
    rintro ht rfl
    match info with
    | some (i, b) => exact priceOK_of_tick (closer_price hl)
    | none => simp [limitingTick] at hk; exact absurd hk.symm ht
  rw [h.res]
  cases h.upd with
  | inside _ hi => exact getTick_range hi
  | cross ht hp _ _ hx =>
    have e := (cross_full hx).2.1
    dsimp only
    rw [e]
    exact key (by rw [ht]; simp) hp
  | dust ht hp _ _ _ _ hf =>
    have e := (addFee_full hf).2
    dsimp only
    rw [e]
    exact key (by rw [ht]; simp) hp
  | drop ht hp => exact key (by rw [ht]; simp) hp
  | done ht hp => exact key (by rw [ht]; simp) hp
  | uninit ht hp => exact key (by rw [ht]; simp) hp

theorem reach_price : ∀ s, Reach s → ∀ k p, s.pools.get k = some p → PriceOK p.sqrtPrice := by
  refine reach_ind ?_ ?_ ?_
  · intro a f k p h; simp [Inv.init] at h
  · intro s b aw h; exact h
  · intro env s s' hr hw he
    have ins : ∀ (k : PoolKey) (q : Pool), PriceOK q.sqrtPrice →
        ∀ k' p, (s.pools.insert k q).get k' = some p → PriceOK p.sqrtPrice := by
      intro k q hq k' p hp
      rw [Map.get_insert] at hp
      split at hp
      · cases hp; exact hq
      · exact hw k' p hp
    cases he with
    | other => exact hw
    | newPool _ _ _ hp =>
      refine ins _ _ ?_
      simp only [Pool.create, bind_ok_iff, unwrap_ok_iff, pure_ok_iff] at hp
      obtain ⟨_, _, _, _, _, h, rfl⟩ := hp
      exact priceOK_of_tick h
    | poolField hp hq =>
      refine ins _ _ ?_
      have := hw _ _ hp
      rw [hq]; exact this
    | create h =>
      obtain ⟨pool, lt, ut, m, b, tm1, tm2, h, _⟩ := createPosition_full (reach_wf s hr).indexed h
      rw [h.res]
      refine ins _ _ ?_
      have := hw _ _ h.hpool
      rw [h.mod.pool.eq]; exact this
    | remove h =>
      obtain ⟨p, lower, upper, pool, m, ps, b, tm1, tm2, h, _⟩ :=
        removePosition_full (reach_wf s hr).indexed h
      rw [h.res]
      refine ins _ _ ?_
      have := hw _ _ h.hpool
      rw [h.mod.pool.eq]; exact this
    | claim h =>
      obtain ⟨p, lower, upper, pool, m, ps, b, h, _⟩ := claimFee_full (reach_wf s hr).indexed h
      rw [h.res]
      refine ins _ _ ?_
      have := hw _ _ h.hpool
      rw [h.mod.pool.eq]; exact this
    | transfer h => exact hw
    | @swap key xToY byIn amount limit r h =>
      obtain ⟨ticks, b1, b2, h1, h2, h3, h4, e⟩ := swap_ok h
      obtain ⟨p, hp, _⟩ := calculateSwap_pool h1
      obtain ⟨st, hst, _, _, er⟩ := calculateSwap_ind (P := fun st => PriceOK st.pool.sqrtPrice) h1 hp
        (hw _ _ hp) (fun st st' hP _ hi => iter_price hi)
      rw [e]
      refine ins _ _ ?_
      rw [er]; exact hst

end Verif
