import Verif.Proofs.Terminate

/-! # How many rounds a swap takes -/

namespace Verif
open Service Spec

variable {s : Inv} {a : SwapArgs} {st st' : SwapState} {start : Nat}

/-- how far the tick moved in the direction of the swap -/
def walk (a : SwapArgs) (from_ : Int) (st : SwapState) : Int :=
  if a.xToY then from_ - st.pool.currentTickIndex else st.pool.currentTickIndex - from_

theorem closer_uninit_eq {tm : Tickmap} {limit target : Nat} {xToY : Bool} {cur i : Int} {sp : Nat}
    {key : PoolKey} (h : getCloserLimit tm limit xToY cur sp key = .ok (target, some (i, false))) :
    i = getSearchLimit cur sp (!xToY) := by
  unfold getCloserLimit at h
  rw [bind_ok_iff] at h
  obtain ⟨c, _, h⟩ := h
  cases c with
  | some j =>
    simp only [bind_ok_iff, unwrap_ok_iff] at h
    obtain ⟨q, hq, h⟩ := h
    split at h <;> cases h
  | none =>
    simp only [bind_ok_iff, unwrap_ok_iff, failIf_ok_iff] at h
    obtain ⟨q, hq, _, hne, h⟩ := h
    split at h
    · cases h; rfl
    · cases h

/-- a round that is not the last crosses a tick or walks a whole search range -/
theorem iter_walk (hw : StoreWF s) (hs : Spacing a.key.feeTier.tickSpacing) (hi : SwapSide a start st)
    (h0 : st.remaining ≠ 0) (h : swapIter s a st = .ok st') (from_ : Int) :
    st.ticks.length ≤ st'.ticks.length ∧
    walk a from_ st ≤ walk a from_ st' + a.key.feeTier.tickSpacing ∧
    (st'.remaining ≠ 0 → a.byIn = true ∨ a.xToY = true → walk a from_ st ≤ walk a from_ st' ∧
      (st'.ticks.length = st.ticks.length + 1 ∨
        walk a from_ st + 256 * a.key.feeTier.tickSpacing ≤ walk a from_ st')) := by
  have hpr := iter_progress hw hs hi h0 h
  obtain ⟨target, info, r, remaining, pool, tick, u, h⟩ := swapIter_ok h
  have hl : if a.xToY then a.limit ≤ st.pool.sqrtPrice else st.pool.sqrtPrice ≤ a.limit := by
    have := hi.limit
    cases hx : a.xToY
    · simpa [hx] using this
    · simp only [hx, if_true] at this ⊢
      omega
  have ht := iter_target hw hs hi.agree hl h.limit
  have hn := iter_next (remaining := remaining) hi.agree.price ht h.step h.rem
  have hs1 := hs.1
  have hsp : (1 : Int) ≤ a.key.feeTier.tickSpacing := by exact_mod_cast hs1
  have hres := h.res
  have hlen : st.ticks.length ≤ st'.ticks.length := by
    rw [hres]
    dsimp only
    split
    · split <;> simp
    · exact le_rfl
  have hprog : st'.remaining ≠ 0 → a.byIn = true ∨ a.xToY = true → walk a from_ st ≤ walk a from_ st' := by
    intro hr hb
    have := hpr hr
    unfold walk
    cases hx : a.xToY
    · have hb : a.byIn = true := hb.resolve_right (by simp [hx])
      simp only [hx, hb, Bool.false_eq_true, if_false, Bool.true_eq_false, false_and, or_false] at this ⊢
      omega
    · simp only [hx, if_true] at this ⊢
      omega
  refine ⟨hlen, ?_, fun hr hb => ⟨hprog hr hb, ?_⟩⟩
  · -- the tick
    have key : ∀ i : Int, (if a.xToY then i ≤ st.pool.currentTickIndex else st.pool.currentTickIndex < i) →
        (if a.xToY then st'.pool.currentTickIndex ≤ i else st'.pool.currentTickIndex = i) →
        walk a from_ st ≤ walk a from_ st' + a.key.feeTier.tickSpacing := by
      intro i h1 h2
      unfold walk
      cases hx : a.xToY
      · simp only [hx, Bool.false_eq_true, if_false] at h1 h2 ⊢
        omega
      · simp only [hx, if_true] at h1 h2 ⊢
        omega
    have atick : ∀ t, tick = .initialized t →
        if a.xToY then t.index ≤ st.pool.currentTickIndex else st.pool.currentTickIndex < t.index := by
      intro t e
      subst e
      obtain ⟨e1, _⟩ := limiting_index hw.indexed h.htick
      exact (ht.tick _ _ e1).2.2.2
    cases h.upd with
    | @inside i hc hti =>
      have hcur : st'.pool.currentTickIndex = i := by rw [hres]
      obtain ⟨-, -, hlk⟩ := getTick_ok hs1 hti
      have hns := hn.side
      unfold walk
      cases hx : a.xToY
      · simp only [hx, Bool.false_eq_true, if_false] at hns ⊢
        have := hlk.ge hi.agree.grid (le_trans hi.agree.low hns.1)
        omega
      · simp only [hx, if_true] at hns ⊢
        by_contra hcon
        have h1 : st.pool.currentTickIndex + a.key.feeTier.tickSpacing < i := by omega
        have him := hlk.le
        have h3 := hi.agree.high (by omega)
        have h4 := priceOf_lt (by have := hi.agree.grid.min; omega) him h1
        have h5 := hlk.low (by have := hi.agree.grid.min; omega)
        omega
    | @cross t t' pool' enough hti _ _ _ hx =>
      have e4 : st'.pool.currentTickIndex =
          if a.xToY && enough then t.index - a.key.feeTier.tickSpacing else t.index := by rw [hres]
      refine key t.index (atick t hti) ?_
      cases hx : a.xToY <;> simp only [hx, Bool.false_and, Bool.true_and] at e4 ⊢
      · simpa using e4
      · cases enough
        · simp at e4 ⊢; omega
        · simp at e4 ⊢; omega
    | @dust t pool' hti _ _ _ _ _ hf =>
      have e4 : st'.pool.currentTickIndex = t.index := by rw [hres]
      exact key t.index (atick t hti) (by split <;> omega)
    | @drop t hti =>
      have e4 : st'.pool.currentTickIndex = t.index := by rw [hres]
      exact key t.index (atick t hti) (by split <;> omega)
    | @done t hti =>
      have e4 : st'.pool.currentTickIndex = t.index := by rw [hres]
      exact key t.index (atick t hti) (by split <;> omega)
    | @uninit i enough hti =>
      subst hti
      have e1 := limiting_uninit h.htick
      have e4 : st'.pool.currentTickIndex =
          if a.xToY && enough then i - a.key.feeTier.tickSpacing else i := by rw [hres]
      refine key i (ht.tick _ _ e1).2.2.2 ?_
      cases hx : a.xToY <;> simp only [hx, Bool.false_and, Bool.true_and] at e4 ⊢
      · simpa using e4
      · cases enough
        · simp at e4 ⊢; omega
        · simp at e4 ⊢; omega
  · have hrem : remaining ≠ 0 := by
      intro h1
      apply hr
      rw [hres]
      cases h.upd <;> simp [h1]
    cases h.upd with
    | @inside i hc hti =>
      exfalso
      have hne : r.nextSqrtPrice ≠ target := by
        intro e
        have hno : tick ≠ .noTick := by
          intro e2
          have e3 : info = none := by
            have := h.htick
            rw [e2] at this
            match info, this with
            | none, _ => rfl
            | some (j, false), this => simp [limitingTick] at this
            | some (j, true), this =>
              simp only [limitingTick, bind_ok_iff, pure_ok_iff] at this
              obtain ⟨_, _, e⟩ := this
              cases e
          exact h.notLimit ⟨by rw [e, ht.none e3], hrem⟩
        exact (hc.resolve_left hno) e.symm
      have hp0 : 0 < st.pool.sqrtPrice := lt_of_lt_of_le (by norm_num [MIN_SQRT_PRICE]) hi.agree.price.1
      have hsh := step_short hp0 h0 h.step hne
      have hre := h.rem
      cases hby : a.byIn
      · have hx : a.xToY = true := hb.resolve_left (by simp [hby])
        have hts := ht.side
        simp only [hx, if_true] at hts
        have := hsh.2.1 hby hts.2
        simp only [hby, Bool.false_eq_true, if_false] at hre
        omega
      · have := hsh.1 hby
        simp only [hby, if_true] at hre
        omega
    | @cross t t' pool' enough hti hpr he hc hx =>
      left
      rw [hres]
      simp
    | @dust t pool' hti hpr => exact absurd (by rw [hres]) hr
    | @drop t hti hpr => exact absurd (by rw [hres]) hr
    | @done t hti hpr => exact absurd (by rw [hres]) hr
    | @uninit i enough hti hpr =>
      right
      subst hti
      have e1 := limiting_uninit h.htick
      have e2 := closer_uninit_eq (by rw [← e1]; exact h.limit)
      have e4 : st'.pool.currentTickIndex =
          if a.xToY && enough then i - a.key.feeTier.tickSpacing else i := by rw [hres]
      have hnl := h.notTickLimit
      dsimp only at hnl
      obtain ⟨k, hk, _⟩ := grid_coord hs1 hi.agree.grid
      unfold walk
      cases hx : a.xToY
      · simp only [hx, Bool.false_and, Bool.false_eq_true, if_false, false_and, false_or, true_and,
          Bool.not_false] at hnl e4 e2 ⊢
        rw [hk, getSearchLimit_up hs1] at e2
        rw [getMaxTick_eq] at hnl
        rcases le_or_gt (k + 256) (gridHalf a.key.feeTier.tickSpacing) with hc | hc
        · rw [min_eq_left hc] at e2
          rw [e4, e2, hk]
          nlinarith
        · rw [min_eq_right hc.le] at e2
          exact absurd e2.ge hnl
      · simp only [hx, Bool.true_and, if_true, Bool.not_true, true_and, Bool.true_eq_false, false_and,
          or_false] at hnl e4 e2 ⊢
        rw [hk, getSearchLimit_down hs1] at e2
        rw [getMinTick_eq] at hnl
        have le : st'.pool.currentTickIndex ≤ i := by rw [e4]; split <;> omega
        rcases le_or_gt (-(gridHalf a.key.feeTier.tickSpacing : Int)) (k - 256) with hc | hc
        · rw [max_eq_left hc] at e2
          rw [hk]
          have : st'.pool.currentTickIndex ≤ (k - 256) * (a.key.feeTier.tickSpacing : Int) := by omega
          nlinarith
        · rw [max_eq_right hc.le] at e2
          exfalso
          apply hnl
          have e5 : i = -((gridHalf a.key.feeTier.tickSpacing : Int) * a.key.feeTier.tickSpacing) := by
            rw [e2]; ring
          split <;> omega

/-- rounds `n` made so far -/
def RoundsOk (a : SwapArgs) (from_ : Int) (n : Nat) (st : SwapState) : Prop :=
  256 * (a.key.feeTier.tickSpacing : Int) * n ≤
    256 * (a.key.feeTier.tickSpacing : Int) * (st.ticks.length + (if st.remaining = 0 then 1 else 0)) +
      walk a from_ st + (if st.remaining = 0 then (a.key.feeTier.tickSpacing : Int) else 0)

theorem rounds_step (hw : StoreWF s) (hs : Spacing a.key.feeTier.tickSpacing) (hi : SwapSide a start st)
    (h0 : st.remaining ≠ 0) (h : swapIter s a st = .ok st') (hb : a.byIn = true ∨ a.xToY = true) {from_ : Int} {n : Nat}
    (hn : RoundsOk a from_ n st) : RoundsOk a from_ (n + 1) st' := by
  obtain ⟨w1, w2, w3⟩ := iter_walk hw hs hi h0 h from_
  have hsp : (1 : Int) ≤ a.key.feeTier.tickSpacing := by exact_mod_cast hs.1
  unfold RoundsOk at hn ⊢
  rw [if_neg h0, if_neg h0] at hn
  generalize (a.key.feeTier.tickSpacing : Int) = sp at *
  generalize walk a from_ st = w at *
  generalize walk a from_ st' = w' at *
  have w1' : (st.ticks.length : Int) ≤ st'.ticks.length := by exact_mod_cast w1
  by_cases hr : st'.remaining = 0
  · rw [if_pos hr, if_pos hr]
    push_cast
    nlinarith
  · rw [if_neg hr, if_neg hr]
    obtain ⟨w4, w5⟩ := w3 hr hb
    push_cast
    rcases w5 with w5 | w5
    · rw [w5]
      push_cast
      nlinarith
    · nlinarith

/-- all rounds of a finished swap -/
theorem rounds_le {from_ : Int} {n : Nat} (hs : 1 ≤ a.key.feeTier.tickSpacing) (h0 : st.remaining = 0)
    (hn : RoundsOk a from_ n st) :
    n ≤ st.ticks.length + 2 +
      (st.pool.currentTickIndex - from_).natAbs / (256 * a.key.feeTier.tickSpacing) := by
  unfold RoundsOk at hn
  rw [if_pos h0, if_pos h0] at hn
  have hw : walk a from_ st ≤ (st.pool.currentTickIndex - from_).natAbs := by
    unfold walk; split <;> omega
  generalize (st.pool.currentTickIndex - from_).natAbs = d at *
  have h1 : 256 * a.key.feeTier.tickSpacing * n ≤
      256 * a.key.feeTier.tickSpacing * (st.ticks.length + 1) + d + a.key.feeTier.tickSpacing := by
    have : ((256 * a.key.feeTier.tickSpacing * n : Nat) : Int) ≤
      ((256 * a.key.feeTier.tickSpacing * (st.ticks.length + 1) + d + a.key.feeTier.tickSpacing : Nat) : Int) := by
      push_cast
      linarith
    exact_mod_cast this
  generalize a.key.feeTier.tickSpacing = sp at *
  have h2 : d < 256 * sp * (d / (256 * sp) + 1) := by
    have := Nat.lt_div_mul_add (a := d) (b := 256 * sp) (by omega)
    nlinarith
  by_contra hc
  have h3 : st.ticks.length + 3 + d / (256 * sp) ≤ n := by omega
  have h4 := Nat.mul_le_mul_left (256 * sp) h3
  nlinarith

end Verif
