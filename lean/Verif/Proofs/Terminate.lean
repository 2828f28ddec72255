import Verif.Proofs.TickAgree

/-! # Progress of the swap loop -/

namespace Verif
open Service Spec

variable {s : Inv}

/-- the end of the search range is never the current tick -/
theorem closer_uninit_ne {tm : Tickmap} {limit target : Nat} {xToY : Bool} {cur i : Int} {sp : Nat}
    {key : PoolKey} (h : getCloserLimit tm limit xToY cur sp key = .ok (target, some (i, false))) :
    cur ≠ i := by
  unfold getCloserLimit at h
  rw [bind_ok_iff] at h
  obtain ⟨c, _, h⟩ := h
  cases c with
  | some j =>
    simp only [bind_ok_iff, unwrap_ok_iff] at h
    obtain ⟨q, hq, h⟩ := h
    split at h <;> cases h
  | none =>
    simp only [bind_ok_iff, unwrap_ok_iff, failIf_ok_iff] at h
    obtain ⟨q, hq, _, hne, h⟩ := h
    split at h
    · cases h; exact hne
    · cases h

/-- taking some token X raises the price -/
theorem lt_nextX_sub {p L x : Nat} (hp : 0 < p) (hx : x ≠ 0) (h : p * x < L * 10 ^ 19) :
    p < nextX false p L x := by
  unfold nextX
  rw [if_neg hx]
  simp only [Bool.false_eq_true, if_false]
  rw [lt_cdiv_iff (by omega)]
  have h1 := le_cdiv_mul (p * L) (d := 10 ^ 5) (by positivity)
  generalize cdiv (p * L) (10 ^ 5) = c at *
  have h5 : p * L * 10 ^ 19 ≤ c * 10 ^ 5 * 10 ^ 19 := Nat.mul_le_mul_right _ h1
  have hpx : 0 < p * x := Nat.mul_pos hp (Nat.pos_of_ne_zero hx)
  have h7 : p * (L * 10 ^ 19 - p * x) < p * (L * 10 ^ 19) :=
    Nat.mul_lt_mul_of_pos_left (by omega) hp
  calc _ < _ := h7
    _ = p * L * 10 ^ 19 := by ring
    _ ≤ _ := h5
    _ = c * 10 ^ 24 := by ring

/-- a step that stops short of its target leaves nothing, except possibly when a given amount of X is
taken out; then the price moved -/
theorem step_short {cur target L amount fee : Nat} {byIn : Bool} {r : SwapResult}
    (hp : 0 < cur) (ha : amount ≠ 0)
    (h : computeSwapStep cur target L amount byIn fee = .ok r) (hn : r.nextSqrtPrice ≠ target) :
    (byIn = true → r.amountIn + r.feeAmount = amount) ∧
    (byIn = false → target ≤ cur → r.amountOut = amount) ∧
    (byIn = false → cur < target → cur < r.nextSqrtPrice) := by
  have hL : L ≠ 0 := by
    intro h0
    rw [h0, computeSwapStep_zero] at h
    cases h
    exact hn rfl
  have F := computeSwapStep_ok hL h
  refine ⟨?_, ?_, ?_⟩
  · intro hb
    have hf := F.feeEq
    rw [if_pos ⟨hb, hn⟩] at hf
    omega
  · intro hb hle
    have ho := F.outEq
    have hd : decide (cur ≥ target) = true := by simpa using hle
    rw [hb, hd] at ho
    simp only [Bool.false_eq_true, if_false, outAmt, if_true] at ho
    rcases F.nextOut hb with ⟨_, h2⟩ | ⟨h1, h2⟩
    · exact absurd h2 hn
    · rw [hd] at h2
      simp only [getNextSqrtPriceFromOutput, if_true] at h2
      obtain ⟨h3, h4, h5⟩ := getNextSqrtPriceYDown_sub_ok h2
      have h6 : amount ≤ dyDown cur r.nextSqrtPrice L := by
        rw [dyDown_def, Nat.le_div_iff_mul_le (by positivity), absDiff_of_ge (by omega), h4]
        have := le_cdiv_mul (amount * 10 ^ 29) h5
        have e : cur - (cur - cdiv (amount * 10 ^ 29) L) = cdiv (amount * 10 ^ 29) L := by omega
        rw [e]
        exact this
      rw [ho]
      exact min_eq_right h6
  · intro hb hlt
    have hd : decide (cur ≥ target) = false := by simpa using hlt
    rcases F.nextOut hb with ⟨_, h2⟩ | ⟨h1, h2⟩
    · exact absurd h2 hn
    · rw [hd] at h2
      simp only [getNextSqrtPriceFromOutput, Bool.false_eq_true, if_false] at h2
      obtain ⟨h3, h4, h5⟩ := getNextSqrtPriceXUp_sub_ok h2
      rw [h3]
      exact lt_nextX_sub hp ha (h5.resolve_left ha)

/-- an iteration that does not end the loop moves the current tick, or (exact output of X) the price -/
theorem iter_progress (hw : StoreWF s) {a : SwapArgs} {start : Nat} {st st' : SwapState}
    (hs : Spacing a.key.feeTier.tickSpacing) (hi : SwapSide a start st) (h0 : st.remaining ≠ 0)
    (h : swapIter s a st = .ok st') (hr : st'.remaining ≠ 0) :
    if a.xToY then st'.pool.currentTickIndex < st.pool.currentTickIndex
    else st.pool.sqrtPrice ≤ st'.pool.sqrtPrice ∧
      (st.pool.currentTickIndex < st'.pool.currentTickIndex ∨
        (a.byIn = false ∧ st.pool.currentTickIndex ≤ st'.pool.currentTickIndex ∧
          st.pool.sqrtPrice < st'.pool.sqrtPrice)) := by
  obtain ⟨target, info, r, remaining, pool, tick, u, h⟩ := swapIter_ok h
  have hl : if a.xToY then a.limit ≤ st.pool.sqrtPrice else st.pool.sqrtPrice ≤ a.limit := by
    have := hi.limit
    cases hx : a.xToY
    · simpa [hx] using this
    · simp only [hx, if_true] at this ⊢
      omega
  have ht := iter_target hw hs hi.agree hl h.limit
  have hn := iter_next (remaining := remaining) hi.agree.price ht h.step h.rem
  have hs1 := hs.1
  have hp0 : 0 < st.pool.sqrtPrice := by
    have := hi.agree.price.1
    simp only [MIN_SQRT_PRICE] at this
    omega
  have hp' : st'.pool.sqrtPrice = r.nextSqrtPrice := by
    rw [h.res]
    cases h.upd with
    | inside => rfl
    | cross ht hp _ _ hx => have e := (cross_full hx).2.1; dsimp only; rw [e]
    | dust ht hp _ _ _ _ hf => have e := (addFee_full hf).2; dsimp only; rw [e]
    | drop => rfl
    | done => rfl
    | uninit => rfl
  have hrem : remaining ≠ 0 := by
    intro h1
    apply hr
    rw [h.res]
    cases h.upd <;> simp [h1]
  -- moving to or past the limiting tick `i`
  have move : ∀ i : Int, (if a.xToY then i < st.pool.currentTickIndex ∨
        (i ≤ st.pool.currentTickIndex ∧ st'.pool.currentTickIndex = i - a.key.feeTier.tickSpacing)
        else st.pool.currentTickIndex < i) →
      (st'.pool.currentTickIndex = i ∨
        (a.xToY = true ∧ st'.pool.currentTickIndex = i - a.key.feeTier.tickSpacing)) →
      if a.xToY then st'.pool.currentTickIndex < st.pool.currentTickIndex
      else st.pool.sqrtPrice ≤ st'.pool.sqrtPrice ∧
        (st.pool.currentTickIndex < st'.pool.currentTickIndex ∨
          (a.byIn = false ∧ st.pool.currentTickIndex ≤ st'.pool.currentTickIndex ∧
            st.pool.sqrtPrice < st'.pool.sqrtPrice)) := by
    intro i h1 h2
    have h3 := hn.side
    cases hx : a.xToY
    · simp only [hx, Bool.false_eq_true, if_false, false_and, or_false] at h1 h2 h3 ⊢
      rw [hp']
      exact ⟨h3.1, .inl (by omega)⟩
    · simp only [hx, if_true, true_and] at h1 h2 ⊢
      omega
  cases h.upd with
  | @inside i hc hti =>
    have hcur : st'.pool.currentTickIndex = i := by rw [h.res]
    have hne : r.nextSqrtPrice ≠ target := by
      intro e
      have hno : tick ≠ .noTick := by
        intro e2
        have e3 : info = none := by
          have := h.htick
          rw [e2] at this
          match info, this with
          | none, _ => rfl
          | some (j, false), this => simp [limitingTick] at this
          | some (j, true), this =>
            simp only [limitingTick, bind_ok_iff, pure_ok_iff] at this
            obtain ⟨_, _, e⟩ := this
            cases e
        exact h.notLimit ⟨by rw [e, ht.none e3], hrem⟩
      exact (hc.resolve_left hno) e.symm
    obtain ⟨c1, c2, c3⟩ := step_short hp0 h0 h.step hne
    have hre := h.rem
    have hsd := ht.side
    cases hb : a.byIn
    · simp only [hb, Bool.false_eq_true, if_false] at hre
      cases hx : a.xToY
      · simp only [hx, Bool.false_eq_true, if_false] at hsd ⊢
        have hlt : st.pool.sqrtPrice < target := by
          rcases Nat.lt_or_ge st.pool.sqrtPrice target with h1 | h1
          · exact h1
          · have := c2 hb h1; omega
        have h1 := c3 hb hlt
        obtain ⟨-, -, hlk⟩ := getTick_ok hs1 hti
        have := hlk.ge hi.agree.grid (le_trans hi.agree.low h1.le)
        rw [hp', hcur]
        exact ⟨h1.le, .inr ⟨trivial, this, h1⟩⟩
      · simp only [hx, if_true] at hsd
        have := c2 hb hsd.2
        omega
    · simp only [hb, if_true] at hre
      have := c1 hb
      omega
  | @cross t t' pool' enough hti hpr he hc hx =>
    subst hti
    obtain ⟨e1, e2⟩ := limiting_index hw.indexed h.htick
    obtain ⟨e3, hg, _, hi2⟩ := ht.tick _ _ e1
    have e4 : st'.pool.currentTickIndex =
        if a.xToY && enough then t.index - a.key.feeTier.tickSpacing else t.index := by rw [h.res]
    cases hd : a.xToY
    · simp only [hd, Bool.false_eq_true, if_false, Bool.false_and] at hi2 e4
      simpa only [hd] using move t.index (by simpa [hd] using hi2) (.inl e4)
    · have hen : enough = true := by simpa [hd] using hc
      simp only [hd, hen, if_true, Bool.and_self] at hi2 e4
      simpa only [hd] using move t.index (by simp only [hd, if_true]; exact .inr ⟨hi2, e4⟩)
        (.inr ⟨hd, e4⟩)
  | @dust t pool' hti hpr => exact absurd (by rw [h.res]) hr
  | @drop t hti hpr => exact absurd (by rw [h.res]) hr
  | @done t hti hpr => exact absurd (by rw [h.res]) hr
  | @uninit i enough hti hpr =>
    subst hti
    have e1 := limiting_uninit h.htick
    obtain ⟨e3, hg, _, hi2⟩ := ht.tick _ _ e1
    have hne := closer_uninit_ne (by rw [← e1]; exact h.limit)
    have e4 : st'.pool.currentTickIndex =
        if a.xToY && enough then i - a.key.feeTier.tickSpacing else i := by rw [h.res]
    cases hd : a.xToY
    · simp only [hd, Bool.false_eq_true, if_false, Bool.false_and] at hi2 e4
      simpa only [hd] using move i (by simpa [hd] using hi2) (.inl e4)
    · simp only [hd, if_true] at hi2
      have h2 : st'.pool.currentTickIndex = i ∨
          (a.xToY = true ∧ st'.pool.currentTickIndex = i - a.key.feeTier.tickSpacing) := by
        rw [e4, hd]
        cases enough
        · left; rfl
        · right; exact ⟨rfl, rfl⟩
      simpa only [hd] using move i (by simp only [hd, if_true]; left; omega) h2

/-- bound on the number of iterations left: the grid steps ahead, plus the price range ahead when a
given amount of X is taken out -/
def itersLeft (a : SwapArgs) (st : SwapState) : Nat :=
  if a.xToY then (st.pool.currentTickIndex - MIN_TICK).toNat
  else (MAX_TICK - st.pool.currentTickIndex).toNat +
    (if a.byIn then 0 else MAX_SQRT_PRICE - st.pool.sqrtPrice)

theorem iter_left (hw : StoreWF s) {a : SwapArgs} {start : Nat} {st st' : SwapState}
    (hs : Spacing a.key.feeTier.tickSpacing) (hi : SwapSide a start st) (h0 : st.remaining ≠ 0)
    (h : swapIter s a st = .ok st') (hr : st'.remaining ≠ 0) : itersLeft a st' < itersLeft a st := by
  have hp := iter_progress hw hs hi h0 h hr
  have hi' := iter_side hw hs hi h0 h
  have g1 := hi.agree.grid.min
  have g2 := hi.agree.grid.max
  have g3 := hi'.agree.grid.min
  have g4 := hi'.agree.grid.max
  have p1 := hi.agree.price.2
  have p2 := hi'.agree.price.2
  simp only [MIN_TICK, MAX_TICK] at g1 g2 g3 g4
  unfold itersLeft
  cases hx : a.xToY
  · simp only [hx, Bool.false_eq_true, if_false] at hp ⊢
    simp only [MAX_TICK]
    cases hb : a.byIn
    · simp only [hb, Bool.false_eq_true, if_false, true_and] at hp ⊢
      omega
    · simp only [hb, Bool.true_eq_false, if_true, false_and, or_false] at hp ⊢
      omega
  · simp only [hx, if_true] at hp ⊢
    simp only [MIN_TICK]
    omega

/-- the loop ends within `itersLeft + 2` rounds -/
theorem swapLoop_ends (hw : StoreWF s) {a : SwapArgs} {start : Nat}
    (hs : Spacing a.key.feeTier.tickSpacing) : ∀ n st, SwapSide a start st →
    (st.remaining ≠ 0 → itersLeft a st < n) → ∃ r, swapLoop s a (n + 2) st = some r := by
  intro n
  induction n with
  | zero =>
    intro st _ hn
    have h0 : st.remaining = 0 := by
      by_contra hc
      have := hn hc
      omega
    exact ⟨_, by unfold swapLoop; rw [if_pos h0]⟩
  | succ n ih =>
    intro st hi hn
    unfold swapLoop
    by_cases h0 : st.remaining = 0
    · rw [if_pos h0]; exact ⟨_, rfl⟩
    · rw [if_neg h0]
      cases h : swapIter s a st with
      | error e => exact ⟨_, rfl⟩
      | ok st' =>
        refine ih st' (iter_side hw hs hi h0 h) ?_
        intro hr
        have h1 := iter_left hw hs hi h0 h hr
        have h2 := hn h0
        omega

/-- more fuel does not change the result -/
theorem swapLoop_mono {a : SwapArgs} : ∀ n m st r, n ≤ m → swapLoop s a n st = some r →
    swapLoop s a m st = some r := by
  intro n
  induction n with
  | zero => intro m st r _ h; simp [swapLoop] at h
  | succ n ih =>
    intro m st r hm h
    obtain ⟨m, rfl⟩ : ∃ m', m = m' + 1 := ⟨m - 1, by omega⟩
    unfold swapLoop at h ⊢
    split at h
    · next h0 => rw [if_pos h0]; exact h
    · next h0 =>
      rw [if_neg h0]
      cases hi : swapIter s a st with
      | error e => rw [hi] at h; exact h
      | ok st' =>
        rw [hi] at h
        exact ih m st' r (by omega) h

end Verif
