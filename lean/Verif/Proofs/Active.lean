import Verif.Proofs.Ledger
import Verif.Proofs.TickAgree

/-! # The pool's liquidity counter during a swap -/

namespace Verif
open Service Spec

variable {env : Env} {s s' : Inv} {key : PoolKey}

/-! ### active liquidity at different ticks -/

theorem pos_ticks (hw : StoreWF s) (hl : LedgerInv s) {k : ActorId × Nat} {p : Position}
    (hp : s.positions.map.get k = some p) :
    (s.ticks.get (p.poolKey, p.lowerTickIndex)).isSome ∧
    (s.ticks.get (p.poolKey, p.upperTickIndex)).isSome := by
  have key : ∀ i, (p.lowerTickIndex = i ∨ p.upperTickIndex = i) →
      (s.ticks.get (p.poolKey, i)).isSome := by
    intro i hi
    by_contra hc
    rw [Option.not_isSome_iff_eq_none] at hc
    have hG := hl.gross p.poolKey i
    rw [tG_none hc, grossLiq_eq] at hG
    have h1 : gC p.poolKey i p ≤ posSum s.positions (gC p.poolKey i) :=
      Map.le_sum (f := fun _ q => gC p.poolKey i q) (fun _ _ _ => Nat.zero_le _) hp
    rw [← hG] at h1
    unfold gC at h1
    rw [if_pos ⟨rfl, hi⟩] at h1
    exact (hw.pos _ _ hp).1.liq (by omega)
  exact ⟨key _ (.inl rfl), key _ (.inr rfl)⟩

/-- no initialised tick in between -/
theorem active_same (hw : StoreWF s) (hl : LedgerInv s) {c u : Int} (hcu : c ≤ u)
    (h : ∀ i, c < i → i ≤ u → (s.ticks.get (key, i)).isSome → False) :
    activeLiq s key u = activeLiq s key c := by
  apply Map.sum_congr
  intro k p hp
  obtain ⟨h1, h2⟩ := pos_ticks hw hl hp
  by_cases hk : p.poolKey = key
  · rw [hk] at h1 h2
    have h3 := h p.lowerTickIndex
    have h4 := h p.upperTickIndex
    have : (p.poolKey = key ∧ p.lowerTickIndex ≤ u ∧ u < p.upperTickIndex) ↔
        (p.poolKey = key ∧ p.lowerTickIndex ≤ c ∧ c < p.upperTickIndex) := by
      constructor
      · rintro ⟨e, a, b⟩
        refine ⟨e, ?_, by omega⟩
        by_contra hc
        exact h3 (by omega) a h1
      · rintro ⟨e, a, b⟩
        refine ⟨e, by omega, ?_⟩
        by_contra hc
        exact h4 (by omega) (by omega) h2
    simp only [this]
  · simp only [hk, false_and]

/-- a single tick on the way -/
theorem active_cross (hw : StoreWF s) (hl : LedgerInv s) {c u : Int} (hcu : c < u)
    (h : ∀ i, c < i → i < u → (s.ticks.get (key, i)).isSome → False) :
    (activeLiq s key u : Int) = activeLiq s key c + tN s.ticks key u := by
  rw [hl.net, activeLiq_eq, activeLiq_eq, netOf_eq]
  have hc : ∀ t, ((posSum s.positions (aC key t) : Nat) : Int) =
      posSum s.positions (fun p => ((aC key t p : Nat) : Int)) :=
    fun t => Map.map_sum_hom (Nat.castAddMonoidHom Int) _ _
  rw [hc, hc]
  unfold posSum
  rw [← Map.sum_add]
  apply Map.sum_congr
  intro k p hp
  obtain ⟨h1, h2⟩ := pos_ticks hw hl hp
  have hlt := (hw.pos _ _ hp).1.lt
  by_cases hk : p.poolKey = key
  · rw [hk] at h1 h2
    have h3 := fun a b => h p.lowerTickIndex a b h1
    have h4 := fun a b => h p.upperTickIndex a b h2
    have h5 : p.lowerTickIndex ≤ c ∨ u ≤ p.lowerTickIndex := by
      by_contra hcon; push Not at hcon; exact h3 hcon.1 hcon.2
    have h6 : p.upperTickIndex ≤ c ∨ u ≤ p.upperTickIndex := by
      by_contra hcon; push Not at hcon; exact h4 hcon.1 hcon.2
    unfold aC nC
    simp only [hk, true_and, if_true]
    split_ifs <;> first | omega | simp_all <;> omega
  · unfold aC nC
    simp [hk]

/-! ### the loop -/

theorem stored_price (hw : StoreWF s) {i : Int} (hi : (s.ticks.get (key, i)).isSome)
    : ∃ t, s.ticks.get (key, i) = some t ∧ t.sqrtPrice = priceOf i := by
  obtain ⟨t, ht⟩ := Option.isSome_iff_exists.1 hi
  have hk := (hw.tick _ _ _ ht).1
  exact ⟨t, ht, calc_grid hk.grid hk.price⟩

theorem near_up (hw : StoreWF s) {i : Int} {p limit : Nat} {x b : Bool} (hi : (s.ticks.get (key, i)).isSome)
    (hx : x = false) (h1 : p = priceOf i) (h2 : limit = p) : Near s key x b limit p := by
  obtain ⟨t, ht, e⟩ := stored_price hw hi
  exact ⟨i, t, ht, by rw [hx, if_neg (by decide), e]; exact ⟨h1.symm, h2⟩⟩

theorem near_at (hw : StoreWF s) {i : Int} {p limit : Nat} {x b : Bool} (hi : (s.ticks.get (key, i)).isSome)
    (hx : x = true) (hb : b = true) (h1 : p = priceOf i) (h2 : limit < p) : Near s key x b limit p := by
  obtain ⟨t, ht, e⟩ := stored_price hw hi
  exact ⟨i, t, ht, by rw [hx, if_pos rfl, e]; exact ⟨hb, .inl ⟨h1.symm, h2⟩⟩⟩

theorem near_over (hw : StoreWF s) {i : Int} {p limit : Nat} {x b : Bool} (hi : (s.ticks.get (key, i)).isSome)
    (hx : x = true) (hb : b = true) (h1 : p < priceOf i) (h2 : priceOf i ≤ p + 65536) (h3 : priceOf i ≤ 10 ^ 24) :
    Near s key x b limit p := by
  obtain ⟨t, ht, e⟩ := stored_price hw hi
  exact ⟨i, t, ht, by rw [hx, if_pos rfl, e]; exact ⟨hb, .inr ⟨h1, h2, h3⟩⟩⟩

/-- selling for an exact output always moves the price -/
theorem out_moves {p L y n : Nat} (hy : y ≠ 0) (hL : L ≠ 0)
    (h : getNextSqrtPriceFromOutput p L y true = .ok n) : n < p := by
  unfold getNextSqrtPriceFromOutput at h
  rw [if_pos rfl] at h
  obtain ⟨h1, h2, h3⟩ := getNextSqrtPriceYDown_sub_ok h
  have : 0 < cdiv (y * 10 ^ 29) L := by
    rw [cdiv_def]
    apply Nat.div_pos _ h3
    have : 0 < y * 10 ^ 29 := by positivity
    omega
  omega

/-- a round of a sale that leaves the price is the last one of an exact input, and its target is further on -/
theorem round_still {cur target L amount fee remaining : Nat} {byIn : Bool} {r : SwapResult} (hle : target ≤ cur)
    (e : r.nextSqrtPrice = cur) (h0 : amount ≠ 0) (h : computeSwapStep cur target L amount byIn fee = .ok r)
    (hr : if byIn then r.amountIn + r.feeAmount ≤ amount ∧ remaining = amount - (r.amountIn + r.feeAmount)
      else r.amountOut ≤ amount ∧ remaining = amount - r.amountOut)
    (hl : r.nextSqrtPrice = target → remaining = 0) : byIn = true ∧ target < cur ∧ remaining = 0 := by
  by_cases het : r.nextSqrtPrice = target
  · exfalso
    have hz := hl het
    have : r.amountIn = 0 ∧ r.feeAmount = 0 ∧ r.amountOut = 0 := by
      by_cases hL : L = 0
      · rw [hL, computeSwapStep_zero] at h
        cases h
        exact ⟨rfl, rfl, rfl⟩
      · have F := computeSwapStep_ok hL h
        have hi : r.amountIn = 0 := by
          rw [F.inEq, e]
          unfold inAmt dxUp dyUp dxNum absDiff cdiv
          split <;> simp
          exact Nat.lt_or_ge _ _
        refine ⟨hi, ?_, ?_⟩
        · have := F.feeEq
          rw [if_neg (fun hc => hc.2 het), hi, Nat.zero_mul, cdiv_zero] at this
          exact this
        · have ho : outAmt (decide (cur ≥ target)) cur r.nextSqrtPrice L = 0 := by
            rw [e]
            unfold outAmt dxDown dyDown dxNum absDiff
            split <;> simp
          rw [F.outEq, ho]
          split <;> simp
    obtain ⟨e1, e2, e3⟩ := this
    rw [e1, e2, e3] at hr
    split at hr <;> omega
  · have hL : L ≠ 0 := by
      intro hL
      rw [hL, computeSwapStep_zero] at h
      cases h
      exact het rfl
    have F := computeSwapStep_ok hL h
    have hlt : target < cur := by omega
    cases hb : byIn
    · exfalso
      rcases F.nextOut hb with ⟨_, h5⟩ | ⟨_, h5⟩
      · exact het h5
      · rw [decide_eq_true (by omega : cur ≥ target)] at h5
        have := out_moves h0 hL h5
        omega
    · have hf := F.feeEq
      rw [if_pos ⟨hb, het⟩] at hf
      rw [hb, if_pos rfl] at hr
      exact ⟨rfl, hlt, by omega⟩

theorem tick_grid (hw : StoreWF s) {i : Int} (hi : (s.ticks.get (key, i)).isSome) :
    Grid key.feeTier.tickSpacing i := by
  obtain ⟨t, ht⟩ := Option.isSome_iff_exists.1 hi
  exact (hw.tick _ _ _ ht).1.grid

theorem limiting_none {info : Option (Int × Bool)} (h : limitingTick s key info = .ok .noTick) :
    info = none := by
  match info with
  | none => rfl
  | some (i, false) => simp [limitingTick] at h
  | some (i, true) =>
    simp only [limitingTick, bind_ok_iff, pure_ok_iff] at h
    obtain ⟨_, _, e⟩ := h
    cases e

structure LiqInv (s : Inv) (a : SwapArgs) (start : Nat) (st : SwapState) : Prop where
  side : SwapSide a start st
  liq : st.pool.liquidity = activeLiq s a.key st.pool.currentTickIndex ∨
    (st.remaining = 0 ∧ Near s a.key a.xToY a.byIn a.limit st.pool.sqrtPrice)

theorem iter_active (hw : StoreWF s) (hl : LedgerInv s) {a : SwapArgs} {start : Nat} {st st' : SwapState}
    (hs : Spacing a.key.feeTier.tickSpacing) (hi : LiqInv s a start st) (h0 : st.remaining ≠ 0)
    (h : swapIter s a st = .ok st') : LiqInv s a start st' := by
  refine ⟨iter_side hw hs hi.side h0 h, ?_⟩
  have hL : st.pool.liquidity = activeLiq s a.key st.pool.currentTickIndex := by
    rcases hi.liq with h | h
    · exact h
    · exact absurd h.1 h0
  have hagree := hi.side.agree
  obtain ⟨target, info, r, remaining, pool, tick, u, h⟩ := swapIter_ok h
  have hlim : if a.xToY then a.limit ≤ st.pool.sqrtPrice else st.pool.sqrtPrice ≤ a.limit := by
    have := hi.side.limit
    cases hx : a.xToY
    · simpa [hx] using this
    · simp only [hx, if_true] at this ⊢
      omega
  have ht := iter_target hw hs hagree hlim h.limit
  have hn := iter_next (remaining := remaining) hagree.price ht h.step h.rem
  have hs1 := hs.1
  have hpl : pool.liquidity = st.pool.liquidity := by rw [(addFee_full h.fee).2]
  have hpc : pool.currentTickIndex = st.pool.currentTickIndex := by rw [(addFee_full h.fee).2]
  -- initialised ticks in the way
  have gapD : a.xToY = true → ∀ i, Grid a.key.feeTier.tickSpacing i → target = priceOf i →
      ∀ j, i < j → j ≤ st.pool.currentTickIndex → (s.ticks.get (a.key, j)).isSome → False := by
    intro hx i hg e j h1 h2 hj
    have hgj := tick_grid hw hj
    have := ht.gap j hgj hj
    simp only [hx, if_true] at this
    have h3 := this h2
    have h4 := priceOf_lt hg.min hgj.max h1
    omega
  have gapU : a.xToY = false → ∀ i, Grid a.key.feeTier.tickSpacing i → target = priceOf i →
      ∀ j, st.pool.currentTickIndex < j → j < i → (s.ticks.get (a.key, j)).isSome → False := by
    intro hx i hg e j h1 h2 hj
    have hgj := tick_grid hw hj
    have := ht.gap j hgj hj
    simp only [hx, Bool.false_eq_true, if_false] at this
    have h3 := this h1
    have h4 := priceOf_lt hgj.min hg.max h2
    omega
  have off : ∀ i, Grid a.key.feeTier.tickSpacing i → ∀ j, i - a.key.feeTier.tickSpacing < j → j < i →
      (s.ticks.get (a.key, j)).isSome → False := by
    intro i hg j h1 h2 hj
    have := grid_next (tick_grid hw hj).1 hg.1 h2
    omega
  -- stopping at the tick below without crossing it
  have stay : a.xToY = true → ∀ i, Grid a.key.feeTier.tickSpacing i → target = priceOf i →
      i ≤ st.pool.currentTickIndex → activeLiq s a.key st.pool.currentTickIndex = activeLiq s a.key i :=
    fun hx i hg e hle => active_same hw hl hle (gapD hx i hg e)
  rw [h.res]
  cases h.upd with
  | @inside i hc hti =>
    dsimp only
    obtain ⟨-, -, hlk⟩ := getTick_ok hs1 hti
    rw [hpl, hL]
    -- the target is reached inside only at the caller's limit
    have limitIs : r.nextSqrtPrice = target → target = a.limit := by
      intro e
      have hno : tick = .noTick := by
        rcases hc with hc | hc
        · exact hc
        · exact absurd e.symm hc
      exact ht.none (limiting_none (by rw [← hno]; exact h.htick))
    have atLimit : r.nextSqrtPrice = target → remaining = 0 := by
      intro e
      have hno : tick = .noTick := by
        rcases hc with hc | hc
        · exact hc
        · exact absurd e.symm hc
      have e2 := ht.none (limiting_none (by rw [← hno]; exact h.htick))
      by_contra hr
      exact h.notLimit ⟨by omega, hr⟩
    cases hx : a.xToY
    · -- upwards
      have hsd := hn.side
      simp only [hx, Bool.false_eq_true, if_false] at hsd
      have hci := hlk.ge hagree.grid (le_trans hagree.low hsd.1)
      by_cases hex : ∃ j, st.pool.currentTickIndex < j ∧ j ≤ i ∧ (s.ticks.get (a.key, j)).isSome
      · right
        obtain ⟨j, h1, h2, hj⟩ := hex
        have hgj := tick_grid hw hj
        have h3 := ht.gap j hgj hj
        simp only [hx, Bool.false_eq_true, if_false] at h3
        have h3 := h3 h1
        have h4 := priceOf_le hgj.min hlk.le h2
        have h5 := hlk.low (le_trans hgj.min h2)
        have e : target = r.nextSqrtPrice := by omega
        exact ⟨atLimit e.symm, near_up hw hj rfl (by omega) (by rw [← limitIs e.symm]; exact e)⟩
      · left
        push Not at hex
        exact (active_same hw hl hci (fun j h1 h2 hj => hex j h1 h2 hj)).symm
    · -- downwards
      have hsd := hn.side
      simp only [hx, if_true] at hsd
      by_cases hci : i ≤ st.pool.currentTickIndex
      · by_cases hex : ∃ j, i < j ∧ j ≤ st.pool.currentTickIndex ∧ (s.ticks.get (a.key, j)).isSome
        · right
          obtain ⟨j, h1, h2, hj⟩ := hex
          have hgj := tick_grid hw hj
          have h3 := ht.gap j hgj hj
          simp only [hx, if_true] at h3
          have h3 := h3 h2
          have h4 := grid_next hlk.dvd hgj.1 h1
          have h5 := hlk.high (le_trans h4 hgj.max)
          have h6 := priceOf_le (by have := hlk.above; omega) hgj.max h4
          rcases hn.over hx with h7 | ⟨h7, hb7, h8, h9⟩
          · omega
          · exact ⟨h7, near_over hw hj rfl hb7 (by omega) (by omega) (by omega)⟩
        · left
          push Not at hex
          exact active_same hw hl hci (fun j h1 h2 hj => hex j h1 h2 hj)
      · have hci' : st.pool.currentTickIndex < i := by omega
        have h1 := grid_next hagree.grid.1 hlk.dvd hci'
        have h2 := hagree.high (le_trans h1 hlk.le)
        have hmin := hagree.grid.min
        have h3 := hlk.low (by omega)
        have h4 := priceOf_le (t := st.pool.currentTickIndex + a.key.feeTier.tickSpacing) (u := i)
          (by omega) hlk.le h1
        have e1 : r.nextSqrtPrice = priceOf i := by omega
        have e2 : st.pool.sqrtPrice = r.nextSqrtPrice := by omega
        have e3 : i = st.pool.currentTickIndex + a.key.feeTier.tickSpacing := by
          by_contra hne
          have := priceOf_lt (t := st.pool.currentTickIndex + a.key.feeTier.tickSpacing) (u := i)
            (by omega) hlk.le (by omega)
          omega
        have hgi : Grid a.key.feeTier.tickSpacing i := ⟨hlk.dvd, by simp only [MIN_TICK] at hmin; omega, hlk.le⟩
        by_cases hj : (s.ticks.get (a.key, i)).isSome
        · right
          have hts := ht.side
          simp only [hx, if_true] at hts
          obtain ⟨hb, hlt, hz⟩ := round_still hts.2 e2.symm h0 h.step h.rem atLimit
          exact ⟨hz, near_at hw hj rfl hb (by omega) (by omega)⟩
        · left
          refine (active_same hw hl hci'.le (fun j h1 h2 h3 => ?_)).symm
          rcases eq_or_lt_of_le h2 with e | h2
          · rw [e] at h3; exact hj h3
          · exact off i hgi j (by omega) h2 h3
  | @cross t t' pool' enough hti hpr he hc hxx =>
    subst hti
    obtain ⟨e1, e2⟩ := limiting_index hw.indexed h.htick
    obtain ⟨e3, hg, _, hdir⟩ := ht.tick _ _ e1
    obtain ⟨-, -, hx3⟩ := cross_full hxx
    dsimp only at hx3 ⊢
    left
    rw [hpc, hpl] at hx3
    have hnet := tN_some e2
    unfold Tick.net at hnet
    cases hx : a.xToY
    · simp only [hx, Bool.false_eq_true, if_false, Bool.false_and] at hdir ⊢
      have hcr := active_cross hw hl hdir (gapU hx _ hg e3)
      rw [decide_eq_false (by omega : ¬ st.pool.currentTickIndex ≥ t.index)] at hx3
      rw [← hL] at hcr
      cases hsg : t.sign <;> simp [hsg] at hx3 hnet <;> omega
    · have hen : enough = true := by
        rcases hc with hc | hc
        · rw [hx] at hc; cases hc
        · exact hc
      simp only [hx, if_true, hen, Bool.and_self] at hdir ⊢
      have hst := stay hx _ hg e3 hdir
      have hcr := active_cross (key := a.key) hw hl
        (c := t.index - a.key.feeTier.tickSpacing) (u := t.index) (by omega) (off _ hg)
      rw [decide_eq_true (by omega : st.pool.currentTickIndex ≥ t.index)] at hx3
      rw [← hst, ← hL] at hcr
      cases hsg : t.sign <;> simp [hsg] at hx3 hnet <;> omega
  | @dust t pool' hti hpr he hd _ _ hf =>
    subst hti
    obtain ⟨e1, e2⟩ := limiting_index hw.indexed h.htick
    obtain ⟨e3, hg, _, hdir⟩ := ht.tick _ _ e1
    simp only [hd, if_true] at hdir
    left
    have e := (addFee_full hf).2
    dsimp only
    rw [e]
    dsimp only
    rw [hpl, hL]
    exact stay hd _ hg e3 hdir
  | @drop t hti hpr he hd =>
    subst hti
    obtain ⟨e1, e2⟩ := limiting_index hw.indexed h.htick
    obtain ⟨e3, hg, _, hdir⟩ := ht.tick _ _ e1
    simp only [hd, if_true] at hdir
    left
    dsimp only
    rw [hpl, hL]
    exact stay hd _ hg e3 hdir
  | @done t hti hpr he hd =>
    subst hti
    obtain ⟨e1, e2⟩ := limiting_index hw.indexed h.htick
    obtain ⟨e3, hg, _, hdir⟩ := ht.tick _ _ e1
    simp only [hd, if_true] at hdir
    left
    dsimp only
    rw [hpl, hL]
    exact stay hd _ hg e3 hdir
  | @uninit i enough hti hpr =>
    subst hti
    have e1 := limiting_uninit h.htick
    obtain ⟨e3, hg, hni, hdir⟩ := ht.tick _ _ e1
    left
    dsimp only
    rw [hpl, hL]
    cases hx : a.xToY
    · simp only [hx, Bool.false_eq_true, if_false, Bool.false_and] at hdir ⊢
      refine (active_same hw hl hdir.le (fun j h1 h2 h3 => ?_)).symm
      rcases eq_or_lt_of_le h2 with e | h2
      · rw [e, hni] at h3; cases h3
      · exact gapU hx _ hg e3 j h1 h2 h3
    · simp only [hx, if_true, Bool.true_and] at hdir ⊢
      rw [stay hx _ hg e3 hdir]
      cases enough
      · simp
      · simp only [if_true]
        refine active_same hw hl (by omega) (fun j h1 h2 h3 => ?_)
        rcases eq_or_lt_of_le h2 with e | h2
        · rw [e, hni] at h3; cases h3
        · exact off _ hg j h1 h2 h3

/-- the counter after a whole swap computation -/
theorem calculateSwap_active (hw : StoreWF s) (hl : LedgerInv s) {now : Nat} {xToY byIn : Bool}
    {amount limit : Nat} {r : CalculateSwapResult} {pool : Pool}
    (hs : Spacing key.feeTier.tickSpacing)
    (h : calculateSwap s now key xToY amount byIn limit = .ok r) (hp : s.pools.get key = some pool)
    (ha : TickAgree key.feeTier.tickSpacing pool)
    (hL : pool.liquidity = activeLiq s key pool.currentTickIndex) :
    r.pool.liquidity = activeLiq s key r.pool.currentTickIndex ∨ Near s key xToY byIn limit r.targetSqrtPrice := by
  obtain ⟨p, st, h1, _, h3, h4, _⟩ := calculateSwap_ok h
  rw [hp] at h1
  cases h1
  obtain ⟨st, hst, h5, h6, e⟩ := calculateSwap_ind
    (P := LiqInv s ⟨key, xToY, byIn, limit, now⟩ pool.sqrtPrice) h hp
    (by
      refine ⟨⟨ha, ?_, ?_⟩, .inl hL⟩
      · dsimp only; split <;> exact le_rfl
      · dsimp only
        cases xToY
        · simpa using (h4 rfl).1.le
        · simp only [if_true]; left; exact (h3 rfl).1.le)
    (fun st st' hP h0 hi => iter_active hw hl hs hP h0 hi)
  rw [e]
  rcases hst.liq with h | h
  · exact .inl h
  · exact .inr h.2

/-! ### histories -/

theorem clear_reach32 : ∀ s, Clear s → Reach32 s := by
  intro s h
  induction h with
  | init a f => exact .init a f
  | call _ _ h hf ih => exact .call ih h hf
  | transfers _ hb ih => exact .transfers ih hb
  | @swap s env key xToY byIn amount limit r hc h hn ih =>
    refine .call (env := env) (c := .swap key xToY amount byIn limit) ih ?_ ?_
    · simp only [step, bind_ok_iff, pure_ok_iff]
      exact ⟨r, h, rfl⟩
    · intro a
      rw [swap_positions h]
      exact (reach32_reach s ih).2 a

/-- the pool counters are right -/
def LiqOK (s : Inv) : Prop := ∀ key pool, s.pools.get key = some pool →
  pool.liquidity = activeLiq s key pool.currentTickIndex

theorem liqOK_step (hr : Reach32 s) (hI : LiqOK s) (he : EffectIf False env s s') : LiqOK s' := by
  obtain ⟨L, hL⟩ := reach32_listed s hr
  obtain ⟨hre, hf⟩ := reach32_reach s hr
  have hw := reach_wf s hre
  have len : ∀ a, (L a).length < 2 ^ 32 := fun a => by
    rw [listed_len hL]; exact Nat.lt_of_succ_lt (hf a)
  cases he with
  | other => exact hI
  | @newPool k p keys i sp ht hc hnone hp =>
    intro key pool hg
    dsimp only at hg
    rw [Map.get_insert] at hg
    split at hg
    · next e =>
      cases hg; subst e
      rename' key => k
      simp only [Pool.create, bind_ok_iff, unwrap_ok_iff, pure_ok_iff] at hp
      obtain ⟨_, _, _, _, _, h, rfl⟩ := hp
      symm
      show activeLiq s k _ = 0
      unfold activeLiq
      rw [Map.sum_congr (g := fun _ _ => 0)]
      · simp
      · intro j q hq
        rw [if_neg]
        rintro ⟨e, _⟩
        have := (hw.pos _ _ hq).2
        rw [e, hnone] at this
        cases this
    · exact hI key pool hg
  | @poolField k p q b hp hq =>
    intro key pool hg
    dsimp only at hg
    rw [Map.get_insert] at hg
    split at hg
    · next e =>
      cases hg; subst e
      have := hI _ p hp
      rw [hq]; exact this
    · exact hI key pool hg
  | @create k lower upper delta _ _ r h =>
    obtain ⟨pool, lt, ut, m, b, tm1, tm2, h, _⟩ := createPosition_full hw.indexed h
    have hpu := h.mod.pool
    rw [h.lidx, h.uidx] at hpu
    have e : r.1.positions = s.positions.add env.caller m.position := by rw [h.res]
    have ep := h.mod.pos.eq
    have e1 : m.position.lowerTickIndex = lower := by rw [ep]
    have e2 : m.position.upperTickIndex = upper := by rw [ep]
    have e3 : m.position.poolKey = k := by rw [ep]
    have e4 : m.position.liquidity = delta := by have := (h.mod.pos.add rfl).1; simpa using this
    intro key p hg
    rw [activeLiq_eq, e, posSum_add hL, ← activeLiq_eq]
    have hpools : r.1.pools = s.pools.insert k m.pool := by rw [h.res]
    rw [hpools, Map.get_insert] at hg
    unfold aC
    rw [e1, e2, e3, e4]
    split at hg
    · next ek =>
      cases hg; subst ek
      have hc : m.pool.currentTickIndex = pool.currentTickIndex := by rw [h.mod.pool.eq]
      have hold := hI _ _ h.hpool
      rw [hc, ← hold]
      by_cases hin : lower ≤ pool.currentTickIndex ∧ pool.currentTickIndex < upper
      · rw [if_pos ⟨rfl, hin⟩, (hpu.add rfl hin.1 hin.2).1, Nat.add_comm]
      · rw [if_neg (fun x => hin x.2), hpu.out hin, Nat.zero_add]
    · next ek =>
      rw [if_neg (fun x => ek x.1.symm), Nat.zero_add]
      exact hI key p hg
  | @remove i r h =>
    obtain ⟨q, lower, upper, pool, m, ps, b, tm1, tm2, h, _⟩ := removePosition_full hw.indexed h
    have hpu := h.mod.pool
    rw [hw.indexed _ _ _ h.hlt, hw.indexed _ _ _ h.hut] at hpu
    have e : r.1.positions = ps := by rw [h.res]
    intro key p hg
    have hpools : r.1.pools = s.pools.insert q.poolKey m.pool := by rw [h.res]
    have hsum : activeLiq s key p.currentTickIndex = aC key p.currentTickIndex q +
        activeLiq r.1 key p.currentTickIndex := by
      rw [activeLiq_eq, activeLiq_eq, e, posSum_remove hL (len _) h.rem]
    rw [hpools, Map.get_insert] at hg
    unfold aC at hsum
    split at hg
    · next ek =>
      cases hg; subst ek
      have hc : m.pool.currentTickIndex = pool.currentTickIndex := by rw [h.mod.pool.eq]
      have hold := hI _ _ h.hpool
      rw [hc] at hsum ⊢
      rw [← hold] at hsum
      by_cases hin : q.lowerTickIndex ≤ pool.currentTickIndex ∧ pool.currentTickIndex < q.upperTickIndex
      · rw [if_pos ⟨rfl, hin⟩] at hsum
        have := hpu.sub rfl hin.1 hin.2
        dsimp only at this
        omega
      · rw [if_neg (fun x => hin x.2)] at hsum
        have := hpu.out hin
        dsimp only at this
        omega
    · next ek =>
      rw [if_neg (fun x => ek x.1.symm)] at hsum
      have := hI key p hg
      omega
  | @claim i r h =>
    obtain ⟨q, lower, upper, pool, m, ps, b, h, _⟩ := claimFee_full hw.indexed h
    have hpu := h.mod.pool
    rw [hw.indexed _ _ _ h.hlt, hw.indexed _ _ _ h.hut] at hpu
    have e : r.1.positions = ps := by rw [h.res]
    have ep := h.mod.pos.eq
    have e1 : m.position.lowerTickIndex = q.lowerTickIndex := by rw [ep]
    have e2 : m.position.upperTickIndex = q.upperTickIndex := by rw [ep]
    have e3 : m.position.poolKey = q.poolKey := by rw [ep]
    have e4 : m.position.liquidity = q.liquidity := (h.mod.pos.add rfl).1
    have hpools : r.1.pools = s.pools.insert q.poolKey m.pool := by rw [h.res]
    intro key p hg
    have hsum : activeLiq r.1 key p.currentTickIndex = activeLiq s key p.currentTickIndex := by
      rw [activeLiq_eq, activeLiq_eq, e, posSum_same h.get h.upd]
      unfold aC; rw [e1, e2, e3, e4]
    rw [hsum]
    rw [hpools, Map.get_insert] at hg
    split at hg
    · next ek =>
      cases hg; subst ek
      have hc : m.pool.currentTickIndex = pool.currentTickIndex := by rw [h.mod.pool.eq]
      have hold := hI _ _ h.hpool
      rw [hc, ← hold]
      by_cases hin : q.lowerTickIndex ≤ pool.currentTickIndex ∧ pool.currentTickIndex < q.upperTickIndex
      · exact (hpu.add rfl hin.1 hin.2).1
      · exact hpu.out hin
    · exact hI key p hg
  | @transfer i dest ps p h =>
    have hg := posGet_ok.1 (remove_get h)
    rw [(hL _).2] at hg
    obtain ⟨ps', e, hps⟩ := (posRepr_remove hL (len env.caller) _).1 _ hg
    rw [h] at e
    cases e
    intro key pool hp
    rw [activeLiq_eq]
    dsimp only at hp ⊢
    rw [posSum_add hps, ← posSum_remove hL (len _) h]
    exact hI key pool hp
  | swap h hsw => exact hsw.elim

theorem liqOK_swap (hr : Reach32 s) (hI : LiqOK s) {k : PoolKey} {xToY byIn : Bool} {amount limit : Nat}
    {r : Inv × CalculateSwapResult} (h : Service.swap env s k xToY amount byIn limit = .ok r)
    (hn : ¬ Near s k xToY byIn limit r.2.targetSqrtPrice) : LiqOK r.1 := by
  have hre := (reach32_reach s hr).1
  have hw := reach_wf s hre
  obtain ⟨ticks, b1, b2, h1, h2, h3, h4, e⟩ := swap_ok h
  obtain ⟨p, hp, _⟩ := calculateSwap_pool h1
  have hsp : Spacing k.feeTier.tickSpacing := by
    have := ((reach_tiers hre).pools k (by rw [hp]; rfl)).1
    exact ⟨this.1, this.2.1⟩
  have hact := calculateSwap_active hw (reach32_ledger s hr) hsp h1 hp (reach_agree s hre _ _ hp) (hI _ _ hp)
  have hpos := swap_positions h
  intro key pool hg
  rw [activeLiq_eq, hpos, ← activeLiq_eq]
  rw [e] at hg
  dsimp only at hg
  rw [Map.get_insert] at hg
  split at hg
  · next ek =>
    cases hg; subst ek
    rcases hact with h | h
    · exact h
    · exact absurd h hn
  · exact hI key pool hg

theorem clear_liqOK : ∀ s, Clear s → LiqOK s := by
  intro s h
  induction h with
  | init a f => intro key pool h; simp [Inv.init] at h
  | transfers _ _ ih => exact ih
  | @call s s' env c hcl hc h hf ih =>
    refine liqOK_step (env := env) (clear_reach32 s hcl) ih ?_
    have := step_effectIf hc.2 h
    rwa [eq_false (p := ∃ k d a b l, c = .swap k d a b l)] at this
    rintro ⟨k, d, a, b, l, e⟩
    exact hc.1 k d a b l e
  | @swap s env key xToY byIn amount limit r hcl h hn ih =>
    exact liqOK_swap (clear_reach32 s hcl) ih h hn

end Verif
