import Verif.Proofs.SwapMove

/-! # A swap as a fee history -/

namespace Verif
open Service Spec

variable {s : Inv} {key : PoolKey}

/-- the ticks after writing back the crossed ones -/
def crossed (key : PoolKey) (m : Map (PoolKey × Int) Tick) (l : List Tick) : Map (PoolKey × Int) Tick :=
  l.foldl (fun m t => m.insert (key, t.index) t) m

theorem crossed_append (m : Map (PoolKey × Int) Tick) (l : List Tick) (t : Tick) :
    crossed key m (l ++ [t]) = (crossed key m l).insert (key, t.index) t := by
  unfold crossed
  rw [List.foldl_append]
  rfl

theorem updateTicks_eq : ∀ (l : List Tick) (m m' : Map (PoolKey × Int) Tick),
    updateTicks key l m = .ok m' → m' = crossed key m l := by
  intro l
  induction l with
  | nil => intro m m' h; simp only [updateTicks, Except.ok.injEq] at h; exact h.symm
  | cons t l ih =>
    intro m m' h
    simp only [updateTicks, bind_ok_iff, ticksUpdate_ok] at h
    obtain ⟨_, ⟨_, rfl⟩, h⟩ := h
    rw [ih _ _ h]
    rfl

theorem crossed_get {i : Int} : ∀ (l : List Tick) (m : Map (PoolKey × Int) Tick),
    (∀ t ∈ l, t.index ≠ i) → (crossed key m l).get (key, i) = m.get (key, i) := by
  intro l
  induction l with
  | nil => intro m _; rfl
  | cons t l ih =>
    intro m h
    show (crossed key (m.insert (key, t.index) t) l).get (key, i) = _
    rw [ih _ (fun u hu => h u (List.mem_cons_of_mem _ hu)), Map.get_insert_ne]
    intro e
    exact h t List.mem_cons_self (Prod.mk.inj e).2.symm

theorem crossed_isSome {i : Int} : ∀ (l : List Tick) (m : Map (PoolKey × Int) Tick),
    (∀ t ∈ l, (m.get (key, t.index)).isSome) →
    (((crossed key m l).get (key, i)).isSome ↔ (m.get (key, i)).isSome) := by
  intro l
  induction l with
  | nil => intro m _; rfl
  | cons t l ih =>
    intro m h
    show ((crossed key (m.insert (key, t.index) t) l).get (key, i)).isSome ↔ _
    rw [ih]
    · rw [Map.get_insert]
      split
      · next e =>
        have := h t List.mem_cons_self
        rw [← (Prod.mk.inj e).2] at this
        simp [this]
      · rfl
    · intro u hu
      rw [Map.get_insert]
      split
      · rfl
      · exact h u (List.mem_cons_of_mem _ hu)

/-- the pool and its ticks in the middle of the loop -/
def vworld (s : Inv) (a : SwapArgs) (st : SwapState) : FeeWorld :=
  ⟨st.pool, fun i => (crossed a.key s.ticks st.ticks).get (a.key, i)⟩

/-- the crossed ticks are stored ones, and behind the price -/
def Behind (s : Inv) (a : SwapArgs) (st : SwapState) : Prop :=
  ∀ t ∈ st.ticks, (s.ticks.get (a.key, t.index)).isSome ∧
    if a.xToY then st.pool.currentTickIndex < t.index else t.index ≤ st.pool.currentTickIndex

theorem vworld_isSome {a : SwapArgs} {st : SwapState} (h : Behind s a st) (i : Int) :
    ((vworld s a st).ticks i).isSome ↔ (s.ticks.get (a.key, i)).isSome :=
  crossed_isSome _ _ fun t ht => (h t ht).1

variable {a : SwapArgs} {st st' : SwapState} {target dust : Nat} {r : SwapResult} {p1 p2 : Pool}

theorem iter_behind (hb : Behind s a st) (h : IterMove s a st st' target r dust p1 p2) :
    Behind s a st' := by
  cases h.kind with
  | stay ticks pool side =>
    intro t ht
    rw [ticks] at ht
    obtain ⟨h1, h2⟩ := hb t ht
    refine ⟨h1, ?_⟩
    have := side _ h1
    cases hxy : a.xToY
    · simp only [hxy, Bool.false_eq_true, if_false] at h2 ⊢
      exact this.2 h2
    · simp only [hxy, if_true] at h2 ⊢
      by_contra hc
      have := this.1 (by omega)
      omega
  | cross t t' q stored hx ticks pool hit dir flips side =>
    have e := (cross_ok hx).1
    intro u hu
    rw [ticks, List.mem_append, List.mem_singleton] at hu
    rcases hu with hu | rfl
    · obtain ⟨h1, h2⟩ := hb u hu
      refine ⟨h1, ?_⟩
      have hne : u.index ≠ t.index := by
        intro e
        rw [e] at h2
        cases hxy : a.xToY <;> simp only [hxy, Bool.false_eq_true, if_false, if_true] at h2 dir <;> omega
      have := side _ hne h1
      cases hxy : a.xToY
      · simp only [hxy, Bool.false_eq_true, if_false] at h2 ⊢
        exact this.2 h2
      · simp only [hxy, if_true] at h2 ⊢
        by_contra hc
        have := this.1 (by omega)
        omega
    · rw [e]
      refine ⟨by rw [stored]; rfl, ?_⟩
      cases hxy : a.xToY
      · simp only [hxy, Bool.false_eq_true, if_false] at dir ⊢
        exact flips.2 (by omega)
      · simp only [hxy, if_true] at dir ⊢
        by_contra hc
        exact flips.1 (by omega) dir

/-- growth of the input token's accumulator in an iteration -/
def iterGrowth (s : Inv) (st : SwapState) (r : SwapResult) (dust : Nat) : Nat :=
  growth r.feeAmount s.protocolFee st.pool.liquidity + growth dust s.protocolFee st.pool.liquidity

theorem iter_hist (hb : Behind s a st) (h : IterMove s a st st' target r dust p1 p2) (lo hi : Int) :
    FeeHist lo hi (vworld s a st) (vworld s a st')
      (if a.xToY = true ∧ (vworld s a st).inRange lo hi then iterGrowth s st r dust else 0)
      (if a.xToY = false ∧ (vworld s a st).inRange lo hi then iterGrowth s st r dust else 0) := by
  have f1 := (addFee_full h.fee).2
  have f2 := (addFee_full h.rest).2
  have c1 : p1.currentTickIndex = st.pool.currentTickIndex := by rw [f1]
  have l1 : p1.liquidity = st.pool.liquidity := by rw [f1]
  have c2 : p2.currentTickIndex = st.pool.currentTickIndex := by rw [f2]; exact c1
  -- fee, price, dust
  have H1 := FeeHist.fee (lo := lo) (hi := hi) (w := vworld s a st) .refl h.fee
  have H2 := FeeHist.move (cur' := p1.currentTickIndex) (price' := r.nextSqrtPrice) (liq' := p1.liquidity)
    (time' := p1.lastTimestamp) (px' := p1.feeProtocolTokenX) (py' := p1.feeProtocolTokenY) H1
    (fun _ _ => Iff.rfl)
  have H3 := FeeHist.fee H2 h.rest
  have eg : ∀ b : Bool, 0 + (if a.xToY = b ∧ (vworld s a st).inRange lo hi then
        growth r.feeAmount s.protocolFee (vworld s a st).pool.liquidity else 0) +
      (if a.xToY = b ∧ FeeWorld.inRange { vworld s a st with pool := { p1 with sqrtPrice := r.nextSqrtPrice } } lo hi
        then growth dust s.protocolFee p1.liquidity else 0) =
      if a.xToY = b ∧ (vworld s a st).inRange lo hi then iterGrowth s st r dust else 0 := by
    intro b
    have e : FeeWorld.inRange { vworld s a st with pool := { p1 with sqrtPrice := r.nextSqrtPrice } } lo hi ↔
        (vworld s a st).inRange lo hi := by
      unfold FeeWorld.inRange
      show lo ≤ p1.currentTickIndex ∧ p1.currentTickIndex < hi ↔ lo ≤ st.pool.currentTickIndex ∧
        st.pool.currentTickIndex < hi
      rw [c1]
    simp only [e]
    unfold iterGrowth
    rw [l1]
    by_cases hc : a.xToY = b ∧ (vworld s a st).inRange lo hi
    · simp only [if_pos hc]
      exact congrArg (· + _) (Nat.zero_add _)
    · simp only [if_neg hc]
  have e1 := eg true
  have e2 := eg false
  rw [← e1, ← e2]
  cases h.kind with
  | stay ticks pool side =>
    have H4 := FeeHist.move (cur' := st'.pool.currentTickIndex) (price' := p2.sqrtPrice)
      (liq' := p2.liquidity) (time' := p2.lastTimestamp) (px' := p2.feeProtocolTokenX)
      (py' := p2.feeProtocolTokenY) H3 (by
        intro j hj
        show j ≤ _ ↔ j ≤ p2.currentTickIndex
        rw [c2]
        exact side j ((vworld_isSome hb j).1 hj))
    have e : vworld s a st' = { vworld s a st with
        pool := { p2 with currentTickIndex := st'.pool.currentTickIndex } } := by
      unfold vworld
      rw [ticks, pool]
    rw [e]
    exact H4
  | cross t t' q stored hx ticks pool hit dir flips side =>
    have hv : (vworld s a st).ticks t.index = some t := by
      show (crossed a.key s.ticks st.ticks).get (a.key, t.index) = some t
      rw [crossed_get, stored]
      intro u hu e
      obtain ⟨_, h2⟩ := hb u hu
      rw [e] at h2
      cases hxy : a.xToY <;> simp only [hxy, Bool.false_eq_true, if_false, if_true] at h2 dir <;> omega
    have H4 := FeeHist.cross (k := t.index) (t := t) (cur' := st'.pool.currentTickIndex) H3 hv hx
      (by show _ ↔ ¬ t.index ≤ p2.currentTickIndex; rw [c2]; exact flips)
      (by
        intro j hne hj
        show j ≤ _ ↔ j ≤ p2.currentTickIndex
        rw [c2]
        exact side j hne ((vworld_isSome hb j).1 hj))
    have e : vworld s a st' = FeeWorld.setTick { vworld s a st with
        pool := { q with currentTickIndex := st'.pool.currentTickIndex } } t.index (some t') := by
      unfold vworld FeeWorld.setTick
      rw [ticks, crossed_append, (cross_ok hx).1]
      congr 1
      funext j
      rw [Map.get_insert]
      by_cases hj : j = t.index
      · subst hj; simp
      · rw [if_neg hj, if_neg (by intro e; exact hj (Prod.mk.inj e).2)]
    rw [e]
    exact H4

/-- histories compose -/
theorem FeeHist.trans {lo hi : Int} {w w1 w2 : FeeWorld} {gx gy gx' gy' : Nat}
    (h1 : FeeHist lo hi w w1 gx gy) (h2 : FeeHist lo hi w1 w2 gx' gy') :
    FeeHist lo hi w w2 (gx + gx') (gy + gy') := by
  induction h2 with
  | refl => exact h1
  | fee _ h ih => rw [← Nat.add_assoc, ← Nat.add_assoc]; exact .fee ih h
  | cross _ a b c d ih => exact .cross ih a b c d
  | move _ a ih => exact .move ih a
  | create _ a b ih => exact .create ih a b
  | drop _ a b ih => exact .drop ih a b
  | modify _ a b c d ih => exact .modify ih a b c d

/-- invariants of the loop, as long as the price does not end next to an initialised tick -/
theorem swap_far_ind (hw : StoreWF s) {now : Nat} {xToY byIn : Bool} {amount limit : Nat}
    {r : CalculateSwapResult} {pool : Pool} (hs : Spacing key.feeTier.tickSpacing)
    (h : calculateSwap s now key xToY amount byIn limit = .ok r) (hp : s.pools.get key = some pool)
    (ha : TickAgree key.feeTier.tickSpacing pool) (hn : ¬ Near s key xToY byIn limit r.targetSqrtPrice)
    {P : SwapState → Prop}
    (h0 : P { pool := pool, ticks := [], remaining := amount, totalIn := 0, totalOut := 0, fee := 0 })
    (hstep : ∀ st st' target sr dust p1 p2, P st → SwapSide ⟨key, xToY, byIn, limit, now⟩ pool.sqrtPrice st →
      Behind s ⟨key, xToY, byIn, limit, now⟩ st → st.remaining ≠ 0 →
      swapIter s ⟨key, xToY, byIn, limit, now⟩ st = .ok st' →
      IterMove s ⟨key, xToY, byIn, limit, now⟩ st st' target sr dust p1 p2 → P st') :
    ∃ st, P st ∧ Behind s ⟨key, xToY, byIn, limit, now⟩ st ∧ st.remaining = 0 ∧
      r = { amountIn := st.totalIn, amountOut := st.totalOut, startSqrtPrice := pool.sqrtPrice,
            targetSqrtPrice := st.pool.sqrtPrice, fee := st.fee, pool := st.pool, ticks := st.ticks } := by
  obtain ⟨p, st, h1, _, h3, h4, _⟩ := calculateSwap_ok h
  rw [hp] at h1
  cases h1
  obtain ⟨st, ⟨_, hst⟩, h5, h6, e⟩ := calculateSwap_ind
    (P := fun st => SwapSide ⟨key, xToY, byIn, limit, now⟩ pool.sqrtPrice st ∧
      ((P st ∧ Behind s ⟨key, xToY, byIn, limit, now⟩ st) ∨
        (st.remaining = 0 ∧ Near s key xToY byIn limit st.pool.sqrtPrice))) h hp
    (by
      refine ⟨⟨ha, ?_, ?_⟩, .inl ⟨h0, fun t ht => by cases ht⟩⟩
      · dsimp only; split <;> exact le_rfl
      · dsimp only
        cases xToY
        · simpa using (h4 rfl).1.le
        · simp only [if_true]; left; exact (h3 rfl).1.le)
    (by
      rintro st st' ⟨hsd, hP⟩ hr hi
      refine ⟨iter_side hw hs hsd hr hi, ?_⟩
      rcases hP with ⟨hP, hb⟩ | hP
      · rcases iter_moves hw hs hsd hr hi with h | ⟨target, sr, dust, p1, p2, h⟩
        · exact .inr h
        · exact .inl ⟨hstep _ _ _ _ _ _ _ hP hsd hb hr hi h, iter_behind hb h⟩
      · exact absurd hP.1 hr)
  rcases hst with ⟨hP, hb⟩ | ⟨_, hN⟩
  · exact ⟨st, hP, hb, h5, e⟩
  · rw [e] at hn
    exact absurd hN hn

end Verif
