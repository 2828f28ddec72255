import Verif.Model.SdkUtils
import Verif.Proofs.SdkExport
import Verif.Proofs.TickAgree

/-! # The filters of the SDK and the swap simulation on what they leave -/

set_option exponentiation.threshold 1000

namespace Verif
open Service Spec

variable {s s' : Inv}

/-! ### the current tick moves in the direction of the swap -/

private theorem nextY_sub_ne {p L y n : Nat} (hp : 0 < p) (hy : y ≠ 0)
    (h : getNextSqrtPriceYDown p L y false = .ok n) : n ≠ p := by
  obtain ⟨h1, rfl, hL⟩ := getNextSqrtPriceYDown_sub_ok h
  have hpos : 0 < cdiv (y * 10 ^ 29) L := by
    exact cdiv_pos (by omega) hL
  omega

theorem iter_tick_move (hw : StoreWF s) {a : SwapArgs} {start : Nat} {st st' : SwapState}
    (hs : Spacing a.key.feeTier.tickSpacing) (hi : SwapSide a start st) (h0 : st.remaining ≠ 0)
    (h : swapIter s a st = .ok st') :
    if a.xToY then st'.pool.currentTickIndex ≤ st.pool.currentTickIndex ∨ st'.remaining = 0
    else st.pool.currentTickIndex ≤ st'.pool.currentTickIndex := by
  obtain ⟨target, info, r, remaining, pool, tick, u, h⟩ := swapIter_ok h
  have hl : if a.xToY then a.limit ≤ st.pool.sqrtPrice else st.pool.sqrtPrice ≤ a.limit := by
    have := hi.limit
    cases hx : a.xToY
    · simpa [hx] using this
    · simp only [hx, if_true] at this ⊢
      omega
  have ht := iter_target hw hs hi.agree hl h.limit
  have hn := iter_next (remaining := remaining) hi.agree.price ht h.step h.rem
  have hs1 := hs.1
  have hsp : (0 : Int) < a.key.feeTier.tickSpacing := by exact_mod_cast hs1
  have at_tick : ∀ (i : Int), Grid a.key.feeTier.tickSpacing i →
      (if a.xToY then i ≤ st.pool.currentTickIndex else st.pool.currentTickIndex < i) →
      (st'.pool.currentTickIndex = i ∨
        (a.xToY = true ∧ st'.pool.currentTickIndex = i - a.key.feeTier.tickSpacing)) →
      if a.xToY then st'.pool.currentTickIndex ≤ st.pool.currentTickIndex ∨ st'.remaining = 0
      else st.pool.currentTickIndex ≤ st'.pool.currentTickIndex := by
    intro i _ hlt hc
    cases hx : a.xToY
    · simp only [hx, Bool.false_eq_true, if_false, false_and, or_false] at hlt hc ⊢
      omega
    · simp only [hx, if_true, true_and] at hlt hc ⊢
      left
      omega
  cases h.upd with
  | @inside i hc hti =>
    have hcur : st'.pool.currentTickIndex = i := by rw [h.res]
    have hrem : st'.remaining = remaining := by rw [h.res]
    obtain ⟨-, -, hlk⟩ := getTick_ok hs1 hti
    have hsd := hn.side
    cases hx : a.xToY
    · simp only [hx, Bool.false_eq_true, if_false] at hsd ⊢
      rw [hcur]
      exact hlk.ge hi.agree.grid (le_trans hi.agree.low hsd.1)
    · simp only [hx, if_true] at hsd ⊢
      rw [hcur, hrem]
      by_cases hle : i ≤ st.pool.currentTickIndex
      · exact .inl hle
      · right
        have h1 := grid_next hi.agree.grid.1 hlk.dvd (by omega)
        have hmin : MIN_TICK ≤ st.pool.currentTickIndex + a.key.feeTier.tickSpacing := by
          have := hi.agree.grid.min
          omega
        have h2 := priceOf_le hmin hlk.le h1
        have h3 := hlk.low (by omega)
        have h4 := hi.agree.high (le_trans h1 hlk.le)
        have hsame : r.nextSqrtPrice = st.pool.sqrtPrice := by omega
        by_contra hr0
        have hnl := h.notLimit
        have htn : target ≠ r.nextSqrtPrice := by
          rcases hc with hc | hc
          · intro e
            have hinfo : info = none := by
              have h5 := h.htick
              rw [hc] at h5
              match info, h5 with
              | none, _ => rfl
              | some (j, false), h5 => simp [limitingTick] at h5
              | some (j, true), h5 =>
                simp only [limitingTick, bind_ok_iff, pure_ok_iff] at h5
                obtain ⟨_, _, e⟩ := h5
                cases e
            exact hnl ⟨by rw [← e, ht.none hinfo], hr0⟩
          · exact hc
        have hL : st.pool.liquidity ≠ 0 := by
          intro hL0
          have h5 := h.step
          rw [hL0, computeSwapStep_zero] at h5
          cases h5
          exact htn rfl
        have F := computeSwapStep_ok hL h.step
        have hrm := h.rem
        have hts : target ≤ st.pool.sqrtPrice := by
          have := ht.side
          simp only [hx, if_true] at this
          exact this.2
        cases hb : a.byIn
        · rcases F.nextOut hb with ⟨-, h6⟩ | ⟨-, h6⟩
          · exact htn h6.symm
          · have hd : decide (st.pool.sqrtPrice ≥ target) = true := by simpa using hts
            rw [hd] at h6
            unfold getNextSqrtPriceFromOutput at h6
            rw [if_pos rfl] at h6
            have hpos : 0 < st.pool.sqrtPrice := by
              have := hi.agree.price.1
              simp only [MIN_SQRT_PRICE] at this
              omega
            exact nextY_sub_ne hpos h0 h6 hsame
        · have hf := F.feeEq
          rw [if_pos ⟨hb, fun e => htn e.symm⟩] at hf
          rw [hb, if_pos rfl] at hrm
          omega
  | @cross t t' pool' enough hti hpr he hc hx =>
    subst hti
    obtain ⟨e1, e2⟩ := limiting_index hw.indexed h.htick
    obtain ⟨e3, hg, _, hd⟩ := ht.tick _ _ e1
    refine at_tick t.index hg hd ?_
    rw [h.res]
    dsimp only
    split
    · next hb => right; exact ⟨by simp at hb; exact hb.1, rfl⟩
    · left; rfl
  | @dust t pool' hti hpr =>
    subst hti
    obtain ⟨e1, e2⟩ := limiting_index hw.indexed h.htick
    obtain ⟨e3, hg, _, hd⟩ := ht.tick _ _ e1
    exact at_tick t.index hg hd (.inl (by rw [h.res]))
  | @drop t hti hpr =>
    subst hti
    obtain ⟨e1, e2⟩ := limiting_index hw.indexed h.htick
    obtain ⟨e3, hg, _, hd⟩ := ht.tick _ _ e1
    exact at_tick t.index hg hd (.inl (by rw [h.res]))
  | @done t hti hpr =>
    subst hti
    obtain ⟨e1, e2⟩ := limiting_index hw.indexed h.htick
    obtain ⟨e3, hg, _, hd⟩ := ht.tick _ _ e1
    exact at_tick t.index hg hd (.inl (by rw [h.res]))
  | @uninit i enough hti hpr =>
    subst hti
    have e1 := limiting_uninit h.htick
    obtain ⟨e3, hg, _, hd⟩ := ht.tick _ _ e1
    refine at_tick i hg hd ?_
    rw [h.res]
    dsimp only
    split
    · next hb => right; exact ⟨by simp at hb; exact hb.1, rfl⟩
    · left; rfl

namespace Sdk

/-! ### the filters -/

theorem filterChunks_lookup {c0 c : Nat} {x : Bool} (h : wrongSide x c c0 = false) :
    ∀ n l, word (filterChunks c0 x n l) c = word l c := by
  intro n l
  unfold word
  congr 1
  induction l generalizing n with
  | nil => cases n <;> rfl
  | cons e l ih =>
    cases n with
    | zero => rfl
    | succ n =>
      unfold filterChunks
      split
      · next hw =>
        rw [ih n, List.lookup_cons]
        have : (c == e.1) = false := by
          rw [beq_eq_false_iff_ne]
          intro hc
          rw [hc] at h
          rw [h] at hw
          cases hw
        rw [this]
      · rw [List.lookup_cons, List.lookup_cons, ih n]

theorem filter_eraseIdx {α : Type} (p : α → Bool) : ∀ (l : List α) i t, l[i]? = some t → p t = false →
    (l.eraseIdx i).filter p = l.filter p := by
  intro l
  induction l with
  | nil => intro i t h; simp at h
  | cons a l ih =>
    intro i t h ht
    cases i with
    | zero =>
      simp only [List.getElem?_cons_zero, Option.some.injEq] at h
      subst h
      simp [ht]
    | succ i =>
      simp only [List.getElem?_cons_succ] at h
      simp only [List.eraseIdx_cons_succ, List.filter_cons, ih i t h ht]

theorem filterLoop_keep (cur : Int) (x : Bool) : ∀ n i l,
    (filterLoop cur x n i l).filter (fun t => !wrongSide x t.index cur) =
      l.filter (fun t => !wrongSide x t.index cur) := by
  intro n
  induction n with
  | zero => intro i l; rfl
  | succ n ih =>
    intro i l
    unfold filterLoop
    split
    · rfl
    · next t ht =>
      rw [ih]
      split
      · next hw => exact filter_eraseIdx _ l i t ht (by simp [hw])
      · rfl

theorem filterLoop_sublist (cur : Int) (x : Bool) : ∀ n i l, (filterLoop cur x n i l).Sublist l := by
  intro n
  induction n with
  | zero => intro i l; exact List.Sublist.refl _
  | succ n ih =>
    intro i l
    unfold filterLoop
    split
    · exact List.Sublist.refl _
    · refine (ih _ _).trans ?_
      split
      · exact List.eraseIdx_sublist _ _
      · exact List.Sublist.refl _

theorem filterTicks_find {cur i : Int} {x : Bool} (h : wrongSide x i cur = false) (l : List LiquidityTick) :
    (filterTicks l cur x).find? (fun t => t.index = i) = l.find? (fun t => t.index = i) := by
  have key : ∀ m : List LiquidityTick, m.find? (fun t => t.index = i) =
      (m.filter (fun t => !wrongSide x t.index cur)).find? (fun t => t.index = i) := by
    intro m
    rw [List.find?_filter]
    congr 1
    funext t
    by_cases e : t.index = i
    · simp [e, h]
    · simp [e]
  rw [key, key l]
  unfold filterTicks
  rw [filterLoop_keep]

/-! ### the search reads only chunks on its side -/

variable {bm : List (Nat × Nat)} {tm : Tickmap} {key : PoolKey}

theorem nextLoop_local (sp lc lb : Nat) : ∀ n c b, (∀ c' ≥ c, word bm c' = chunkWord tm key c') →
    nextLoop bm sp lc lb n c b = Verif.nextLoop tm key sp lc lb n c b := by
  intro n
  induction n with
  | zero => intro c b _; rfl
  | succ n ih =>
    intro c b hw
    unfold nextLoop Verif.nextLoop
    rw [hw c le_rfl, ih (c + 1) 0 (fun c' h => hw c' (by omega))]

theorem prevLoop_local (sp lc lb : Nat) : ∀ c b, (∀ c' ≤ c, word bm c' = chunkWord tm key c') →
    prevLoop bm sp lc lb c b = Verif.prevLoop tm key sp lc lb c b := by
  intro c
  induction c with
  | zero =>
    intro b hw
    unfold prevLoop Verif.prevLoop
    rw [hw 0 le_rfl]
    rfl
  | succ c ih =>
    intro b hw
    unfold prevLoop Verif.prevLoop
    rw [hw (c + 1) le_rfl]
    simp only [ih (CHUNK_SIZE - 1) (fun c' h => hw c' (by omega))]
    rfl

theorem bitmapIndex_mono {sp : Nat} {i j : Int} (hs : 1 ≤ sp) (hi : Grid sp i) (hj : Grid sp j) (h : i ≤ j) :
    bitmapIndex i sp ≤ bitmapIndex j sp := by
  obtain ⟨a, rfl, ha, -⟩ := grid_coord hs hi
  obtain ⟨b, rfl, hb, -⟩ := grid_coord hs hj
  have h1 := bitmapIndex_eq hs ha
  have h2 := bitmapIndex_eq hs hb
  have hs' : (0 : Int) < sp := by exact_mod_cast hs
  have : a ≤ b := le_of_mul_le_mul_right h hs'
  omega

/-- chunks on the side of the swap -/
def OnSide (x : Bool) (c0 c : Nat) : Prop := if x then c ≤ c0 else c0 ≤ c

theorem closer_local {limit sp : Nat} {x : Bool} {cur t0 : Int} (hs : 1 ≤ sp) (h0 : Grid sp t0)
    (hc : Grid sp cur) (hcur : if x then cur ≤ t0 else t0 ≤ cur)
    (hw : ∀ c, OnSide x (bitmapIndex t0 sp / 64) c → word bm c = chunkWord tm key c) :
    getCloserLimit bm limit x cur sp = Verif.getCloserLimit tm limit x cur sp key := by
  cases x
  · simp only [OnSide, Bool.false_eq_true, if_false] at hw hcur
    have hn : nextInitialized bm cur sp = Verif.nextInitialized tm cur sp key := by
      unfold nextInitialized Verif.nextInitialized
      dsimp only
      split
      · rfl
      · next hm =>
        have hg : Grid sp (cur + sp) := ⟨Int.dvd_add hc.1 (dvd_refl _), by have := hc.min; simp only [MIN_TICK] at this; omega, by simp only [MAX_TICK] at hm; omega⟩
        have h1 := bitmapIndex_mono hs h0 hg (by omega)
        simp only [tickToPosition_ok hg, ok_bind]
        congr 1
        funext r
        rw [nextLoop_local]
        intro c' hc'
        exact hw c' (by have := Nat.div_le_div_right (c := 64) h1; omega)
    unfold getCloserLimit Verif.getCloserLimit
    simp only [Bool.false_eq_true, if_false]
    rw [hn]
    rfl
  · simp only [OnSide, if_true] at hw hcur
    have hn : prevInitialized bm cur sp = Verif.prevInitialized tm cur sp key := by
      unfold prevInitialized Verif.prevInitialized
      dsimp only
      have h1 := bitmapIndex_mono hs hc h0 hcur
      simp only [tickToPosition_ok hc, ok_bind]
      congr 1
      funext r
      rw [prevLoop_local]
      intro c' hc'
      exact hw c' (by have := Nat.div_le_div_right (c := 64) h1; omega)
    unfold getCloserLimit Verif.getCloserLimit
    simp only [if_true]
    rw [hn]
    rfl

theorem closer_tick_side (hw : StoreWF s) {a : SwapArgs} {cur i : Int} {target : Nat} {b : Bool}
    (hs : Spacing a.key.feeTier.tickSpacing) (hc : Grid a.key.feeTier.tickSpacing cur)
    (h : Verif.getCloserLimit s.tickmap a.limit a.xToY cur a.key.feeTier.tickSpacing a.key =
      .ok (target, some (i, b))) : if a.xToY then i ≤ cur else cur < i :=
  ((C16_closer_limit hw.wf hs hc h).2.2.1 i b rfl).2.2.2

/-- the simulation on data that is only right on the side of the swap -/
theorem loop_sim_side (hw : StoreWF s) {a : SwapArgs} {ticks : List LiquidityTick} {pool : Verif.Pool}
    (hs : Spacing a.key.feeTier.tickSpacing)
    (hb : ∀ c, OnSide a.xToY (bitmapIndex pool.currentTickIndex a.key.feeTier.tickSpacing / 64) c →
      word bm c = chunkWord s.tickmap a.key c)
    (ht : ∀ i t, s.ticks.get (a.key, i) = some t →
      (if a.xToY then i ≤ pool.currentTickIndex else pool.currentTickIndex ≤ i) →
      ticks.find? (fun u => u.index = i) = some (LiquidityTick.ofTick t))
    {st st' : SwapState} (hst : SwapSide a pool.sqrtPrice st) (hp : st.pool.currentTickIndex = pool.currentTickIndex)
    (n k : Nat) (h : swapLoop s a n st = some (.ok st')) (hf : st.fee ≤ st.totalIn) :
    ∃ r, loop ⟨bm, a.key.feeTier, ticks, a.xToY, a.byIn, a.limit⟩ k (view st) = .ok r ∧
      r.insufficient = false ∧ r.outdated = false ∧ (r.maxSteps = false → r = view st') := by
  have hg0 : Grid a.key.feeTier.tickSpacing pool.currentTickIndex := by rw [← hp]; exact hst.agree.grid
  refine loop_sim_local (P := fun st => SwapSide a pool.sqrtPrice st ∧ (st.remaining = 0 ∨
      if a.xToY then st.pool.currentTickIndex ≤ pool.currentTickIndex
      else pool.currentTickIndex ≤ st.pool.currentTickIndex)) ?_ ?_ n k st st' h ?_ hf
  · rintro st st1 ⟨h1, h2⟩ h0 hi
    refine ⟨iter_side hw hs h1 h0 hi, ?_⟩
    have h3 := iter_tick_move hw hs h1 h0 hi
    have h4 := h2.resolve_left h0
    cases hx : a.xToY
    · simp only [hx, Bool.false_eq_true, if_false] at h3 h4 ⊢
      right; omega
    · simp only [hx, if_true] at h3 h4 ⊢
      omega
  · rintro st ⟨h1, h2⟩ h0
    have h4 := h2.resolve_left h0
    refine ⟨closer_local hs.1 hg0 h1.agree.grid h4 hb, ?_⟩
    intro target i t hc hti
    refine ht i t hti ?_
    have h5 := closer_tick_side hw hs h1.agree.grid hc
    cases hx : a.xToY
    · simp only [hx, Bool.false_eq_true, if_false] at h4 h5 ⊢; omega
    · simp only [hx, if_true] at h4 h5 ⊢; omega
  · refine ⟨hst, .inr ?_⟩
    rw [hp]
    split <;> exact le_rfl

/-! ### fetching the ticks of a filtered tick map -/

theorem filterChunks_sublist (c0 : Nat) (x : Bool) : ∀ n l, (filterChunks c0 x n l).Sublist l := by
  intro n l
  induction l generalizing n with
  | nil => cases n <;> exact List.Sublist.refl _
  | cons e l ih =>
    cases n with
    | zero => exact List.Sublist.refl _
    | succ n =>
      unfold filterChunks
      split
      · exact (ih n).trans (List.sublist_cons_self _ _)
      · exact (ih n).cons_cons _

theorem filterChunks_eq (c0 : Nat) (x : Bool) : ∀ n l, l.length ≤ n →
    filterChunks c0 x n l = l.filter (fun e => !wrongSide x e.1 c0) := by
  intro n l
  induction l generalizing n with
  | nil => intro _; cases n <;> rfl
  | cons e l ih =>
    intro h
    cases n with
    | zero => simp at h
    | succ n =>
      unfold filterChunks
      rw [ih n (by simpa using h), List.filter_cons]
      cases wrongSide x e.1 c0 <;> rfl

theorem filterChunks_mem {c0 : Nat} {x : Bool} {e : Nat × Nat} (h : wrongSide x e.1 c0 = false) :
    ∀ n l, e ∈ l → e ∈ filterChunks c0 x n l := by
  intro n l
  induction l generalizing n with
  | nil => intro h; simp at h
  | cons f l ih =>
    intro hm
    cases n with
    | zero => exact hm
    | succ n =>
      unfold filterChunks
      rcases List.mem_cons.1 hm with rfl | hm
      · rw [h]; simp
      · split
        · exact ih n hm
        · exact List.mem_cons_of_mem _ (ih n hm)

theorem wrongSide_onSide {x : Bool} {c0 c : Nat} (h : OnSide x c0 c) : wrongSide x c c0 = false := by
  unfold OnSide at h
  unfold wrongSide
  cases x <;> simp at h ⊢ <;> exact h

theorem fetch_filtered (hw : StoreWF s) (hs : 1 ≤ key.feeTier.tickSpacing) {t0 : Int} (h0 : Grid key.feeTier.tickSpacing t0)
    {x : Bool} (n : Nat) :
    ∃ ticks, getAllLiquidityTicks s key
        (filterChunks (bitmapIndex t0 key.feeTier.tickSpacing / 64) x n (getTickmap s key)) = .ok ticks ∧
      ∀ i t, s.ticks.get (key, i) = some t → (if x then i ≤ t0 else t0 ≤ i) →
        ticks.find? (fun u => u.index = i) = some (LiquidityTick.ofTick t) := by
  refine ⟨_, fetch_ok _ _ (le_refl _) (fun i hi => (mem_tickIndexes hw hs i).1 ?_), ?_⟩
  · unfold tickIndexes at hi ⊢
    exact ((filterChunks_sublist _ x n (getTickmap s key)).flatMap _).subset hi
  · intro i t ht hside
    refine find_read hw ht _ ?_
    have hm := (mem_tickIndexes (s := s) hw hs i).2 (by rw [ht]; rfl)
    have hg : Grid key.feeTier.tickSpacing i := (hw.tick key i t ht).1.grid
    rw [tickIndexes_eq] at hm ⊢
    unfold Spec.decode at hm ⊢
    rw [List.mem_flatMap] at hm ⊢
    obtain ⟨e, he, hb⟩ := hm
    refine ⟨e, filterChunks_mem (wrongSide_onSide ?_) n _ he, hb⟩
    rw [List.mem_map] at hb
    obtain ⟨b, hb, hi⟩ := hb
    rw [List.mem_filter, List.mem_range] at hb
    have hidx : (bitmapIndex i key.feeTier.tickSpacing : Int) = e.1 * 64 + b := by
      have e2 : i = ((e.1 * 64 + b : Nat) - (gridHalf key.feeTier.tickSpacing : Int)) * key.feeTier.tickSpacing := by
        rw [sub_mul]; exact hi.symm
      rw [e2, bitmapIndex_eq hs (by omega)]
      push_cast
      ring
    unfold OnSide
    cases x
    · simp only [Bool.false_eq_true, if_false] at hside ⊢
      have := bitmapIndex_mono hs h0 hg hside
      omega
    · simp only [if_true] at hside ⊢
      have := bitmapIndex_mono hs hg h0 hside
      omega

end Sdk
end Verif
