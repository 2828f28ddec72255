import Verif.Proofs.MoreStep
import Verif.Proofs.AvgPrice
import Verif.Proofs.SwapAmounts

/-! # Two runs of the swap loop, one with more to spend -/

namespace Verif
open Service Spec

variable {s : Inv} {a : SwapArgs} {A B A' B' : SwapState} {start : Nat}

/-! ## Ticks and small rests -/

theorem priceOf_step {t u : Int} (h1 : MIN_TICK ≤ t) (h2 : u ≤ MAX_TICK) (h : t < u) :
    priceOf t + 10 ^ 12 ≤ priceOf u := by
  have hlt := priceOf_lt h1 h2 h
  have key : ∀ t, ∃ k, priceOf t = k * 10 ^ 12 := by
    intro t
    unfold priceOf
    split <;> exact ⟨_, rfl⟩
  obtain ⟨i, hi⟩ := key t
  obtain ⟨j, hj⟩ := key u
  rw [hi, hj] at hlt ⊢
  have : i < j := Nat.lt_of_mul_lt_mul_right hlt
  calc i * 10 ^ 12 + 10 ^ 12 = (i + 1) * 10 ^ 12 := by ring
    _ ≤ _ := Nat.mul_le_mul_right _ this

/-- what takes the price to the next tick is enough to change it -/
theorem nextX_lt {p t L x : Nat} (hL : 0 < L) (hp : t + 10 ^ 12 ≤ p) (hd : 0 < p * t / 10 ^ 24)
    (hx : dxUp p t L ≤ x) : nextX true p L x < p := by
  have hn : 10 ^ 7 * L ≤ dxNum p t L := by
    rw [dxNum_def, absDiff_of_ge (by omega), Nat.le_div_iff_mul_le (by norm_num)]
    calc 10 ^ 7 * L * 10 ^ 5 = 10 ^ 12 * L := by ring
      _ ≤ _ := Nat.mul_le_mul_right _ (by omega)
  have h1 : dxNum p t L ≤ x * (p * t / 10 ^ 24) := by
    rw [dxUp_def, cdiv_le_iff hd] at hx
    exact hx
  have h2 : p * t / 10 ^ 24 * 10 ^ 24 ≤ p * t := Nat.div_mul_le_self _ _
  have hx0 : x ≠ 0 := by
    rintro rfl
    rw [Nat.zero_mul] at h1
    omega
  have h3 : 10 ^ 31 * L ≤ p * x * t := by
    calc 10 ^ 31 * L = 10 ^ 7 * L * 10 ^ 24 := by ring
      _ ≤ x * (p * t / 10 ^ 24) * 10 ^ 24 := Nat.mul_le_mul_right _ (hn.trans h1)
      _ = x * (p * t / 10 ^ 24 * 10 ^ 24) := by ring
      _ ≤ x * (p * t) := Nat.mul_le_mul_left _ h2
      _ = _ := by ring
  unfold nextX
  rw [if_neg hx0]
  simp only [if_true]
  have hp1 : 1 ≤ p := by omega
  obtain ⟨q, rfl⟩ := Nat.exists_eq_add_of_le hp1
  have hle : cdiv (cdiv ((1 + q) * L) (10 ^ 5) * 10 ^ 24) (L * 10 ^ 19 + (1 + q) * x) ≤ q := by
    rw [cdiv_le_iff (by positivity)]
    have h4 := cdiv_mul_lt ((1 + q) * L) (d := 10 ^ 5) (by norm_num)
    have h5 : (1 + q) * x * t ≤ q * ((1 + q) * x) := by
      rw [Nat.mul_comm]
      exact Nat.mul_le_mul_right _ (by omega)
    calc cdiv ((1 + q) * L) (10 ^ 5) * 10 ^ 24 = cdiv ((1 + q) * L) (10 ^ 5) * 10 ^ 5 * 10 ^ 19 := by ring
      _ ≤ ((1 + q) * L + 10 ^ 5) * 10 ^ 19 := Nat.mul_le_mul_right _ h4.le
      _ = q * (L * 10 ^ 19) + (L * 10 ^ 19 + 10 ^ 24) := by ring
      _ ≤ q * (L * 10 ^ 19) + 10 ^ 31 * L := by
          apply Nat.add_le_add_left
          calc L * 10 ^ 19 + 10 ^ 24 ≤ L * 10 ^ 19 + 10 ^ 24 * L :=
                Nat.add_le_add_left (Nat.le_mul_of_pos_right _ hL) _
            _ = (10 ^ 19 + 10 ^ 24) * L := by ring
            _ ≤ _ := Nat.mul_le_mul_right _ (by norm_num)
      _ ≤ q * (L * 10 ^ 19) + q * ((1 + q) * x) := Nat.add_le_add_left (h3.trans h5) _
      _ = _ := by ring
  omega

theorem enough_false {amount p L fee : Nat} (h : isEnoughAmountToChangePrice amount p L fee true true = .ok false) :
    L ≠ 0 ∧ nextX true p L (amount * (10 ^ 12 - fee) / 10 ^ 12) = p := by
  unfold isEnoughAmountToChangePrice at h
  split at h
  · cases h
  · next hL =>
    refine ⟨hL, ?_⟩
    simp only [if_true, bind_ok_iff, pure_ok_iff, subC_ok_iff] at h
    obtain ⟨n, ⟨k, ⟨_, rfl⟩, x, hx, hn⟩, he⟩ := h
    have e := tokMulPct_ok hx
    rw [pctOne_eq] at e
    unfold getNextSqrtPriceFromInput at hn
    rw [if_pos rfl] at hn
    have := (getNextSqrtPriceXUp_add_ok hn).1
    rw [e] at this
    rw [← this]
    have he' : p = n := by simpa using he.symm
    exact he'.symm

theorem enough_mono {x y p L fee : Nat} {e : Bool} (hxy : x ≤ y) (hp : 10 ^ 12 ≤ p)
    (h1 : isEnoughAmountToChangePrice y p L fee true true = .ok false)
    (h2 : isEnoughAmountToChangePrice x p L fee true true = .ok e) : e = false := by
  obtain ⟨hL, h3⟩ := enough_false h1
  unfold isEnoughAmountToChangePrice at h2
  rw [if_neg hL] at h2
  simp only [if_true, bind_ok_iff, pure_ok_iff, subC_ok_iff] at h2
  obtain ⟨n, ⟨k, ⟨_, rfl⟩, z, hz, hn⟩, rfl⟩ := h2
  have e := tokMulPct_ok hz
  rw [pctOne_eq] at e
  unfold getNextSqrtPriceFromInput at hn
  rw [if_pos rfl] at hn
  have h4 := (getNextSqrtPriceXUp_add_ok hn).1
  rw [e] at h4
  have h5 := nextX_anti hp (Nat.pos_of_ne_zero hL) (after_mono (fee := fee) hxy)
  have h6 := nextX_add_le (L := L) (x := x * (10 ^ 12 - fee) / 10 ^ 12) hp
  simp only [ne_eq, decide_eq_false_iff_not, not_not]
  omega

/-! ## Relations between the two runs -/

/-- the three modes in which the runs can be compared -/
def MoreMode (a : SwapArgs) : Prop :=
  (a.byIn = true ∧ a.xToY = true ∧ 10 ^ 24 < a.limit) ∨ (a.byIn = true ∧ a.xToY = false) ∨
    (a.byIn = false ∧ a.xToY = true)

/-- the run with more is ahead -/
structure Ahead (a : SwapArgs) (A B : SwapState) : Prop where
  price : if a.xToY then B.pool.sqrtPrice ≤ A.pool.sqrtPrice else A.pool.sqrtPrice ≤ B.pool.sqrtPrice
  out : a.byIn = true → a.xToY = true → A.totalOut ≤ B.totalOut
  outX : a.byIn = true → a.xToY = false → (A.totalOut : ℚ) ≤ (1 + relX) * (B.totalOut + 1)
  inp : a.byIn = false → A.totalIn ≤ B.totalIn

/-- both runs are at the same place -/
structure Level (A B : SwapState) : Prop where
  pool : A.pool = B.pool
  inp : A.totalIn = B.totalIn
  out : A.totalOut = B.totalOut
  rem : A.remaining ≤ B.remaining

/-- the smaller run stays at the end of its search range, with too little to change the price -/
structure Lag (s : Inv) (a : SwapArgs) (A B : SwapState) : Prop where
  mode : a.byIn = true ∧ a.xToY = true ∧ 10 ^ 24 < a.limit
  pool : B.pool = { A.pool with currentTickIndex := B.pool.currentTickIndex }
  tick : B.pool.currentTickIndex < A.pool.currentTickIndex
  out : A.totalOut = B.totalOut
  rem : A.remaining ≤ B.remaining
  pos : A.remaining ≠ 0
  few : isEnoughAmountToChangePrice A.remaining A.pool.sqrtPrice A.pool.liquidity a.key.feeTier.fee true true =
    .ok false
  price : A.pool.sqrtPrice = priceOf A.pool.currentTickIndex
  empty : (s.ticks.get (a.key, A.pool.currentTickIndex)).isSome = false

theorem Level.ahead (h : Level A B) : Ahead a A B where
  price := by rw [h.pool]; split <;> exact le_rfl
  out _ _ := h.out.le
  outX _ _ := by
    have h0 : (0 : ℚ) ≤ B.totalOut := Nat.cast_nonneg _
    rw [h.out]
    nlinarith [relX_pos]
  inp _ := h.inp.le

/-- a run goes on in its direction -/
structure Onward (a : SwapArgs) (A B : SwapState) : Prop where
  price : if a.xToY then B.pool.sqrtPrice ≤ A.pool.sqrtPrice else A.pool.sqrtPrice ≤ B.pool.sqrtPrice
  out : A.totalOut ≤ B.totalOut
  inp : A.totalIn ≤ B.totalIn

theorem Ahead.trans {C : SwapState} (h : Ahead a A B) (g : Onward a B C) : Ahead a A C where
  price := by
    have h1 := h.price
    have h2 := g.price
    split at h1 <;> simp_all <;> omega
  out x y := (h.out x y).trans g.out
  outX x y := (h.outX x y).trans (by
    have : (B.totalOut : ℚ) ≤ C.totalOut := by exact_mod_cast g.out
    have := relX_pos
    gcongr)
  inp x := (h.inp x).trans g.inp

theorem side_limit (hi : SwapSide a start A) (h0 : A.remaining ≠ 0) :
    if a.xToY then a.limit ≤ A.pool.sqrtPrice else A.pool.sqrtPrice ≤ a.limit := by
  have := hi.limit
  cases hx : a.xToY
  · simpa [hx] using this
  · simp only [hx, if_true] at this ⊢
    omega

theorem iter_onward (hw : StoreWF s) (hs : Spacing a.key.feeTier.tickSpacing) (hi : SwapSide a start A)
    (h0 : A.remaining ≠ 0) (h : swapIter s a A = .ok A') : Onward a A A' := by
  obtain ⟨target, info, r, remaining, pool, tick, u, h⟩ := swapIter_ok h
  have ht := iter_target hw hs hi.agree (side_limit hi h0) h.limit
  have hn := (iter_next (remaining := remaining) hi.agree.price ht h.step h.rem).side
  have hp := iterOk_price h
  refine ⟨?_, by rw [h.res]; exact Nat.le_add_right _ _, by rw [h.res]; dsimp only; omega⟩
  rw [hp]
  split at hn <;> simp_all

theorem loop_onward (hw : StoreWF s) (hs : Spacing a.key.feeTier.tickSpacing) (hi : SwapSide a start A) {n : Nat}
    (h : swapLoop s a n A = some (.ok A')) : Onward a A A' := by
  refine (swapLoop_ind (P := fun st => Onward a A st ∧ SwapSide a start st) ?_ n A A' ⟨?_, hi⟩ h).1.1
  · rintro st st' ⟨h1, h2⟩ h0 h3
    have g := iter_onward hw hs h2 h0 h3
    refine ⟨⟨?_, h1.out.trans g.out, h1.inp.trans g.inp⟩, iter_side hw hs h2 h0 h3⟩
    have e1 := h1.price
    have e2 := g.price
    split at e1 <;> simp_all <;> omega
  · exact ⟨by split <;> exact le_rfl, le_rfl, le_rfl⟩

theorem step_ord (hm : MoreMode a) {x y target : Nat} {info : Option (Int × Bool)} {ra rb : SwapResult} {pool : Pool}
    (hxy : x ≤ y) (hp : PriceOK pool.sqrtPrice) (ht : IterTarget s a pool target info)
    (ha : computeSwapStep pool.sqrtPrice target pool.liquidity x a.byIn a.key.feeTier.fee = .ok ra)
    (hb : computeSwapStep pool.sqrtPrice target pool.liquidity y a.byIn a.key.feeTier.fee = .ok rb) :
    StepOrd a.xToY a.byIn x target ra rb := by
  have hside := ht.side
  rcases hm with ⟨e1, e2, h⟩ | ⟨e1, e2⟩ | ⟨e1, e2⟩ <;> rw [e1] at ha hb ⊢ <;> rw [e2] at hside ⊢
  · rw [if_pos rfl] at hside
    exact step_ord_xin hxy hp.1 hside.2 (by omega) ha hb
  · rw [if_neg (by decide)] at hside
    exact step_ord_yin hxy hp.1 hside.1 ha hb
  · rw [if_pos rfl] at hside
    exact step_ord_xout hxy hp.1 ht.price.1 hside.2 ha hb

/-- what the results of a round owe to its step -/
theorem iter_ahead {target remA remB : Nat} {info : Option (Int × Bool)} {ra rb : SwapResult} {pA pB : Pool}
    {tick tick' : UpdatePoolTick} {uA uB : UpdateTickResult} (hout : A.totalOut = B.totalOut)
    (hin : a.byIn = false → A.totalIn = B.totalIn)
    (hA : SwapIterOk s a A A' target info ra remA pA tick uA)
    (hB : SwapIterOk s a B B' target info rb remB pB tick' uB)
    (ho : StepOrd a.xToY a.byIn A.remaining target ra rb) : Ahead a A' B' where
  price := by
    rw [iterOk_price hA, iterOk_price hB]
    exact ho.price
  out _ hx := by
    rw [hA.res, hB.res]
    dsimp only
    have := ho.out hx
    omega
  outX _ hx := by
    rw [hA.res, hB.res]
    dsimp only
    have h1 := ho.outX hx
    rw [hout]
    push_cast
    have h0 : (0 : ℚ) ≤ B.totalOut := Nat.cast_nonneg _
    nlinarith [relX_pos]
  inp hb := by
    have hu : uA.total = 0 := by
      cases hA.upd <;> simp_all
    rw [hA.res, hB.res]
    dsimp only
    have h1 := ho.inp hb
    have h2 := hin hb
    omega

theorem rem_zero {target rem : Nat} {info : Option (Int × Bool)} {r : SwapResult} {p : Pool}
    {tick : UpdatePoolTick} {u : UpdateTickResult} (h : SwapIterOk s a A A' target info r rem p tick u)
    (h0 : rem = 0) : A'.remaining = 0 := by
  rw [h.res]
  cases h.upd <;> simp [h0]

theorem iter_more (hw : StoreWF s) (hs : Spacing a.key.feeTier.tickSpacing) (hm : MoreMode a)
    (hi : SwapSide a start A) (h0 : A.remaining ≠ 0) (hl : Level A B)
    (hA : swapIter s a A = .ok A') (hB : swapIter s a B = .ok B') :
    Ahead a A' B' ∧ (A'.remaining = 0 ∨ Level A' B' ∨ Lag s a A' B') := by
  obtain ⟨target, info, ra, remA, pA, tick, uA, hA⟩ := swapIter_ok hA
  obtain ⟨target', info', rb, remB, pB, tick', uB, hB⟩ := swapIter_ok hB
  have e1 := hB.limit
  rw [← hl.pool, hA.limit] at e1
  cases e1
  have e2 := hB.htick
  rw [hA.htick] at e2
  cases e2
  have ht := iter_target hw hs hi.agree (side_limit hi h0) hA.limit
  have hsb := hB.step
  rw [← hl.pool] at hsb
  have ho := step_ord hm hl.rem hi.agree.price ht hA.step hsb
  refine ⟨iter_ahead hl.out (fun _ => hl.inp) hA hB ho, ?_⟩
  by_cases hz : remA = 0
  · exact .inl (rem_zero hA hz)
  rcases ho.which with ⟨hreach, hrb⟩ | hdone
  swap
  · exfalso
    have := hA.rem
    cases hb : a.byIn
    · simp only [hb, Bool.false_eq_true, if_false] at this hdone
      omega
    · simp only [hb, if_true] at this hdone
      omega
  have hrb := hrb.symm
  subst hrb
  have hrem : remA ≤ remB := by
    have h1 := hA.rem
    have h2 := hB.rem
    have := hl.rem
    split at h1 <;> simp_all <;> omega
  have hpool : pB = pA := by
    have h1 := hB.fee
    rw [← hl.pool, hA.fee] at h1
    cases h1
    rfl
  subst hpool
  have hp12 : 10 ^ 12 ≤ ra.nextSqrtPrice := by
    rw [hreach]
    exact le_trans (by norm_num [MIN_SQRT_PRICE]) ht.price.1
  -- the larger rest is enough where the smaller one is
  have mono : ∀ {L : Nat} {e e' : Bool}, a.xToY = true →
      isEnoughAmountToChangePrice remA ra.nextSqrtPrice L a.key.feeTier.fee a.byIn a.xToY = .ok e →
      isEnoughAmountToChangePrice remB ra.nextSqrtPrice L a.key.feeTier.fee a.byIn a.xToY = .ok e' →
      e = true → e' = true := by
    intro L e e' hx h1 h2 h3
    rw [hx] at h1 h2
    cases hb : a.byIn
    · rw [hb] at h1 h2
      cases e'
      · exact absurd h2 (enough_out_x (by omega))
      · rfl
    · rw [hb] at h1 h2
      cases e'
      · have := enough_mono hrem hp12 h2 h1
        rw [h3] at this
        cases this
      · rfl
  have hinfo : ∀ i, tick = .uninitialized i → info = some (i, false) := by
    rintro i rfl
    exact limiting_uninit hA.htick
  have hno : tick = .noTick ∨ target ≠ ra.nextSqrtPrice → False := by
    rintro (h | h)
    · have hk := hA.htick
      have : info = none := by
        match info with
        | none => rfl
        | some (i, false) => simp [limitingTick, h] at hk
        | some (i, true) =>
          simp only [limitingTick, bind_ok_iff, pure_ok_iff, h] at hk
          obtain ⟨_, _, e⟩ := hk
          cases e
      exact hA.notLimit ⟨by rw [hreach]; exact ht.none this, hz⟩
    · exact h hreach.symm
  have resA := hA.res
  have resB := hB.res
  have tin := hl.inp
  have tout := hl.out
  have hb : a.xToY = true → ∀ L, isEnoughAmountToChangePrice remA ra.nextSqrtPrice L a.key.feeTier.fee a.byIn
      a.xToY = .ok false → a.byIn = true := by
    intro hx L h1
    cases hb : a.byIn
    · rw [hb, hx] at h1
      exact absurd h1 (enough_out_x hz)
    · rfl
  cases hA.upd with
  | inside hc => exact (hno hc).elim
  | dust => left; rw [resA]
  | drop => left; rw [resA]
  | done => left; rw [resA]
  | cross htk hp he hc hx =>
    subst htk
    right; left
    cases hB.upd with
    | inside hc => exact (hno hc).elim
    | cross htk' hp' he' hc' hx' =>
      cases htk'
      rw [hx] at hx'
      cases hx'
      rw [resA, resB]
      refine ⟨?_, by dsimp only; omega, by dsimp only; omega, hrem⟩
      cases hxy : a.xToY
      · simp
      · have c1 := hc.resolve_left (by simp [hxy])
        have c2 := hc'.resolve_left (by simp [hxy])
        simp [c1, c2]
    | dust htk' hp' he' hd =>
      have := mono hd he he' (hc.resolve_left (by simp [hd]))
      cases this
    | drop htk' hp' he' hd =>
      have := mono hd he he' (hc.resolve_left (by simp [hd]))
      cases this
    | done htk' hp' he' hd =>
      have := mono hd he he' (hc.resolve_left (by simp [hd]))
      cases this
    | uninit htk' => cases htk'
  | uninit htk hp he =>
    rename_i i enough
    have hin := hinfo i htk
    subst htk
    obtain ⟨hpr, hgrid, hem, -⟩ := ht.tick i false hin
    cases hB.upd with
    | inside hc => exact (hno hc).elim
    | cross htk' => cases htk'
    | dust htk' => cases htk'
    | drop htk' => cases htk'
    | done htk' => cases htk'
    | uninit htk' hp' he' =>
      rename_i i' enough'
      cases htk'
      by_cases hsame : (a.xToY && enough) = (a.xToY && enough')
      · right; left
        rw [resA, resB]
        refine ⟨?_, by dsimp only; omega, by dsimp only; omega, hrem⟩
        dsimp only
        rw [hsame]
      · right; right
        have hx : a.xToY = true := by
          cases h : a.xToY
          · simp [h] at hsame
          · rfl
        have hen : enough = false := by
          cases h : enough
          · rfl
          · subst h
            have := mono hx he he' rfl
            simp [this] at hsame
        have hen' : enough' = true := by
          cases h : enough'
          · simp [hen, h] at hsame
          · rfl
        subst hen hen'
        have hb' := hb hx _ he
        rw [resA, resB]
        refine ⟨?_, ?_, ?_, ?_, hrem, hz, ?_, ?_, ?_⟩
        · refine ⟨hb', hx, ?_⟩
          rcases hm with h | h | h
          · exact h.2.2
          · simp [hx] at h
          · simp [hb'] at h
        · simp
        · have := hs.1
          simp [hx]
          omega
        · dsimp only; omega
        · dsimp only
          rw [hb', hx] at he
          exact he
        · simp [hx, hreach, hpr]
        · simp [hx, hem]

theorem dxUp_self (p L : Nat) : dxUp p p L = 0 := by
  rw [dxUp_def, dxNum_def, absDiff_of_le le_rfl]
  simp [cdiv_zero]

theorem dyDown_self (p L : Nat) : dyDown p p L = 0 := by
  rw [dyDown_def, absDiff_of_le le_rfl]
  simp

theorem lag_more (hw : StoreWF s) (hs : Spacing a.key.feeTier.tickSpacing) (hi : SwapSide a start A)
    (hj : SwapSide a start B) (hl : Lag s a A B) (hA : swapIter s a A = .ok A') (hB : swapIter s a B = .ok B') :
    (A'.remaining = 0 ∧ (Ahead a A' B ∨ Ahead a A' B')) ∨ Lag s a A' B := by
  obtain ⟨hb, hx, hlimit⟩ := hl.mode
  obtain ⟨target, info, r, rem, p, tick, u, hA⟩ := swapIter_ok hA
  have ht := iter_target hw hs hi.agree (side_limit hi hl.pos) hA.limit
  have hside := ht.side
  rw [hx, if_pos rfl] at hside
  obtain ⟨hL, hfew⟩ := enough_false hl.few
  have hstep := hA.step
  rw [hb] at hstep
  have F := computeSwapStep_ok hL hstep
  have hd : decide (A.pool.sqrtPrice ≥ target) = true := by simpa using hside.2
  have hpB : B.pool.sqrtPrice = A.pool.sqrtPrice := by rw [hl.pool]
  have hLB : B.pool.liquidity = A.pool.liquidity := by rw [hl.pool]
  have hmode : MoreMode a := .inl hl.mode
  have hrem := hA.rem
  rw [hb, if_pos rfl] at hrem
  have out := F.outEq
  rw [if_pos rfl, hd, outAmt, if_pos rfl] at out
  -- the round ends where it began
  have still : r.nextSqrtPrice = A.pool.sqrtPrice → Ahead a A' B := by
    intro h1
    rw [h1, dyDown_self] at out
    refine ⟨?_, fun _ _ => ?_, by simp [hx], by simp [hb]⟩
    · rw [hx, if_pos rfl, iterOk_price hA, h1, hpB]
    · rw [hA.res]
      dsimp only
      have := hl.out
      omega
  by_cases hcur : target = A.pool.sqrtPrice
  · -- the target is the price itself
    have hnext : r.nextSqrtPrice = target := by
      rcases (F.nextIn rfl).2 with ⟨-, h⟩ | ⟨h, -⟩
      · exact h
      · rw [hd, inAmt, if_pos rfl, hcur, dxUp_self] at h
        omega
    have hin : r.amountIn = 0 := by
      rw [F.inEq, hd, inAmt, if_pos rfl, hnext, hcur, dxUp_self]
    have hfee : r.feeAmount = 0 := by
      have := F.feeEq
      rw [if_neg (by simp [hnext]), hin, Nat.zero_mul, cdiv_zero] at this
      exact this
    have hrem' : rem = A.remaining := by omega
    right
    have hpool : p = A.pool := by
      have := hA.fee
      rw [hfee, addFee_zero] at this
      cases this
      rfl
    have hsq : { p with sqrtPrice := r.nextSqrtPrice } = A.pool := by
      rw [hpool, hnext, hcur]
    rw [hnext, hcur, dyDown_self] at out
    match info, hA.htick, ht with
    | none, _, ht =>
      exact (hA.notLimit ⟨by rw [hnext]; exact ht.none rfl, by rw [hrem']; exact hl.pos⟩).elim
    | some (i, true), hk, ht =>
      obtain ⟨h1, h2, h3, h4⟩ := ht.tick i true rfl
      rw [hx, if_pos rfl] at h4
      have : i = A.pool.currentTickIndex := by
        by_contra hne
        have := priceOf_lt h2.min hi.agree.grid.max (by omega : i < A.pool.currentTickIndex)
        have := hl.price
        omega
      rw [this, hl.empty] at h3
      cases h3
    | some (i, false), hk, ht =>
      obtain ⟨h1, h2, h3, h4⟩ := ht.tick i false rfl
      rw [hx, if_pos rfl] at h4
      have hii : i = A.pool.currentTickIndex := by
        by_contra hne
        have := priceOf_lt h2.min hi.agree.grid.max (by omega : i < A.pool.currentTickIndex)
        have := hl.price
        omega
      simp only [limitingTick] at hk
      cases hk
      have hres := hA.res
      have hu := hA.upd
      rw [hsq] at hu
      cases hu with
      | inside hc =>
        rcases hc with h | h
        · cases h
        · exact absurd hnext.symm h
      | cross h => cases h
      | dust h => cases h
      | drop h => cases h
      | done h => cases h
      | uninit h hp he =>
        rename_i i' enough
        cases h
        rw [hb, hx, hrem', hnext, hcur, hl.few] at he
        cases he
        rw [hres]
        subst hii
        exact
          { mode := hl.mode
            pool := by simpa [hx] using hl.pool
            tick := by simpa [hx] using hl.tick
            out := by dsimp only; have := hl.out; omega
            rem := by dsimp only; have := hl.rem; omega
            pos := by dsimp only; have := hl.pos; omega
            few := by
              dsimp only
              rw [hrem']
              exact hl.few
            price := by simpa [hx] using hl.price
            empty := by simpa [hx] using hl.empty }
  left
  rcases (F.nextIn rfl).2 with ⟨h1, h2⟩ | ⟨h1, h2⟩
  · -- the target is reached: it must be the limit, close to the price
    have hclose : ¬ target + 10 ^ 12 ≤ A.pool.sqrtPrice := by
      intro hc
      rw [hd, inAmt, if_pos rfl] at h1
      have := nextX_lt (Nat.pos_of_ne_zero hL) hc (F.dTarget rfl hside.2) h1
      omega
    have hinfo : info = none := by
      match info, ht with
      | none, _ => rfl
      | some (i, b), ht =>
        exfalso
        obtain ⟨g1, g2, -, g4⟩ := ht.tick i b rfl
        rw [hx, if_pos rfl] at g4
        have hp := hl.price
        have hlt : i < A.pool.currentTickIndex := by
          by_contra hne
          have : i = A.pool.currentTickIndex := by omega
          rw [this] at g1
          exact hcur (by rw [g1, hp])
        have := priceOf_step g2.min hi.agree.grid.max hlt
        rw [← g1, ← hp] at this
        exact hclose this
    have htl := ht.none hinfo
    have hz : rem = 0 := by
      by_contra hne
      exact hA.notLimit ⟨by rw [h2, htl], hne⟩
    refine ⟨rem_zero hA hz, .inr ?_⟩
    obtain ⟨target', info', rb, remB, pB, tick', uB, hB⟩ := swapIter_ok hB
    have hposB : B.remaining ≠ 0 := by have := hl.rem; have := hl.pos; omega
    have ht' := iter_target hw hs hj.agree (side_limit hj hposB) hB.limit
    have hside' := ht'.side
    rw [hx, if_pos rfl] at hside'
    have hinfo' : info' = none := by
      match info', ht' with
      | none, _ => rfl
      | some (i, b), ht' =>
        exfalso
        obtain ⟨g1, g2, -, g4⟩ := ht'.tick i b rfl
        rw [hx, if_pos rfl] at g4
        have := priceOf_step g2.min hi.agree.grid.max (lt_of_le_of_lt g4 hl.tick)
        rw [← g1, ← hl.price] at this
        exact hclose (by omega)
    have htl' := ht'.none hinfo'
    subst hinfo hinfo'
    have e : target' = target := by rw [htl, htl']
    subst e
    have hsb := hB.step
    rw [hpB, hLB] at hsb
    have ho := step_ord hmode hl.rem hi.agree.price ht hA.step hsb
    exact iter_ahead hl.out (by simp [hb]) hA hB ho
  · rw [hd] at h2
    unfold getNextSqrtPriceFromInput at h2
    rw [if_pos rfl] at h2
    have h3 := (getNextSqrtPriceXUp_add_ok h2).1
    rw [hfew] at h3
    have hne : r.nextSqrtPrice ≠ target := by rw [h3]; exact fun e => hcur e.symm
    have := step_done_in hL hstep hne
    exact ⟨rem_zero hA (by omega), .inl (still h3)⟩

/-- the loop with more to spend ends ahead -/
theorem loop_more (hw : StoreWF s) (hs : Spacing a.key.feeTier.tickSpacing) (hm : MoreMode a) :
    ∀ n m A B A' B', SwapSide a start A → SwapSide a start B → (Level A B ∨ Lag s a A B) →
      swapLoop s a n A = some (.ok A') → swapLoop s a m B = some (.ok B') → Ahead a A' B' := by
  intro n
  induction n with
  | zero => intro m A B A' B' _ _ _ h; simp [swapLoop] at h
  | succ n ih =>
    intro m A B A' B' hi hj hrel hA hB
    by_cases h0 : A.remaining = 0
    · rw [swapLoop, if_pos h0] at hA
      cases hA
      rcases hrel with h | h
      · exact h.ahead.trans (loop_onward hw hs hj hB)
      · exact absurd h0 h.pos
    have hB0 : B.remaining ≠ 0 := by
      rcases hrel with h | h
      · have := h.rem; omega
      · have := h.rem; omega
    cases m with
    | zero => simp [swapLoop] at hB
    | succ m =>
      have hB' := hB
      rw [swapLoop, if_neg h0] at hA
      rw [swapLoop, if_neg hB0] at hB
      cases hA1 : swapIter s a A with
      | error e => rw [hA1] at hA; simp at hA
      | ok A1 =>
        cases hB1 : swapIter s a B with
        | error e => rw [hB1] at hB; simp at hB
        | ok B1 =>
          rw [hA1] at hA
          rw [hB1] at hB
          dsimp only at hA hB
          have sA := iter_side hw hs hi h0 hA1
          have sB := iter_side hw hs hj hB0 hB1
          have fin : A1.remaining = 0 → A1 = A' := by
            intro hz
            cases n with
            | zero => simp [swapLoop] at hA
            | succ n => rw [swapLoop, if_pos hz] at hA; cases hA; rfl
          rcases hrel with h | h
          · obtain ⟨h1, h2 | h2 | h2⟩ := iter_more hw hs hm hi h0 h hA1 hB1
            · rw [← fin h2]
              exact h1.trans (loop_onward hw hs sB hB)
            · exact ih m _ _ _ _ sA sB (.inl h2) hA hB
            · exact ih m _ _ _ _ sA sB (.inr h2) hA hB
          · rcases lag_more hw hs hi hj h hA1 hB1 with ⟨h1, h2 | h2⟩ | h1
            · rw [← fin h1]
              exact h2.trans (loop_onward hw hs hj hB')
            · rw [← fin h1]
              exact h2.trans (loop_onward hw hs sB hB)
            · exact ih (m + 1) _ _ _ _ sA hj (.inr h1) hA hB'

end Verif
