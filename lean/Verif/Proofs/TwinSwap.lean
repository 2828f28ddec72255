import Verif.Proofs.TwinStep

/-! # A run of an exact input and one of an exact output for its proceeds -/

namespace Verif
open Service Spec

namespace Twin
open Market

variable {s : Inv} {a b : SwapArgs} {A B A' B' : SwapState} {start start' O : Nat}

/-- an exact input of X above the price one, and an exact output with the same limit -/
structure Modes (a b : SwapArgs) : Prop where
  key : b.key = a.key
  limit : b.limit = a.limit
  xToY : a.xToY = true
  xToY' : b.xToY = true
  byIn : a.byIn = true
  byOut : b.byIn = false
  high : 10 ^ 24 < a.limit

/-- the runs are at the same place, the exact output has paid no more -/
structure Par (O : Nat) (A B : SwapState) : Prop where
  pool : PoolM A.pool B.pool
  out : B.totalOut = A.totalOut
  inp : B.totalIn ≤ A.totalIn
  sum : B.totalOut + B.remaining = O

/-- the exact output has all it asked for -/
structure Over (O : Nat) (A B : SwapState) : Prop where
  rem : B.remaining = 0
  out : B.totalOut = O
  inp : B.totalIn ≤ A.totalIn + 8

/-- a run stays at the end of its search range, with too little to change the price -/
structure Stuck (s : Inv) (a : SwapArgs) (A : SwapState) : Prop where
  pos : A.remaining ≠ 0
  few : isEnoughAmountToChangePrice A.remaining A.pool.sqrtPrice A.pool.liquidity a.key.feeTier.fee true true =
    .ok false
  price : A.pool.sqrtPrice = priceOf A.pool.currentTickIndex
  empty : (s.ticks.get (a.key, A.pool.currentTickIndex)).isSome = false

/-- the exact output went on past this end -/
structure Past (O : Nat) (A B : SwapState) : Prop where
  price : B.pool.sqrtPrice = A.pool.sqrtPrice
  liquidity : B.pool.liquidity = A.pool.liquidity
  tick : B.pool.currentTickIndex < A.pool.currentTickIndex
  out : B.totalOut = A.totalOut
  inp : B.totalIn ≤ A.totalIn
  sum : B.totalOut + B.remaining = O

theorem iter_twin (h : Modes a b) (hw : StoreWF s) (hs : Spacing a.key.feeTier.tickSpacing) (hi : SwapSide a start A)
    (h0 : A.remaining ≠ 0) (hl : Par O A B) (hA : swapIter s a A = .ok A') (hB : swapIter s b B = .ok B')
    (hO : A'.totalOut ≤ O) (hlast : A'.remaining = 0 → A'.totalOut = O) :
    Over O A' B' ∨ Par O A' B' ∨ (Stuck s a A' ∧ Past O A' B') := by
  obtain ⟨target, info, ra, remA, pA, tick, uA, hA⟩ := swapIter_ok hA
  obtain ⟨target', info', rb, remB, pB, tick', uB, hB⟩ := swapIter_ok hB
  have e1 := hB.limit
  rw [h.key, h.limit, h.xToY', hl.pool.2.1, ← h.xToY, hA.limit] at e1
  cases e1
  have e2 := hB.htick
  rw [h.key, hA.htick] at e2
  cases e2
  have hpool : PoolM pA pB := by
    obtain ⟨a1, a2, a3⟩ := addFee_market hA.fee
    obtain ⟨b1, b2, b3⟩ := addFee_market hB.fee
    obtain ⟨h1, h2, h3⟩ := hl.pool
    exact ⟨by omega, by omega, by omega⟩
  have ht := iter_target hw hs hi.agree (side_limit hi h0) hA.limit
  have hside := ht.side
  rw [h.xToY, if_pos rfl] at hside
  have hhigh := h.high
  have sa := hA.step
  have sb := hB.step
  rw [h.byIn] at sa
  rw [h.byOut, hl.pool.1, hl.pool.2.2, h.key] at sb
  have ra1 := hA.rem
  rw [h.byIn, if_pos rfl] at ra1
  have rb1 := hB.rem
  rw [h.byOut, if_neg (by decide)] at rb1
  have resA := hA.res
  have resB := hB.res
  have tA : A'.totalOut = A.totalOut + ra.amountOut := by rw [resA]
  have tB : B'.totalOut = B.totalOut + rb.amountOut := by rw [resB]
  have iA : A'.totalIn = A.totalIn + (ra.amountIn + ra.feeAmount) + uA.total := by rw [resA]
  have uB0 : uB.total = 0 := by
    have := h.byOut
    cases hB.upd <;> simp_all
  have iB : B'.totalIn = B.totalIn + (rb.amountIn + rb.feeAmount) := by rw [resB, uB0]; rfl
  have lo := hl.out
  have li := hl.inp
  have ls := hl.sum
  have hst := step_twin hi.agree.price.1 hside.2 (by omega) sa sb (by omega) (fun hne => by
    have hL : A.pool.liquidity ≠ 0 := by
      intro hL
      rw [hL, computeSwapStep_zero] at sa
      cases sa
      exact hne rfl
    have := hlast (rem_zero hA (by have := step_done_in hL sa hne; omega))
    omega)
  rcases hst with ⟨hreach, rfl⟩ | ⟨hne, h1, h2, h3⟩
  swap
  · left
    exact ⟨rem_zero hB (by omega), by omega, by omega⟩
  by_cases hz : remB = 0
  · left
    exact ⟨rem_zero hB hz, by omega, by omega⟩
  have hA0 : A'.remaining ≠ 0 := by
    intro h
    have := hlast h
    omega
  have hno : ¬ (tick = .noTick ∨ target ≠ rb.nextSqrtPrice) := by
    rintro (hn | hn)
    · have hk := hA.htick
      have : info = none := by
        match info with
        | none => rfl
        | some (i, false) => simp [limitingTick, hn] at hk
        | some (i, true) =>
          simp only [limitingTick, bind_ok_iff, pure_ok_iff, hn] at hk
          obtain ⟨_, _, e⟩ := hk
          cases e
      exact hB.notLimit ⟨by rw [hreach, h.limit]; exact ht.none this, hz⟩
    · exact hn hreach.symm
  have hen : ∀ {L : Nat} {e : Bool},
      isEnoughAmountToChangePrice remB rb.nextSqrtPrice L b.key.feeTier.fee b.byIn b.xToY = .ok e → e = true := by
    intro L e he
    rw [h.byOut, h.xToY'] at he
    cases e
    · exact absurd he (enough_out_x hz)
    · rfl
  have hL := hpool.2.2
  have hT := hpool.2.1
  right
  cases hA.upd with
  | inside hc => exact (hno hc).elim
  | dust => exact absurd (by rw [resA]) hA0
  | drop => exact absurd (by rw [resA]) hA0
  | done => exact absurd (by rw [resA]) hA0
  | cross htk hp he hc hcr =>
    subst htk
    left
    cases hB.upd with
    | inside hc => exact (hno hc).elim
    | uninit htk' => cases htk'
    | dust _ _ he' => exact absurd (hen he') (by decide)
    | drop _ _ he' => exact absurd (hen he') (by decide)
    | done _ _ he' => exact absurd (hen he') (by decide)
    | cross htk' hp' he' hc' hcr' =>
      cases htk'
      obtain ⟨g1, g2⟩ := Cheap.cross_same (p := { pA with sqrtPrice := rb.nextSqrtPrice })
        (q := { pB with sqrtPrice := rb.nextSqrtPrice }) ⟨rfl, hT, hL⟩ ⟨rfl, rfl⟩ hcr hcr'
      refine ⟨?_, by omega, by omega, by rw [tB, resB]; dsimp only; omega⟩
      rw [resA, resB]
      refine ⟨g1, ?_, g2⟩
      have c1 := hc.resolve_left (by simp [h.xToY])
      have c2 := hc'.resolve_left (by simp [h.xToY'])
      simp [c1, c2, h.xToY, h.xToY', h.key]
  | uninit htk hp he =>
    rename_i i enough
    subst htk
    have hin := limiting_uninit hA.htick
    obtain ⟨hpr, hgrid, hem, -⟩ := ht.tick i false hin
    cases hB.upd with
    | inside hc => exact (hno hc).elim
    | cross htk' => cases htk'
    | dust htk' => cases htk'
    | drop htk' => cases htk'
    | done htk' => cases htk'
    | uninit htk' hp' he' =>
      rename_i i' enough'
      cases htk'
      have hen' := hen he'
      subst hen'
      cases enough with
      | true =>
        left
        refine ⟨?_, by omega, by omega, by rw [tB, resB]; dsimp only; omega⟩
        rw [resA, resB]
        refine ⟨rfl, ?_, hL⟩
        simp [h.xToY, h.xToY', h.key]
      | false =>
        right
        refine ⟨⟨hA0, ?_, ?_, ?_⟩, ⟨?_, ?_, ?_, by omega, by omega, by rw [tB, resB]; dsimp only; omega⟩⟩
        · rw [resA]
          dsimp only at he ⊢
          rw [h.byIn, h.xToY] at he
          exact he
        · rw [resA]
          simp [h.xToY, hreach, hpr]
        · rw [resA]
          simp [h.xToY, hem]
        · rw [resA, resB]
        · rw [resA, resB]
          exact hL
        · rw [resA, resB]
          have := hs.1
          simp [h.xToY, h.xToY', h.key]
          omega

/-- a run that is stuck stays where it is, ends there, or reaches a limit that is close to the price -/
theorem stuck_iter (hw : StoreWF s) (hs : Spacing a.key.feeTier.tickSpacing) (hb : a.byIn = true) (hx : a.xToY = true)
    (hi : SwapSide a start A) (hl : Stuck s a A) (hA : swapIter s a A = .ok A') :
    (Stuck s a A' ∧ A'.pool = A.pool ∧ A'.totalOut = A.totalOut ∧ A.totalIn ≤ A'.totalIn) ∨
    (A'.remaining = 0 ∧ A'.totalOut = A.totalOut) ∨
    (A'.remaining = 0 ∧ a.limit < A.pool.sqrtPrice ∧ A.pool.sqrtPrice < a.limit + 10 ^ 12 ∧
      A'.totalOut = A.totalOut + dyDown A.pool.sqrtPrice a.limit A.pool.liquidity ∧
      A.totalIn + (dxUp A.pool.sqrtPrice a.limit A.pool.liquidity +
        cdiv (dxUp A.pool.sqrtPrice a.limit A.pool.liquidity * a.key.feeTier.fee) (10 ^ 12)) ≤ A'.totalIn) := by
  obtain ⟨target, info, r, rem, p, tick, u, hA⟩ := swapIter_ok hA
  have ht := iter_target hw hs hi.agree (side_limit hi hl.pos) hA.limit
  have hside := ht.side
  rw [hx, if_pos rfl] at hside
  obtain ⟨hL, hfew⟩ := enough_false hl.few
  have hstep := hA.step
  rw [hb] at hstep
  have F := computeSwapStep_ok hL hstep
  have hd : decide (A.pool.sqrtPrice ≥ target) = true := by simpa using hside.2
  have hrem := hA.rem
  rw [hb, if_pos rfl] at hrem
  have out := F.outEq
  rw [if_pos rfl, hd, outAmt, if_pos rfl] at out
  by_cases hcur : target = A.pool.sqrtPrice
  · left
    have hnext : r.nextSqrtPrice = target := by
      rcases (F.nextIn rfl).2 with ⟨-, h⟩ | ⟨h, -⟩
      · exact h
      · rw [hd, inAmt, if_pos rfl, hcur, dxUp_self] at h
        omega
    have hin : r.amountIn = 0 := by
      rw [F.inEq, hd, inAmt, if_pos rfl, hnext, hcur, dxUp_self]
    have hfee : r.feeAmount = 0 := by
      have := F.feeEq
      rw [if_neg (by simp [hnext]), hin, Nat.zero_mul, cdiv_zero] at this
      exact this
    have hrem' : rem = A.remaining := by omega
    have hpool : p = A.pool := by
      have := hA.fee
      rw [hfee, addFee_zero] at this
      cases this
      rfl
    have hsq : { p with sqrtPrice := r.nextSqrtPrice } = A.pool := by
      rw [hpool, hnext, hcur]
    rw [hnext, hcur, dyDown_self] at out
    match info, hA.htick, ht with
    | none, _, ht =>
      exact (hA.notLimit ⟨by rw [hnext]; exact ht.none rfl, by rw [hrem']; exact hl.pos⟩).elim
    | some (i, true), hk, ht =>
      obtain ⟨h1, h2, h3, h4⟩ := ht.tick i true rfl
      rw [hx, if_pos rfl] at h4
      have : i = A.pool.currentTickIndex := by
        by_contra hne
        have := priceOf_lt h2.min hi.agree.grid.max (by omega : i < A.pool.currentTickIndex)
        have := hl.price
        omega
      rw [this, hl.empty] at h3
      cases h3
    | some (i, false), hk, ht =>
      obtain ⟨h1, h2, h3, h4⟩ := ht.tick i false rfl
      rw [hx, if_pos rfl] at h4
      have hii : i = A.pool.currentTickIndex := by
        by_contra hne
        have := priceOf_lt h2.min hi.agree.grid.max (by omega : i < A.pool.currentTickIndex)
        have := hl.price
        omega
      simp only [limitingTick] at hk
      cases hk
      have hres := hA.res
      have hu := hA.upd
      rw [hsq] at hu
      cases hu with
      | inside hc =>
        rcases hc with h | h
        · cases h
        · exact absurd hnext.symm h
      | cross h => cases h
      | dust h => cases h
      | drop h => cases h
      | done h => cases h
      | uninit h hp he =>
        rename_i i' enough
        cases h
        rw [hb, hx, hrem', hnext, hcur, hl.few] at he
        cases he
        subst hii
        have hpool' : A'.pool = A.pool := by rw [hres]; simp
        refine ⟨⟨?_, ?_, ?_, ?_⟩, hpool', by rw [hres]; dsimp only; omega, by rw [hres]; dsimp only; omega⟩
        · rw [hres]; dsimp only; have := hl.pos; omega
        · rw [hpool', hres]; dsimp only; rw [hrem']; exact hl.few
        · rw [hpool']; exact hl.price
        · rw [hpool']; exact hl.empty
  right
  rcases (F.nextIn rfl).2 with ⟨h1, h2⟩ | ⟨h1, h2⟩
  · right
    have hclose : ¬ target + 10 ^ 12 ≤ A.pool.sqrtPrice := by
      intro hc
      rw [hd, inAmt, if_pos rfl] at h1
      have := nextX_lt (Nat.pos_of_ne_zero hL) hc (F.dTarget rfl hside.2) h1
      omega
    have hinfo : info = none := by
      match info, ht with
      | none, _ => rfl
      | some (i, b), ht =>
        exfalso
        obtain ⟨g1, g2, -, g4⟩ := ht.tick i b rfl
        rw [hx, if_pos rfl] at g4
        have hp := hl.price
        have hlt : i < A.pool.currentTickIndex := by
          by_contra hne
          have : i = A.pool.currentTickIndex := by omega
          rw [this] at g1
          exact hcur (by rw [g1, hp])
        have := priceOf_step g2.min hi.agree.grid.max hlt
        rw [← g1, ← hp] at this
        exact hclose this
    have htl := ht.none hinfo
    have hz : rem = 0 := by
      by_contra hne
      exact hA.notLimit ⟨by rw [h2, htl], hne⟩
    have i1 := F.inEq
    have f1 := F.feeEq
    rw [hd, inAmt, if_pos rfl, h2, htl] at i1
    rw [if_neg (by simp [h2]), i1] at f1
    rw [h2, htl] at out
    refine ⟨rem_zero hA hz, by omega, by omega, ?_, ?_⟩
    · rw [hA.res]; dsimp only; omega
    · rw [hA.res]; dsimp only; omega
  · left
    rw [hd] at h2
    unfold getNextSqrtPriceFromInput at h2
    rw [if_pos rfl] at h2
    have h3 := (getNextSqrtPriceXUp_add_ok h2).1
    rw [hfew] at h3
    have hne : r.nextSqrtPrice ≠ target := by rw [h3]; exact fun e => hcur e.symm
    have := step_done_in hL hstep hne
    rw [h3, dyDown_self] at out
    exact ⟨rem_zero hA (by omega), by rw [hA.res]; dsimp only; omega⟩

/-- the exact output goes to the close limit as well -/
theorem past_iter (h : Modes a b) (hw : StoreWF s) (hs : Spacing a.key.feeTier.tickSpacing)
    (hg : Grid a.key.feeTier.tickSpacing A.pool.currentTickIndex) (hj : SwapSide b start B) (hl : Stuck s a A)
    (hp : Past O A B) (h0 : B.remaining ≠ 0) (hclose : A.pool.sqrtPrice < a.limit + 10 ^ 12)
    (hO : O = A.totalOut + dyDown A.pool.sqrtPrice a.limit A.pool.liquidity) (hB : swapIter s b B = .ok B') :
    B'.remaining = 0 ∧ B'.totalOut = O ∧
    B'.totalIn ≤ A.totalIn + (dxUp A.pool.sqrtPrice a.limit A.pool.liquidity +
        cdiv (dxUp A.pool.sqrtPrice a.limit A.pool.liquidity * a.key.feeTier.fee) (10 ^ 12)) := by
  obtain ⟨hL, -⟩ := enough_false hl.few
  obtain ⟨target, info, r, rem, p, tick, u, hB⟩ := swapIter_ok hB
  have ht := iter_target hw (by rw [h.key]; exact hs) hj.agree (side_limit hj h0) hB.limit
  have hside := ht.side
  rw [h.xToY', if_pos rfl, h.limit, hp.price] at hside
  have hinfo : info = none := by
    match info, ht with
    | none, _ => rfl
    | some (i, b), ht =>
      exfalso
      obtain ⟨g1, g2, -, g4⟩ := ht.tick i b rfl
      rw [h.xToY', if_pos rfl] at g4
      have := priceOf_step g2.min hg.max (lt_of_le_of_lt g4 hp.tick)
      rw [← g1, ← hl.price] at this
      omega
  have htl := ht.none hinfo
  rw [h.limit] at htl
  have hstep := hB.step
  rw [h.byOut, hp.price, hp.liquidity, h.key, htl] at hstep
  rw [htl] at hside
  have F := computeSwapStep_ok hL hstep
  have hd : decide (A.pool.sqrtPrice ≥ a.limit) = true := by simpa using hside.2
  have lo := hp.out
  have ls := hp.sum
  have li := hp.inp
  have hnext := F.nextOut rfl
  rw [hd, outAmt, if_pos rfl] at hnext
  have e : r.nextSqrtPrice = a.limit := by
    rcases hnext with ⟨-, h⟩ | ⟨h, -⟩
    · exact h
    · omega
  have out := F.outEq
  rw [if_neg (by decide), hd, outAmt, if_pos rfl, e] at out
  have i1 := F.inEq
  have f1 := F.feeEq
  rw [hd, inAmt, if_pos rfl, e] at i1
  rw [if_neg (by simp), i1] at f1
  have hrem := hB.rem
  rw [h.byOut, if_neg (by decide)] at hrem
  have u0 : u.total = 0 := by
    have := h.byOut
    cases hB.upd <;> simp_all
  have hout : r.amountOut = B.remaining := by
    rw [out]
    exact min_eq_right (by omega)
  refine ⟨rem_zero hB (by omega), ?_, ?_⟩
  · rw [hB.res]; dsimp only; omega
  · rw [hB.res]; dsimp only; omega

/-- the exact output for the proceeds of the exact input costs at most eight units more -/
theorem loop_twin (h : Modes a b) (hw : StoreWF s) (hs : Spacing a.key.feeTier.tickSpacing) :
    ∀ n m A B A' B', SwapSide a start A → SwapSide b start' B → (Par O A B ∨ (Stuck s a A ∧ Past O A B)) →
      swapLoop s a n A = some (.ok A') → A'.totalOut = O → swapLoop s b m B = some (.ok B') →
      B'.totalOut = O ∧ B'.totalIn ≤ A'.totalIn + 8 := by
  have hs' : Spacing b.key.feeTier.tickSpacing := by rw [h.key]; exact hs
  intro n
  induction n with
  | zero => intro m A B A' B' _ _ _ h; simp [swapLoop] at h
  | succ n ih =>
    intro m A B A' B' hi hj hrel hA hO hB
    have hon := loop_onward hw hs hi hA
    have stop : ∀ {m : Nat} {B1 : SwapState}, swapLoop s b m B1 = some (.ok B') → B1.remaining = 0 → B' = B1 := by
      intro m B1 h1 h2
      cases m with
      | zero => simp [swapLoop] at h1
      | succ m => rw [swapLoop, if_pos h2] at h1; cases h1; rfl
    have basic : B.totalOut = A.totalOut ∧ B.totalIn ≤ A.totalIn ∧ B.totalOut + B.remaining = O := by
      rcases hrel with g | ⟨-, g⟩
      · exact ⟨g.out, g.inp, g.sum⟩
      · exact ⟨g.out, g.inp, g.sum⟩
    obtain ⟨lo, li, ls⟩ := basic
    have oi := hon.inp
    by_cases hB0 : B.remaining = 0
    · rw [stop hB hB0]
      omega
    have h0 : A.remaining ≠ 0 := by
      intro h0
      rw [swapLoop, if_pos h0] at hA
      cases hA
      omega
    cases m with
    | zero => simp [swapLoop] at hB
    | succ m =>
      have hB' := hB
      rw [swapLoop, if_neg h0] at hA
      rw [swapLoop, if_neg hB0] at hB
      cases hA1 : swapIter s a A with
      | error e => rw [hA1] at hA; simp at hA
      | ok A1 =>
        cases hB1 : swapIter s b B with
        | error e => rw [hB1] at hB; simp at hB
        | ok B1 =>
          rw [hA1] at hA
          rw [hB1] at hB
          dsimp only at hA hB
          have sA := iter_side hw hs hi h0 hA1
          have sB := iter_side hw hs' hj hB0 hB1
          have on1 := loop_onward hw hs sA hA
          have o1 := on1.out
          have i1 := on1.inp
          have fin : A1.remaining = 0 → A1 = A' := by
            intro hz
            cases n with
            | zero => simp [swapLoop] at hA
            | succ n => rw [swapLoop, if_pos hz] at hA; cases hA; rfl
          rcases hrel with g | ⟨g, g'⟩
          · rcases iter_twin h hw hs hi h0 g hA1 hB1 (by omega) (fun hz => by rw [fin hz]; exact hO) with
              h2 | h2 | h2
            · have h3 := h2.inp
              rw [stop hB h2.rem]
              exact ⟨h2.out, by omega⟩
            · exact ih m _ _ _ _ sA sB (.inl h2) hA hO hB
            · exact ih m _ _ _ _ sA sB (.inr h2) hA hO hB
          · rcases stuck_iter hw hs h.byIn h.xToY hi g hA1 with ⟨k1, k2, k3, k4⟩ | ⟨k1, k2⟩ | ⟨k1, k2, k3, k4, k5⟩
            · refine ih (m + 1) _ _ _ _ sA hj (.inr ⟨k1, ?_⟩) hA hO hB'
              exact ⟨by rw [k2]; exact g'.price, by rw [k2]; exact g'.liquidity, by rw [k2]; exact g'.tick, by omega,
                by omega, ls⟩
            · rw [fin k1] at k2
              omega
            · rw [fin k1] at k4 k5
              obtain ⟨q1, q2, q3⟩ := past_iter h hw hs hi.agree.grid hj g g' hB0 k3 (by omega) hB1
              rw [stop hB q1]
              exact ⟨q2, by omega⟩

variable {k : PoolKey} {amount limit n m : Nat} {r r' : CalculateSwapResult}

theorem calculate_twin (hr : Reach s) (hlim : 10 ^ 24 < limit)
    (h1 : calculateSwap s n k true amount true limit = .ok r)
    (h2 : calculateSwap s m k true r.amountOut false limit = .ok r') :
    r'.amountOut = r.amountOut ∧ r'.amountIn ≤ r.amountIn + 8 := by
  obtain ⟨p, st, hp, _, l1, l2, hl, _, rfl⟩ := calculateSwap_ok h1
  obtain ⟨q, st', hq, _, l3, l4, hl', _, rfl⟩ := calculateSwap_ok h2
  rw [hp] at hq
  cases hq
  have ht := ((reach_tiers hr).pools k (by rw [hp]; rfl)).1
  have hs : Spacing k.feeTier.tickSpacing := ⟨ht.1, ht.2.1⟩
  have side : ∀ {byIn : Bool} {n x : Nat}, SwapSide ⟨k, true, byIn, limit, n⟩ p.sqrtPrice
      { pool := p, ticks := [], remaining := x, totalIn := 0, totalOut := 0, fee := 0 } := by
    intro byIn n x
    exact ⟨reach_agree s hr k p hp, by simp, by simpa using .inl (l1 rfl).1.le⟩
  exact loop_twin (a := ⟨k, true, true, limit, n⟩) (b := ⟨k, true, false, limit, m⟩)
    ⟨rfl, rfl, rfl, rfl, rfl, rfl, hlim⟩ (reach_wf s hr) hs _ _
    { pool := p, ticks := [], remaining := amount, totalIn := 0, totalOut := 0, fee := 0 }
    { pool := p, ticks := [], remaining := st.totalOut, totalIn := 0, totalOut := 0, fee := 0 } _ _
    side side (.inl ⟨⟨rfl, rfl, rfl⟩, rfl, le_rfl, by simp⟩) hl rfl hl'

end Twin
end Verif
