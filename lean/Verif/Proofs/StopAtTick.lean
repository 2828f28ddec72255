import Verif.Proofs.SwapAccept
import Verif.Proofs.AvgStep
import Verif.Proofs.SwapSim
import Verif.Proofs.Reasons
import Verif.Props.Amounts

/-! # A purchase of exactly the X below the next tick, with the limit at that tick, stops there -/

set_option exponentiation.threshold 1000

namespace Verif
open Service Spec

variable {s : Inv} {key : PoolKey}

/-- the limit at the next initialised tick is the target -/
theorem closer_at_next (hw : StoreWF s) (hs : Spacing key.feeTier.tickSpacing) {cur i : Int}
    (hc : Grid key.feeTier.tickSpacing cur) (hi : (s.ticks.get (key, i)).isSome) (h1 : cur < i)
    (h2 : i ≤ cur + 256 * key.feeTier.tickSpacing)
    (hgap : ∀ j, cur < j → j < i → s.ticks.get (key, j) = none) :
    getCloserLimit s.tickmap (priceOf i) false cur key.feeTier.tickSpacing key = .ok (priceOf i, none) := by
  have hgi := tick_grid hw hi
  obtain ⟨r, hr, f1, f2⟩ := nextInitialized_spec hw.wf hs.1 hc key
  have hbit : tmBit s.tickmap key (bitmapIndex i key.feeTier.tickSpacing) = true := by
    rw [hw.bit key i hs.1 hgi]; exact hi
  have e : r = some i := by
    cases r with
    | none => have := f2 rfl i hgi h1 h2; rw [hbit] at this; cases this
    | some u =>
      obtain ⟨gu, bu, lt, _, hmin⟩ := f1 u rfl
      have hu : (s.ticks.get (key, u)).isSome := by rw [← hw.bit key u hs.1 gu]; exact bu
      rcases lt_trichotomy u i with h | h | h
      · rw [hgap u lt h] at hu; cases hu
      · rw [h]
      · have := hmin i hgi h1 h; rw [hbit] at this; cases this
  rw [e] at hr
  unfold getCloserLimit
  rw [if_neg (by decide), hr, ok_bind]
  dsimp only
  rw [unwrap_eq (calculateSqrtPrice_eq hgi.2.1 hgi.2.2), ok_bind, if_neg (by simp)]
  rfl

private theorem out_at_next {p t L out : Nat} (ho : getDeltaX p t L false = .ok out) :
    stepByOut p t L out false = .ok (t, out) := by
  unfold stepByOut
  rw [if_neg (by decide), ho, ok_bind, if_pos (le_refl out)]
  rfl

private theorem dy_at_next {p t L : Nat} (hp : PriceOK p) (ht : PriceOK t)
    (hL : L < 2 ^ 256) (hy : dyUp p t L < 2 ^ 256) : getDeltaY p t L true = .ok (dyUp p t L) := by
  have hp' : p < 2 ^ 128 := lt_of_le_of_lt hp.2 (by norm_num [MAX_SQRT_PRICE])
  have ht' : t < 2 ^ 128 := lt_of_le_of_lt ht.2 (by norm_num [MAX_SQRT_PRICE])
  rw [getDeltaY_up hp' ht' hL]
  exact fit_ok_iff.2 ⟨hy, rfl⟩

private theorem step_of_parts {p t L out fee y f : Nat} (e : decide (p ≥ t) = false) (hL0 : L ≠ 0)
    (hs : stepByOut p t L out false = .ok (t, out)) (hdy : getDeltaY p t L true = .ok y)
    (hfee : tokMulPctUp y fee = .ok f) : computeSwapStep p t L out false fee = .ok ⟨t, y, out, f⟩ := by
  unfold computeSwapStep
  rw [if_neg hL0]
  simp only [e, hs, hdy, hfee, ok_bind, pure_bind, Bool.false_eq_true, if_false, ne_eq, not_true_eq_false, decide_false,
    Bool.not_false, Bool.or_true, if_true, Bool.or_false, gt_iff_lt, lt_irrefl, Bool.and_false, Bool.false_and]
  rfl

/-- the step takes the whole stretch -/
theorem step_at_next {p t L out fee : Nat} (hp : PriceOK p) (ht : PriceOK t) (hlt : p < t) (hL0 : L ≠ 0)
    (hL : L < 2 ^ 256) (hf : fee ≤ 10 ^ 12) (ho : getDeltaX p t L false = .ok out) (hy : dyUp p t L < 2 ^ 256) :
    computeSwapStep p t L out false fee =
      .ok ⟨t, dyUp p t L, out, cdiv (dyUp p t L * fee) (10 ^ 12)⟩ :=
  step_of_parts (decide_eq_false (by omega)) hL0 (out_at_next ho) (dy_at_next hp ht hL hy) (tokMulPctUp_eq hy hf)

private theorem one_round : ∃ k, swapFuel = k + 2 := ⟨2 ^ 129 - 2, by unfold swapFuel; norm_num⟩

/-- the loop ends after a round that leaves nothing -/
theorem calc_of_round {now amount limit : Nat} {x b : Bool} {pool : Pool} {st : SwapState}
    (h0 : swapStart s key x amount limit = .ok pool) (ha : amount ≠ 0)
    (h : swapIter s ⟨key, x, b, limit, now⟩ ⟨pool, [], amount, 0, 0, 0⟩ = .ok st) (hr : st.remaining = 0)
    (ho : st.totalOut ≠ 0) :
    calculateSwap s now key x amount b limit = .ok ⟨st.totalIn, st.totalOut, pool.sqrtPrice, st.pool.sqrtPrice,
      st.fee, st.pool, st.ticks⟩ := by
  obtain ⟨k, hk⟩ := one_round
  have hl : swapLoop s ⟨key, x, b, limit, now⟩ swapFuel ⟨pool, [], amount, 0, 0, 0⟩ = some (.ok st) := by
    rw [hk, swapLoop, if_neg ha, h]
    dsimp only
    rw [swapLoop, if_pos hr]
  unfold calculateSwap
  rw [h0, ok_bind, hl]
  simp only [Option.getD_some, ok_bind]
  rw [failIf_neg ho]
  rfl

private theorem fee_small {p t L fee : Nat} (hp : PriceOK p) (ht : PriceOK t) (hL0 : L ≠ 0) (hf : fee ≤ 10 ^ 12) :
    cdiv (dyUp p t L * fee) (10 ^ 12) * 10 ^ 33 < 2 ^ 128 * L := by
  have h1 : cdiv (dyUp p t L * fee) (10 ^ 12) ≤ dyUp p t L := by
    rw [cdiv_le_iff (by positivity)]
    exact Nat.mul_le_mul_left _ hf
  have h2 : dyUp p t L ≤ L := by
    rw [dyUp_def, cdiv_le_iff (by positivity), Nat.mul_comm]
    refine Nat.mul_le_mul_left _ ?_
    have := hp.2
    have := ht.2
    have h3 : MAX_SQRT_PRICE ≤ 10 ^ 29 := by norm_num [MAX_SQRT_PRICE]
    unfold absDiff
    split <;> omega
  have h3 : cdiv (dyUp p t L * fee) (10 ^ 12) * 10 ^ 33 ≤ L * 10 ^ 33 := Nat.mul_le_mul_right _ (h1.trans h2)
  have h4 : L * 10 ^ 33 < L * 2 ^ 128 := Nat.mul_lt_mul_of_pos_left (by norm_num) (Nat.pos_of_ne_zero hL0)
  exact lt_of_lt_of_eq (lt_of_le_of_lt h3 h4) (Nat.mul_comm _ _)

private theorem round_of_parts {now : Nat} {pool pool' : Pool} {j : Int} {P out y f : Nat}
    (hc : getCloserLimit s.tickmap P false pool.currentTickIndex key.feeTier.tickSpacing key = .ok (P, none))
    (hstep : computeSwapStep pool.sqrtPrice P pool.liquidity out false key.feeTier.fee = .ok ⟨P, y, out, f⟩)
    (hfee : pool.addFee f false s.protocolFee = .ok pool')
    (hj : getTickAtSqrtPrice P key.feeTier.tickSpacing = .ok j)
    (hmax : j < getMaxTick key.feeTier.tickSpacing) (hyf : y + f < 2 ^ 256) (hout : out < 2 ^ 256) :
    swapIter s ⟨key, false, false, P, now⟩ ⟨pool, [], out, 0, 0, 0⟩ =
      .ok ⟨{ pool' with sqrtPrice := P, currentTickIndex := j }, [], 0, y + f, out, f⟩ := by
  have hu : ({ pool' with sqrtPrice := P } : Pool).updateTick ⟨P, y, out, f⟩ P .noTick 0 false false now s.protocolFee
      key.feeTier = .ok ⟨{ pool' with sqrtPrice := P, currentTickIndex := j }, .noTick, 0, 0, false⟩ :=
    updateTick_intro (.inside (.inl rfl) hj)
  have a1 : addC 256 .panic y f = .ok (y + f) := addC_eq hyf
  have a2 : ∀ {x}, x < 2 ^ 256 → addC 256 .panic 0 x = .ok x := fun {x} h => by
    rw [addC_eq (by rw [Nat.zero_add]; exact h), Nat.zero_add]
  have a3 : addC 256 .panic (y + f) 0 = .ok (y + f) := addC_eq hyf
  have a4 : subC .panic out out = .ok 0 := by rw [subC_eq le_rfl, Nat.sub_self]
  have a5 := a2 hyf
  have a6 := a2 hout
  have a7 := a2 (x := f) (lt_of_le_of_lt (Nat.le_add_left _ _) hyf)
  have f1 : failIf (P = P ∧ (0 : Nat) ≠ 0) (.inv .PriceLimitReached) = .ok () := failIf_neg (by simp)
  have f2 : failIf ((false = true ∧ j ≤ getMaxTick key.feeTier.tickSpacing) ∨
     (True ∧ j ≥ getMaxTick key.feeTier.tickSpacing)) (.inv .TickLimitReached) = .ok () :=
    failIf_neg (by simp; omega)
  unfold swapIter
  dsimp only
  rw [hc, ok_bind]
  dsimp only
  rw [unwrap_eq hstep, ok_bind]
  dsimp only
  rw [a1, ok_bind, if_neg Bool.false_ne_true, a4, ok_bind, unwrap_eq hfee, ok_bind, a7, ok_bind, a5, ok_bind, a6, ok_bind,
    f1, ok_bind]
  simp only [limitingTick, ok_bind]
  rw [hu, ok_bind]
  dsimp only
  rw [a3, ok_bind]
  rw [if_neg Bool.false_ne_true, f2]
  rfl

/-- the round -/
theorem iter_at_next (hw : StoreWF s) {now : Nat} {pool : Pool} {i : Int} {out : Nat}
    (hs : Spacing key.feeTier.tickSpacing) (ha : TickAgree key.feeTier.tickSpacing pool)
    (hi : (s.ticks.get (key, i)).isSome) (h1 : pool.currentTickIndex < i)
    (h2 : i ≤ pool.currentTickIndex + 256 * key.feeTier.tickSpacing)
    (hgap : ∀ j, pool.currentTickIndex < j → j < i → s.ticks.get (key, j) = none)
    (hlast : i + key.feeTier.tickSpacing ≤ MAX_TICK) (hlt : pool.sqrtPrice < priceOf i)
    (hL0 : pool.liquidity ≠ 0) (hL : pool.liquidity < 2 ^ 256) (hf : key.feeTier.fee ≤ 10 ^ 12)
    (hpf : s.protocolFee ≤ 10 ^ 12)
    (ho : getDeltaX pool.sqrtPrice (priceOf i) pool.liquidity false = .ok out)
    (hroom : pool.feeProtocolTokenY + (dyUp pool.sqrtPrice (priceOf i) pool.liquidity +
      cdiv (dyUp pool.sqrtPrice (priceOf i) pool.liquidity * key.feeTier.fee) (10 ^ 12)) < 2 ^ 256) :
    ∃ st, swapIter s ⟨key, false, false, priceOf i, now⟩ ⟨pool, [], out, 0, 0, 0⟩ = .ok st ∧ st.remaining = 0 ∧
      st.totalOut = out ∧ st.pool.sqrtPrice = priceOf i ∧ st.ticks = [] ∧
      st.totalIn = dyUp pool.sqrtPrice (priceOf i) pool.liquidity +
        cdiv (dyUp pool.sqrtPrice (priceOf i) pool.liquidity * key.feeTier.fee) (10 ^ 12) := by
  have hgi := tick_grid hw hi
  have hpi : PriceOK (priceOf i) :=
    priceOK_of_tick (calculateSqrtPrice_eq hgi.2.1 hgi.2.2)
  have hout : out < 2 ^ 256 := (getDeltaX_ok ho).2.1
  have hstep := step_at_next ha.price hpi hlt hL0 hL hf ho (by omega)
  have hfit := fee_small (fee := key.feeTier.fee) ha.price hpi hL0 hf
  generalize dyUp pool.sqrtPrice (priceOf i) pool.liquidity = y at *
  generalize cdiv (y * key.feeTier.fee) (10 ^ 12) = f at *
  obtain ⟨pool', hfee⟩ := addFee_succeeds (p := pool) (amount := f) (inX := false) hpf (by omega) (.inr hfit)
    (by simp only [Bool.false_eq_true, if_false]; omega)
  obtain ⟨j, hj⟩ := getTick_total hs.1 hpi.1 hpi.2
  have hji : j = i := by
    obtain ⟨-, -, hlk⟩ := getTick_ok hs.1 hj
    have h3 := hlk.ge hgi le_rfl
    by_contra hne
    have h4 := priceOf_lt hgi.min hlk.le (by omega : i < j)
    have h5 := hlk.low (by have := hgi.min; omega)
    omega
  subst hji
  have hmax : j < getMaxTick key.feeTier.tickSpacing := by
    obtain ⟨m, hm⟩ := hgi.1
    have hs1 := hs.1
    have hg : Grid key.feeTier.tickSpacing (j + key.feeTier.tickSpacing) :=
      ⟨⟨m + 1, by rw [hm]; ring⟩, by have := hgi.2.1; omega, hlast⟩
    have := ((minTick_grid hs).2.2.2 _ hg).2
    omega
  refine ⟨⟨{ pool' with sqrtPrice := priceOf j, currentTickIndex := j }, [], 0, y + f, out, f⟩, ?_, rfl, rfl, rfl, rfl, rfl⟩
  exact round_of_parts (closer_at_next hw hs ha.grid hi h1 h2 hgap) hstep hfee hj hmax (by omega) hout

end Verif
