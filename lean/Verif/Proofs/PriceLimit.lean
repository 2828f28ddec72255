import Verif.Proofs.MoreSwap
import Verif.Proofs.SwapSim
import Verif.Proofs.Claim
import Verif.Proofs.SwapAccept

/-! # A swap that does not come to its price limit, with a limit further away -/

set_option exponentiation.threshold 1000

namespace Verif
open Service Spec

variable {s : Inv} {a : SwapArgs} {start : Nat}

/-! ## The amounts between two prices always fit -/

theorem dxNum_le_liq {p q : Nat} (hp : PriceOK p) (hq : PriceOK q) (L : Nat) :
    dxNum p q L ≤ L * (p * q / 10 ^ 24) := by
  have h1 : absDiff p q * (15 * 10 ^ 18) ≤ p * q := by
    have h1 : (15 * 10 ^ 18 : Nat) ≤ p := le_trans (by norm_num [MIN_SQRT_PRICE]) hp.1
    have h2 : (15 * 10 ^ 18 : Nat) ≤ q := le_trans (by norm_num [MIN_SQRT_PRICE]) hq.1
    rcases le_total p q with h | h
    · rw [absDiff_of_le h, Nat.mul_comm p q]
      exact Nat.mul_le_mul (Nat.sub_le _ _) h1
    · rw [absDiff_of_ge h]
      exact Nat.mul_le_mul (Nat.sub_le _ _) h2
  have h2 : p * q < (p * q / 10 ^ 24 + 1) * 10 ^ 24 := lt_div_add_one_mul _ (by positivity)
  have h3 : dxNum p q L * 10 ^ 5 ≤ absDiff p q * L := by rw [dxNum_def]; exact Nat.div_mul_le_self _ _
  have hD : 2 ≤ p * q / 10 ^ 24 := by
    rw [Nat.le_div_iff_mul_le (by positivity)]
    exact le_trans (by norm_num [MIN_SQRT_PRICE]) (Nat.mul_le_mul hp.1 hq.1)
  generalize p * q / 10 ^ 24 = D at *
  have h4 : dxNum p q L * (15 * 10 ^ 23) ≤ L * (D + 1) * 10 ^ 24 := by
    calc dxNum p q L * (15 * 10 ^ 23) = dxNum p q L * 10 ^ 5 * (15 * 10 ^ 18) := by ring
      _ ≤ absDiff p q * L * (15 * 10 ^ 18) := Nat.mul_le_mul_right _ h3
      _ = absDiff p q * (15 * 10 ^ 18) * L := by ring
      _ ≤ p * q * L := Nat.mul_le_mul_right _ h1
      _ ≤ (D + 1) * 10 ^ 24 * L := Nat.mul_le_mul_right _ h2.le
      _ = _ := by ring
  have h5 : 2 * L ≤ L * D := by rw [Nat.mul_comm]; exact Nat.mul_le_mul_left _ hD
  rw [Nat.mul_add, Nat.mul_one] at h4
  generalize dxNum p q L = N at *
  generalize L * D = Z at *
  omega

theorem getDeltaX_full {p q L : Nat} (hp : PriceOK p) (hq : PriceOK q) (hL : L < 2 ^ 256) (up : Bool) :
    ∃ x, getDeltaX p q L up = .ok x := by
  have h := dxNum_le_liq hp hq L
  have hD : 0 < p * q / 10 ^ 24 :=
    Nat.div_pos (le_trans (by norm_num [MIN_SQRT_PRICE]) (Nat.mul_le_mul hp.1 hq.1)) (by positivity)
  have h4 : dxNum p q L ≤ (2 ^ 256 - 1) * (p * q / 10 ^ 24) :=
    h.trans (Nat.mul_le_mul_right _ (Nat.le_sub_one_of_lt hL))
  have h7 : dxNum p q L * spOne ≤ (2 ^ 256 - 1) * spOne * (p * q / 10 ^ 24) := by
    calc _ ≤ (2 ^ 256 - 1) * (p * q / 10 ^ 24) * spOne := Nat.mul_le_mul_right _ h4
      _ = _ := by ring
  have ha := hp.lt128
  have hb := hq.lt128
  cases up
  · rw [getDeltaX_down ha hb hL (by omega)]
    have h8 : dxDown p q L < 2 ^ 256 := by
      refine lt_of_le_of_lt (dxDown_le_dxUp L hD) ?_
      rw [dxUp_def]; exact lt_of_le_of_lt ((cdiv_le_iff hD).2 h4) (by norm_num)
    have h9 : dxNum p q L * spOne / cdiv (p * q) (10 ^ 24) < 2 ^ 384 := by
      refine lt_of_le_of_lt (Nat.div_le_div_left (div_le_cdiv _ _) hD) ?_
      refine lt_of_le_of_lt (Nat.div_le_of_le_mul (n := (2 ^ 256 - 1) * spOne) ?_) ?_
      · rw [Nat.mul_comm (p * q / 10 ^ 24)]; exact h7
      · norm_num [spOne]
    rw [if_pos h9, fit_eq h8]
    exact ⟨_, rfl⟩
  · rw [getDeltaX_up ha hb hL (by omega)]
    have h8 : dxUp p q L < 2 ^ 256 := by
      rw [dxUp_def]; exact lt_of_le_of_lt ((cdiv_le_iff hD).2 h4) (by norm_num)
    have h9 : cdiv (dxNum p q L * spOne) (p * q / 10 ^ 24) + (spOne - 1) < 2 ^ 384 := by
      have : cdiv (dxNum p q L * spOne) (p * q / 10 ^ 24) ≤ (2 ^ 256 - 1) * spOne :=
        (cdiv_le_iff hD).2 h7
      refine lt_of_le_of_lt (Nat.add_le_add_right this _) (by norm_num [spOne])
    rw [if_pos h9, fit_eq h8]
    exact ⟨_, rfl⟩

theorem getIn_full {p q L : Nat} (hp : PriceOK p) (hq : PriceOK q) (hL : L < 2 ^ 256) (d : Bool) :
    (if d = true then getDeltaX q p L true else getDeltaY p q L true) = .ok (inAmt d p q L) := by
  have key : ∃ x, (if d = true then getDeltaX q p L true else getDeltaY p q L true) = .ok x := by
    cases d
    · simp only [Bool.false_eq_true, if_false]
      rw [(C03_amount_y hp.lt128 hq.lt128 hL).1, if_pos]
      · exact ⟨_, rfl⟩
      · exact lt_of_le_of_lt (Nat.ceil_le.2 (amountY_le_liq hp hq L)) hL
    · exact getDeltaX_full hq hp hL true
  obtain ⟨x, hx⟩ := key
  rw [hx, (getIn_ok hx).1]

theorem getOut_full {p q L : Nat} (hp : PriceOK p) (hq : PriceOK q) (hL : L < 2 ^ 256) (d : Bool) :
    (if d = true then getDeltaY q p L false else getDeltaX p q L false) = .ok (outAmt d p q L) := by
  have key : ∃ x, (if d = true then getDeltaY q p L false else getDeltaX p q L false) = .ok x := by
    cases d
    · exact getDeltaX_full hp hq hL false
    · simp only [if_true]
      rw [(C03_amount_y hq.lt128 hp.lt128 hL).2, if_pos]
      · exact ⟨_, rfl⟩
      · have h1 : ⌊amountY q p L⌋₊ ≤ L := by
          have := Nat.floor_le (amountY_nonneg q p L)
          exact_mod_cast le_trans this (amountY_le_liq hq hp L)
        exact lt_of_le_of_lt h1 hL
  obtain ⟨x, hx⟩ := key
  rw [hx, (getOut_ok hx).1]

/-! ## One step -/

theorem dyUp_up {p n t : Nat} (L : Nat) (h1 : p ≤ n) (h2 : n ≤ t) : dyUp p n L ≤ dyUp p t L := by
  rw [dyUp_def, dyUp_def, absDiff_of_le h1, absDiff_of_le (h1.trans h2)]
  exact cdiv_mono (Nat.mul_le_mul_right _ (by omega))

/-- a step that stops before its target, with a target further away -/
theorem step_further {cur ta tb L x fee : Nat} {byIn : Bool} {r : SwapResult} (hL0 : L ≠ 0) (hL : L < 2 ^ 256)
    (hc : PriceOK cur) (ht : PriceOK tb) (h : computeSwapStep cur ta L x byIn fee = .ok r)
    (ha : r.nextSqrtPrice ≠ ta) (hb : r.nextSqrtPrice ≠ tb) (hd : decide (cur ≥ tb) = decide (cur ≥ ta))
    (hin : byIn = true → inAmt (decide (cur ≥ ta)) cur ta L ≤ inAmt (decide (cur ≥ ta)) cur tb L)
    (hout : byIn = false → outAmt (decide (cur ≥ ta)) cur ta L ≤ outAmt (decide (cur ≥ ta)) cur tb L) :
    computeSwapStep cur tb L x byIn fee = .ok r := by
  unfold computeSwapStep at h ⊢
  rw [if_neg hL0] at h ⊢
  rw [hd]
  have gi := getIn_full hc ht hL (decide (cur ≥ ta))
  have go := getOut_full hc ht hL (decide (cur ≥ ta))
  generalize decide (cur ≥ ta) = d at *
  simp only [bind_ok_iff, pure_ok_iff] at h ⊢
  obtain ⟨⟨n, i, o⟩, h1, ain, h2, aout, h3, f, h4, h5⟩ := h
  subst h5
  dsimp only at ha hb h2 h3 h4
  cases byIn
  · simp only [Bool.false_eq_true, if_false, bind_ok_iff, pure_ok_iff, Prod.mk.injEq] at h1
    obtain ⟨⟨n', o'⟩, h1, rfl, rfl, rfl⟩ := h1
    have g : stepByOut cur tb L x d = .ok (n', outAmt d cur tb L) := by
      unfold stepByOut at h1 ⊢
      simp only [bind_ok_iff, pure_ok_iff, Prod.mk.injEq] at h1
      obtain ⟨o1, h6, n1, h7, rfl, rfl⟩ := h1
      have e := (getOut_ok h6).1
      split at h7
      · cases h7; exact absurd rfl ha
      · rw [go, ok_bind, if_neg (by have := hout rfl; omega), h7]
        rfl
    refine ⟨(n', 0, outAmt d cur tb L), ?_, ain, ?_, aout, ?_, f, ?_, rfl⟩
    · simp only [Bool.false_eq_true, if_false, bind_ok_iff, pure_ok_iff]
      exact ⟨_, g, rfl⟩
    · simpa using h2
    · rw [if_pos (by simp [Ne.symm ha])] at h3
      rw [if_pos (by simp [Ne.symm hb])]
      exact h3
    · simpa using h4
  · simp only [if_true, bind_ok_iff, pure_ok_iff, Prod.mk.injEq] at h1
    obtain ⟨⟨n', i'⟩, h1, rfl, rfl, rfl⟩ := h1
    have g : stepByIn cur tb L x fee d = .ok (n', inAmt d cur tb L) := by
      unfold stepByIn at h1 ⊢
      simp only [bind_ok_iff, pure_ok_iff, Prod.mk.injEq] at h1
      obtain ⟨k, h5, y, h6, i1, h7, n1, h8, rfl, rfl⟩ := h1
      have e := (getIn_ok h7).1
      split at h8
      · cases h8; exact absurd rfl ha
      · rw [h5, ok_bind, h6, ok_bind, gi, ok_bind, if_neg (by have := hin rfl; omega), h8]
        rfl
    refine ⟨(n', inAmt d cur tb L, 0), ?_, ain, ?_, aout, ?_, f, ?_, rfl⟩
    · simp only [if_true, bind_ok_iff, pure_ok_iff]
      exact ⟨_, g, rfl⟩
    · rw [if_pos (by simp [Ne.symm ha])] at h2
      rw [if_pos (by simp [Ne.symm hb])]
      exact h2
    · simpa using h3
    · rw [if_pos (by simp [ha])] at h4
      rw [if_pos (by simp [hb])]
      exact h4

/-! ## One round -/

/-- `lb` is at least as far as `la` -/
def Further (xToY : Bool) (la lb : Nat) : Prop := if xToY then lb ≤ la else la ≤ lb

/-- the price `p` is strictly before the limit `l` -/
def Before (xToY : Bool) (p l : Nat) : Prop := if xToY then l < p else p < l

theorem closer_further {tm : Tickmap} {la lb ta : Nat} {xToY : Bool} {cur : Int} {sp : Nat} {key : PoolKey}
    {info : Option (Int × Bool)} (hf : Further xToY la lb)
    (h : getCloserLimit tm la xToY cur sp key = .ok (ta, info)) :
    ∃ tb info', getCloserLimit tm lb xToY cur sp key = .ok (tb, info') ∧
      ((tb = ta ∧ info' = info) ∨ (info = none ∧ ta = la ∧ Further xToY la tb)) := by
  have key : ∀ q : Nat, (xToY = true ∧ q > la ∨ xToY = false ∧ q < la) ∨ Further xToY la q := by
    intro q
    unfold Further
    cases xToY <;> simp <;> omega
  have up : ∀ q : Nat, (xToY = true ∧ q > la ∨ xToY = false ∧ q < la) →
      (xToY = true ∧ q > lb ∨ xToY = false ∧ q < lb) := by
    intro q
    unfold Further at hf
    cases xToY <;> simp at hf ⊢ <;> omega
  unfold getCloserLimit at h ⊢
  simp only [bind_ok_iff] at h ⊢
  obtain ⟨c, h1, h2⟩ := h
  have main : ∀ (q : Nat) (v : Int × Bool), (if xToY = true ∧ q > la ∨ xToY = false ∧ q < la then
        (pure (q, some v) : M (Nat × Option (Int × Bool))) else pure (la, none)) = .ok (ta, info) →
      ∃ tb info', (if xToY = true ∧ q > lb ∨ xToY = false ∧ q < lb then
        (pure (q, some v) : M (Nat × Option (Int × Bool))) else pure (lb, none)) = .ok (tb, info') ∧
        ((tb = ta ∧ info' = info) ∨ (info = none ∧ ta = la ∧ Further xToY la tb)) := by
    intro q v h
    by_cases hq : xToY = true ∧ q > la ∨ xToY = false ∧ q < la
    · rw [if_pos hq] at h
      rw [if_pos (up q hq)]
      cases h
      exact ⟨_, _, rfl, .inl ⟨rfl, rfl⟩⟩
    · rw [if_neg hq] at h
      cases h
      by_cases hq' : xToY = true ∧ q > lb ∨ xToY = false ∧ q < lb
      · rw [if_pos hq']
        exact ⟨_, _, rfl, .inr ⟨rfl, rfl, (key q).resolve_left hq⟩⟩
      · rw [if_neg hq']
        exact ⟨_, _, rfl, .inr ⟨rfl, rfl, hf⟩⟩
  cases c with
  | some i =>
    simp only [bind_ok_iff] at h2
    obtain ⟨q, h3, h4⟩ := h2
    obtain ⟨tb, info', h5, h6⟩ := main q _ h4
    refine ⟨tb, info', ⟨_, h1, ?_⟩, h6⟩
    simp only [bind_ok_iff]
    exact ⟨q, h3, h5⟩
  | none =>
    simp only [bind_ok_iff] at h2
    obtain ⟨q, h3, u, h7, h4⟩ := h2
    obtain ⟨tb, info', h5, h6⟩ := main q _ h4
    refine ⟨tb, info', ⟨_, h1, ?_⟩, h6⟩
    simp only [bind_ok_iff]
    exact ⟨q, h3, u, h7, h5⟩

theorem iter_further {lb : Nat} {A A' : SwapState} (hw : StoreWF s) (hs : Spacing a.key.feeTier.tickSpacing)
    (hm : a.byIn = true ∨ a.xToY = true) (hi : SwapSide a start A) (h0 : A.remaining ≠ 0)
    (hL : A.pool.liquidity < 2 ^ 256) (hfee : A.fee ≤ A.totalIn) (hf : Further a.xToY a.limit lb)
    (hb : Before a.xToY A'.pool.sqrtPrice a.limit) (h : swapIter s a A = .ok A') :
    swapIter s { a with limit := lb } A = .ok A' := by
  obtain ⟨ta, info, r, rem, pool, tick, u, h⟩ := swapIter_ok h
  have hside := side_limit hi h0
  have hta := iter_target hw hs hi.agree hside h.limit
  have hfit : A.fee + r.feeAmount < 2 ^ 256 := by have := h.inFits; omega
  rw [iterOk_price h] at hb
  have hnlb : r.nextSqrtPrice ≠ lb := by
    rintro rfl
    unfold Further at hf
    unfold Before at hb
    split at hf <;> simp_all <;> omega
  obtain ⟨tb, info', hc, hcase⟩ := closer_further hf h.limit
  rcases hcase with ⟨rfl, rfl⟩ | ⟨rfl, e, hfar⟩
  · exact swapIter_intro (a := { a with limit := lb })
      { limit := hc, step := h.step, rem := h.rem, fee := h.fee, notLimit := fun e => hnlb e.1, htick := h.htick,
        upd := h.upd, notTickLimit := h.notTickLimit, inFits := h.inFits, outFits := h.outFits, res := h.res } hfit
  have hsideb : if a.xToY then lb ≤ A.pool.sqrtPrice else A.pool.sqrtPrice ≤ lb := by
    unfold Further at hf
    split at hf <;> simp_all <;> omega
  have htb := iter_target (a := { a with limit := lb }) hw hs hi.agree hsideb hc
  have hbs := htb.side
  dsimp only at hbs
  have hn := (iter_next (remaining := rem) hi.agree.price hta h.step h.rem).side
  have hna : r.nextSqrtPrice ≠ ta := by
    rw [e]
    unfold Before at hb
    split at hb <;> omega
  have hnb : r.nextSqrtPrice ≠ tb := by
    unfold Further at hfar
    unfold Before at hb
    split at hb <;> simp_all <;> omega
  have hL0 : A.pool.liquidity ≠ 0 := by
    intro hz
    have := h.step
    rw [hz, computeSwapStep_zero] at this
    cases this
    exact hna rfl
  have hstep : computeSwapStep A.pool.sqrtPrice tb A.pool.liquidity A.remaining a.byIn a.key.feeTier.fee = .ok r := by
    have hp := hi.agree.price
    have d0 : 0 < A.pool.sqrtPrice * tb / 10 ^ 24 :=
      Nat.div_pos (le_trans (by norm_num [MIN_SQRT_PRICE]) (Nat.mul_le_mul hp.1 htb.price.1)) (by positivity)
    unfold Further at hfar
    unfold Before at hb
    rw [← e] at hfar hb
    cases hx : a.xToY
    · simp only [hx, Bool.false_eq_true, if_false] at hfar hb hn hbs
      have d1 : decide (A.pool.sqrtPrice ≥ ta) = false := by
        simp only [ge_iff_le, decide_eq_false_iff_not]; omega
      have d2 : decide (A.pool.sqrtPrice ≥ tb) = false := by
        simp only [ge_iff_le, decide_eq_false_iff_not]; omega
      refine step_further hL0 hL hp htb.price h.step hna hnb (by rw [d1, d2]) ?_ ?_
      · intro _
        rw [d1, inAmt_false, inAmt_false]
        exact dyUp_up _ (by omega) hfar
      · intro hby
        simp [hx, hby] at hm
    · simp only [hx, if_true] at hfar hb hn hbs
      have d1 : decide (A.pool.sqrtPrice ≥ ta) = true := by
        simp only [ge_iff_le, decide_eq_true_eq]; omega
      have d2 : decide (A.pool.sqrtPrice ≥ tb) = true := by
        simp only [ge_iff_le, decide_eq_true_eq]; omega
      refine step_further hL0 hL hp htb.price h.step hna hnb (by rw [d1, d2]) ?_ ?_
      · intro _
        rw [d1, inAmt_true, inAmt_true]
        exact dxUp_down hfar (by omega) d0
      · intro _
        rw [d1, outAmt, if_pos rfl, outAmt, if_pos rfl]
        exact dyDown_down hfar (by omega)
  obtain ⟨tick', ht'⟩ := limiting_total htb
  have hnt : tick = .noTick := by
    have := h.htick
    simp only [limitingTick] at this
    cases this
    rfl
  subst hnt
  have hres := h.res
  cases h.upd with
  | inside _ hidx =>
    refine swapIter_intro (a := { a with limit := lb })
      { limit := hc, step := hstep, rem := h.rem, fee := h.fee, notLimit := fun e => hnlb e.1, htick := ht',
        upd := .inside (.inr (Ne.symm hnb)) hidx, notTickLimit := h.notTickLimit, inFits := h.inFits,
        outFits := h.outFits, res := ?_ } hfit
    rw [hres]
    dsimp only
    cases tick' <;> simp
  | cross ht => cases ht
  | dust ht => cases ht
  | drop ht => cases ht
  | done ht => cases ht
  | uninit ht => cases ht

theorem loop_further {lb : Nat} (hw : StoreWF s) (hs : Spacing a.key.feeTier.tickSpacing)
    (hm : a.byIn = true ∨ a.xToY = true) (hf : Further a.xToY a.limit lb) :
    ∀ n A A', SwapSide a start A → A.pool.liquidity < 2 ^ 256 → A.fee ≤ A.totalIn →
      Before a.xToY A'.pool.sqrtPrice a.limit → swapLoop s a n A = some (.ok A') →
      swapLoop s { a with limit := lb } n A = some (.ok A') := by
  intro n
  induction n with
  | zero => intro A A' _ _ _ _ h; simp [swapLoop] at h
  | succ n ih =>
    intro A A' hi hL hfee hb h
    by_cases h0 : A.remaining = 0
    · rw [swapLoop, if_pos h0] at h ⊢
      exact h
    · rw [swapLoop, if_neg h0] at h ⊢
      cases h1 : swapIter s a A with
      | error e => rw [h1] at h; simp at h
      | ok A1 =>
        rw [h1] at h
        dsimp only at h
        have hi1 := iter_side hw hs hi h0 h1
        have hon := (loop_onward hw hs hi1 h).price
        have hb1 : Before a.xToY A1.pool.sqrtPrice a.limit := by
          unfold Before at hb ⊢
          split at hb <;> simp_all <;> omega
        rw [iter_further hw hs hm hi h0 hL hfee hf hb1 h1]
        exact ih _ _ hi1 (iter_liqLt h1 hL) (iter_fee_le h1 hfee).1 hb h

end Verif
