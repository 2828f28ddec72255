import Verif.Proofs.StepAccept
import Verif.Proofs.Active
import Verif.Proofs.SwapSim
import Verif.Props.ThinLiquidity
import Verif.Props.Terminate

/-! # An exact-input swap does not abort -/

set_option exponentiation.threshold 1000

namespace Verif
open Service Spec

variable {s : Inv} {a : SwapArgs} {st st' : SwapState}

theorem unwrap_eq {α : Type} {m : M α} {x : α} (h : m = .ok x) : unwrap m = .ok x := unwrap_ok_iff.2 h

/-- the search for the next limit succeeds unless the end of the grid is reached -/
theorem closer_total {tm : Tickmap} (hwf : TmWF tm) {sp : Nat} (hs : Spacing sp) {cur : Int}
    (hc : Grid sp cur) (key : PoolKey) (limit : Nat) (xToY : Bool) :
    (∃ r, getCloserLimit tm limit xToY cur sp key = .ok r) ∨
      getCloserLimit tm limit xToY cur sp key = .error (.inv .TickLimitReached) := by
  have hprice : ∀ u, Grid sp u → calculateSqrtPrice u = .ok (priceOf u) :=
    fun u hu => calculateSqrtPrice_eq hu.2.1 hu.2.2
  have hcl : ∃ c, (if xToY = true then prevInitialized tm cur sp key else nextInitialized tm cur sp key) = .ok c ∧
      ∀ u, c = some u → Grid sp u := by
    cases xToY
    · obtain ⟨r, hr, h1, -⟩ := nextInitialized_spec hwf hs.1 hc key
      exact ⟨r, hr, fun u hu => (h1 u hu).1⟩
    · obtain ⟨r, hr, h1, -⟩ := prevInitialized_spec (tm := tm) hs.1 hc key
      exact ⟨r, hr, fun u hu => (h1 u hu).1⟩
  obtain ⟨c, hcl, hg⟩ := hcl
  have hgl : Grid sp (getSearchLimit cur sp (!xToY)) := by
    obtain ⟨j, rfl, h1, h2⟩ := grid_coord hs.1 hc
    cases xToY
    · rw [show (!false) = true from rfl, getSearchLimit_up hs.1]
      exact coord_grid (by omega) (by omega)
    · rw [show (!true) = false from rfl, getSearchLimit_down hs.1]
      exact coord_grid (by omega) (by omega)
  unfold getCloserLimit
  rw [hcl, ok_bind]
  cases c with
  | some u =>
    left
    dsimp only
    rw [unwrap_eq (hprice u (hg u rfl)), ok_bind]
    split
    · exact ⟨_, rfl⟩
    · exact ⟨_, rfl⟩
  | none =>
    dsimp only
    rw [unwrap_eq (hprice _ hgl), ok_bind]
    by_cases he : cur = getSearchLimit cur sp (!xToY)
    · right
      unfold failIf
      rw [if_pos he]
      rfl
    · left
      rw [failIf_neg he, ok_bind]
      split
      · exact ⟨_, rfl⟩
      · exact ⟨_, rfl⟩

private theorem fgOne_mul (n : Nat) : n * fgOne * liqOne = n * 10 ^ 33 := by
  have : fgOne * liqOne = 10 ^ 33 := by decide
  rw [Nat.mul_assoc, this]

/-- a fee that is small compared with the liquidity can be booked -/
theorem addFee_succeeds {p : Pool} {amount pf : Nat} {inX : Bool} (hpf : pf ≤ 10 ^ 12)
    (ha : amount < 2 ^ 256) (hfit : p.liquidity = 0 ∨ amount * 10 ^ 33 < 2 ^ 128 * p.liquidity)
    (hroom : (if inX then p.feeProtocolTokenX else p.feeProtocolTokenY) + amount < 2 ^ 256) :
    ∃ p', p.addFee amount inX pf = .ok p' := by
  have hle : cdiv (amount * pf) (10 ^ 12) ≤ amount := by
    rw [cdiv_le_iff (by positivity)]
    exact Nat.mul_le_mul_left _ hpf
  unfold Pool.addFee
  rw [tokMulPctUp_eq ha hpf, ok_bind, subC_eq hle, ok_bind]
  generalize cdiv (amount * pf) (10 ^ 12) = k at *
  by_cases hc : (amount - k = 0 ∧ k = 0) ∨ p.liquidity = 0
  · rw [if_pos hc]; exact ⟨_, rfl⟩
  rw [if_neg hc]
  have hL : p.liquidity ≠ 0 := fun h => hc (Or.inr h)
  have hfit' := hfit.resolve_left hL
  have h1 : (amount - k) * fgOne * liqOne ≤ amount * 10 ^ 33 := by
    rw [fgOne_mul]
    exact Nat.mul_le_mul_right _ (Nat.sub_le _ _)
  have h2 : amount * 10 ^ 33 < 2 ^ 384 :=
    lt_of_lt_of_le (Nat.mul_lt_mul_of_pos_right ha (by positivity)) (by norm_num)
  have h3 : (amount - k) * fgOne ≤ (amount - k) * fgOne * liqOne :=
    Nat.le_mul_of_pos_right _ (by decide)
  have hg : ∃ g, fgFromFee p.liquidity (amount - k) = .ok g := by
    unfold fgFromFee
    simp only [bind_ok_iff, mulC_ok_iff, divC_ok_iff, fit_ok_iff]
    refine ⟨_, _, ⟨lt_of_le_of_lt (le_trans h3 h1) h2, rfl⟩, _, ⟨lt_of_le_of_lt h1 h2, rfl⟩, _,
      ⟨hL, rfl⟩, ?_, rfl⟩
    rw [Nat.div_lt_iff_lt_mul (Nat.pos_of_ne_zero hL)]
    exact lt_of_le_of_lt h1 hfit'
  obtain ⟨g, hg⟩ := hg
  rw [hg, ok_bind]
  cases inX with
  | true =>
    simp only [if_true] at hroom ⊢
    rw [addC_eq (lt_of_le_of_lt (Nat.add_le_add_left hle _) hroom)]
    exact ⟨_, rfl⟩
  | false =>
    simp only [Bool.false_eq_true, if_false] at hroom ⊢
    rw [addC_eq (lt_of_le_of_lt (Nat.add_le_add_left hle _) hroom)]
    exact ⟨_, rfl⟩

/-- an offer that does not move the price is small compared with the liquidity -/
theorem dust_fits {p L amount fee : Nat} (hp : PriceOK p) (hL0 : L ≠ 0) (hf : fee ≤ 10 ^ 12 - 10 ^ 7)
    (h : isEnoughAmountToChangePrice amount p L fee true true = .ok false) :
    amount * 10 ^ 33 < 2 ^ 128 * L := by
  refine fee_fit_part hf ?_
  unfold isEnoughAmountToChangePrice at h
  rw [if_neg hL0, if_pos rfl] at h
  simp only [bind_ok_iff, subC_ok_iff, pure_ok_iff, pctOne_eq] at h
  obtain ⟨n, ⟨_, ⟨_, rfl⟩, x, hx, hn⟩, e⟩ := h
  have hx := tokMulPct_ok hx
  rw [← hx]
  have hn : n = nextX true p L x := by
    unfold getNextSqrtPriceFromInput at hn
    rw [if_pos rfl] at hn
    exact (getNextSqrtPriceXUp_add_ok hn).1
  have e : nextX true p L x = p := by
    rw [← hn]
    have := of_decide_eq_false e
    push Not at this
    exact this.symm
  by_cases h0 : x = 0
  · rw [h0]; omega
  have ht := (tie_of_next hp (by rw [e]; exact hp) h0).2
  rw [e] at ht
  have hp19 : 10 ^ 19 ≤ p := le_trans (by norm_num [MIN_SQRT_PRICE]) hp.1
  have hm0 : 0 < p - 1 := by omega
  rw [amountX_eq hp.pos hm0, absDiff_of_ge (Nat.sub_le _ _)] at ht
  have e1 : p - (p - 1) = 1 := by omega
  rw [e1, Nat.one_mul] at ht
  have hle : ((L * 10 ^ 19 : Nat) : ℚ) / ((p * (p - 1) : Nat) : ℚ) ≤ L := by
    rw [div_le_iff₀ (by exact_mod_cast Nat.mul_pos hp.pos hm0)]
    have : L * 10 ^ 19 ≤ L * (p * (p - 1)) :=
      Nat.mul_le_mul_left _ (le_trans hp19 (Nat.le_mul_of_pos_right _ hm0))
    exact_mod_cast this
  have hlt : (x : ℚ) < ((L + 1 : Nat) : ℚ) := by
    push_cast
    linarith
  have : x < L + 1 := by exact_mod_cast hlt
  omega

/-- the limiting tick is stored -/
theorem limiting_total {pool : Pool} {target : Nat} {info : Option (Int × Bool)}
    (ht : IterTarget s a pool target info) : ∃ tick, limitingTick s a.key info = .ok tick := by
  match info, ht with
  | none, _ => exact ⟨_, rfl⟩
  | some (i, false), _ => exact ⟨_, rfl⟩
  | some (i, true), ht =>
    obtain ⟨-, -, h, -⟩ := ht.tick i true rfl
    obtain ⟨t, h⟩ := Option.isSome_iff_exists.1 h
    refine ⟨.initialized t, ?_⟩
    simp only [limitingTick, bind_ok_iff, pure_ok_iff]
    exact ⟨t, ticksGet_ok.2 h, rfl⟩

/-- the end of a round succeeds -/
theorem update_total (hw : StoreWF s) (hl : LedgerInv s) (hs : Spacing a.key.feeTier.tickSpacing)
    (hpf : s.protocolFee ≤ 10 ^ 12) (hf : a.byIn = true → a.key.feeTier.fee ≤ 10 ^ 12 - 10 ^ 7)
    {target remaining : Nat} {info : Option (Int × Bool)} {tick : UpdatePoolTick} {pool : Pool} {r : SwapResult}
    (ht : IterTarget s a st.pool target info) (htick : limitingTick s a.key info = .ok tick)
    (hL : st.pool.liquidity = activeLiq s a.key st.pool.currentTickIndex)
    (hact : ∀ t, activeLiq s a.key t < 2 ^ 256)
    (hpl : pool.liquidity = st.pool.liquidity) (hpc : pool.currentTickIndex = st.pool.currentTickIndex)
    (hnow : pool.startTimestamp ≤ a.now) (hn : PriceOK r.nextSqrtPrice) (hrem : remaining < 2 ^ 256)
    (he : target = r.nextSqrtPrice → info ≠ none →
      ∃ b, isEnoughAmountToChangePrice remaining r.nextSqrtPrice pool.liquidity a.key.feeTier.fee a.byIn a.xToY = .ok b)
    (hroom : a.byIn = true →
      (if a.xToY then pool.feeProtocolTokenX else pool.feeProtocolTokenY) + remaining < 2 ^ 256) :
    ∃ u, UpdateTickCase { pool with sqrtPrice := r.nextSqrtPrice } r target tick remaining a.byIn
      a.xToY a.now s.protocolFee a.key.feeTier u := by
  have hs1 := hs.1
  have inside : tick = .noTick ∨ target ≠ r.nextSqrtPrice →
      ∃ u, UpdateTickCase { pool with sqrtPrice := r.nextSqrtPrice } r target tick remaining a.byIn
      a.xToY a.now s.protocolFee a.key.feeTier u := by
    intro hc
    obtain ⟨i, hi⟩ := getTick_total hs.1 hn.1 hn.2
    exact ⟨_, .inside hc hi⟩
  by_cases hp : target = r.nextSqrtPrice
  swap
  · exact inside (.inr hp)
  have he := he hp
  match tick, htick, inside with
  | .noTick, _, inside => exact inside (.inl rfl)
  | .uninitialized i, htick, _ =>
    obtain ⟨enough, he⟩ := he (by rintro rfl; cases htick)
    exact ⟨_, .uninit rfl hp he⟩
  | .initialized t, htick, _ =>
    obtain ⟨enough, he⟩ := he (by rintro rfl; cases htick)
    obtain ⟨e1, e2⟩ := limiting_index hw.indexed htick
    obtain ⟨e3, hg, _, hdir⟩ := ht.tick _ _ e1
    by_cases hc : a.xToY = false ∨ enough = true
    · have hnet := tN_some e2
      unfold Tick.net at hnet
      have hx : ∃ x, t.cross { pool with sqrtPrice := r.nextSqrtPrice } a.now = .ok x := by
        unfold Tick.cross
        dsimp only
        rw [subC_eq hnow, ok_bind, hpc, hpl]
        have key : ∃ l, (if xor (decide (st.pool.currentTickIndex ≥ t.index)) t.sign then
            addC 256 .track st.pool.liquidity t.liquidityChange
          else subC .track st.pool.liquidity t.liquidityChange) = .ok l := by
          cases hx : a.xToY
          · simp only [hx, Bool.false_eq_true, if_false] at hdir
            have hcr := active_cross (key := a.key) hw hl hdir (by
              intro j h1 h2 hj
              have hgj := tick_grid hw hj
              have := ht.gap j hgj hj
              simp only [hx, Bool.false_eq_true, if_false] at this
              have h3 := this h1
              have h4 := priceOf_lt hgj.min hg.max h2
              omega)
            have h1 := hact t.index
            rw [decide_eq_false (by omega : ¬ st.pool.currentTickIndex ≥ t.index)]
            rw [← hL] at hcr
            cases hsg : t.sign
            · simp only [hsg, Bool.false_eq_true, if_false] at hnet
              rw [if_neg (by decide)]
              exact ⟨_, subC_eq (by omega)⟩
            · simp only [hsg, if_true] at hnet
              rw [if_pos (by decide)]
              exact ⟨_, addC_eq (by omega)⟩
          · simp only [hx, if_true] at hdir
            have hst := active_same (key := a.key) hw hl hdir (by
              intro j h1 h2 hj
              have hgj := tick_grid hw hj
              have := ht.gap j hgj hj
              simp only [hx, if_true] at this
              have h3 := this h2
              have h4 := priceOf_lt hg.min hgj.max h1
              omega)
            have hcr := active_cross (key := a.key) hw hl
              (c := t.index - a.key.feeTier.tickSpacing) (u := t.index) (by omega) (by
              intro j h1 h2 hj
              have := grid_next (tick_grid hw hj).1 hg.1 h2
              omega)
            have h1 := hact (t.index - a.key.feeTier.tickSpacing)
            rw [decide_eq_true (by omega : st.pool.currentTickIndex ≥ t.index)]
            rw [← hst, ← hL] at hcr
            cases hsg : t.sign
            · simp only [hsg, Bool.false_eq_true, if_false] at hnet
              rw [if_pos (by decide)]
              exact ⟨_, addC_eq (by omega)⟩
            · simp only [hsg, if_true] at hnet
              rw [if_neg (by decide)]
              exact ⟨_, subC_eq (by omega)⟩
        obtain ⟨l, hl⟩ := key
        rw [hl]
        exact ⟨_, rfl⟩
      obtain ⟨⟨t', pool'⟩, hx⟩ := hx
      exact ⟨_, .cross rfl hp he hc hx⟩
    · push Not at hc
      have hd : a.xToY = true := by simpa using hc.1
      have hen : enough = false := by simpa using hc.2
      subst hen
      by_cases hr : remaining = 0
      · exact ⟨_, .done rfl hp he hd hr⟩
      by_cases hb : a.byIn = true
      swap
      · exact ⟨_, .drop rfl hp he hd hr (by simpa using hb)⟩
      · have hfit : pool.liquidity = 0 ∨ remaining * 10 ^ 33 < 2 ^ 128 * pool.liquidity := by
          by_cases h0 : pool.liquidity = 0
          · exact .inl h0
          · rw [hd, hb] at he
            exact .inr (dust_fits hn h0 (hf hb) he)
        obtain ⟨pool', hfe⟩ := addFee_succeeds (p := { pool with sqrtPrice := r.nextSqrtPrice })
          (inX := a.xToY) hpf hrem hfit (hroom hb)
        exact ⟨_, .dust rfl hp he hd hr hb hfe⟩

/-! ### what has been paid out -/

/-- most that can be paid out between two prices -/
def outQ (xToY : Bool) (start p B : Nat) : ℚ := if xToY then amountY start p B else amountX start p B

theorem liq_le {L B : Nat} (h : L ≤ B) : liq L ≤ liq B := by
  unfold liq
  exact div_le_div_of_nonneg_right (by exact_mod_cast h) (by positivity)

theorem outQ_le {x : Bool} {start p : Nat} (hs : PriceOK start) (hp : PriceOK p) (B : Nat) : outQ x start p B ≤ B := by
  unfold outQ
  split
  · exact amountY_le_liq hs hp B
  · exact amountX_le_liq hs hp B

theorem outAmt_le {x : Bool} {p n : Nat} (hp : PriceOK p) (hn : PriceOK n) (L : Nat) :
    (outAmt x p n L : ℚ) ≤ outQ x p n L := by
  unfold outQ outAmt
  cases x
  · simp only [Bool.false_eq_true, if_false]
    exact dxDown_le_amountX hp.pos hn.pos L
  · simp only [if_true]
    rw [dyDown_eq_floor]
    exact Nat.floor_le (by unfold amountY liq; positivity)

theorem outQ_mono {x : Bool} {p n L B : Nat} (h : L ≤ B) : outQ x p n L ≤ outQ x p n B := by
  unfold outQ amountX amountY
  split <;> exact mul_le_mul_of_nonneg_right (liq_le h) (abs_nonneg _)

theorem outQ_add {x : Bool} {start p n : Nat} (hn : PriceOK n) (hp : PriceOK p) (hs : PriceOK start)
    (h : if x then n ≤ p ∧ p ≤ start else start ≤ p ∧ p ≤ n) (B : Nat) :
    outQ x start p B + outQ x p n B = outQ x start n B := by
  have mono : ∀ {a b : Nat}, a ≤ b → price a ≤ price b := by
    intro a b hab
    unfold price
    exact div_le_div_of_nonneg_right (by exact_mod_cast hab) (by positivity)
  have pos : ∀ {a : Nat}, PriceOK a → 0 < price a := by
    intro a ha
    unfold price
    exact div_pos (by exact_mod_cast ha.pos) (by positivity)
  unfold outQ amountX amountY
  cases x
  · simp only [Bool.false_eq_true, if_false] at h ⊢
    have h1 := one_div_le_one_div_of_le (pos hs) (mono h.1)
    have h2 := one_div_le_one_div_of_le (pos hp) (mono h.2)
    rw [abs_of_nonneg (sub_nonneg.2 h1), abs_of_nonneg (sub_nonneg.2 h2),
      abs_of_nonneg (sub_nonneg.2 (h2.trans h1))]
    ring
  · simp only [if_true] at h ⊢
    have h1 := mono h.1
    have h2 := mono h.2
    rw [abs_of_nonneg (sub_nonneg.2 h1), abs_of_nonneg (sub_nonneg.2 h2),
      abs_of_nonneg (sub_nonneg.2 (h1.trans h2))]
    ring

/-! ### a round -/

/-- the conditions of the swap -/
structure Healthy (s : Inv) (a : SwapArgs) (start amount B P : Nat) : Prop where
  wf : StoreWF s
  ledger : LedgerInv s
  spacing : Spacing a.key.feeTier.tickSpacing
  byIn : a.byIn = true
  proto : s.protocolFee ≤ 10 ^ 12
  fee0 : a.xToY = true → 0 < a.key.feeTier.fee
  fee1 : a.key.feeTier.fee ≤ 10 ^ 12 - 10 ^ 7
  start : PriceOK start
  amt : amount < 2 ^ 256
  act : ∀ t, activeLiq s a.key t ≤ B
  bound : B < 2 ^ 255
  room : P < 2 ^ 256
  low : a.xToY = true → MIN_SQRT_PRICE + 65536 ≤ a.limit
  high : a.xToY = false → ∀ t, activeLiq s a.key t = 0 ∨ amount * 10 ^ 29 / activeLiq s a.key t < 2 ^ 127

/-- what holds between the rounds -/
structure Live (s : Inv) (a : SwapArgs) (start amount B P : Nat) (st : SwapState) : Prop where
  liq : LiqInv s a start st
  sum : st.totalIn + st.remaining = amount
  fee : st.fee ≤ st.totalIn
  out : (st.totalOut : ℚ) ≤ outQ a.xToY start st.pool.sqrtPrice B
  proto : (if a.xToY then st.pool.feeProtocolTokenX else st.pool.feeProtocolTokenY) + st.remaining ≤ P
  now : st.pool.startTimestamp ≤ a.now

/-- the step of a round of a swap of X for Y ends exactly on its target -/
def TieAt (s : Inv) (a : SwapArgs) (start amount : Nat) : Prop :=
  ∃ p target t rem, rem ≤ amount ∧ a.limit ≤ target ∧ target < p ∧ p ≤ start ∧
    (target = a.limit ∨ ∃ i, Grid a.key.feeTier.tickSpacing i ∧ target = priceOf i) ∧
    Tie p target (activeLiq s a.key t) (rem * (10 ^ 12 - a.key.feeTier.fee) / 10 ^ 12)

/-- the protocol's share of the input token never exceeds the fees -/
theorem addFee_proto {p q : Pool} {amount pf : Nat} {inX : Bool} (h : p.addFee amount inX pf = .ok q) :
    (if inX then q.feeProtocolTokenX else q.feeProtocolTokenY) ≤
      (if inX then p.feeProtocolTokenX else p.feeProtocolTokenY) + amount := by
  obtain ⟨h1, h2⟩ := addFee_full h
  cases inX
  · simp only [Bool.false_eq_true, if_false] at h2 ⊢
    rw [h2]
    exact Nat.add_le_add_left h1 _
  · simp only [if_true] at h2 ⊢
    rw [h2]
    exact Nat.add_le_add_left h1 _

variable {start amount B P : Nat}

/-- a round keeps the conditions -/
theorem live_iter (hh : Healthy s a start amount B P) (hv : Live s a start amount B P st)
    (h0 : st.remaining ≠ 0) (h : swapIter s a st = .ok st')
    (hout : (st'.totalOut : ℚ) ≤ outQ a.xToY start st'.pool.sqrtPrice B) : Live s a start amount B P st' := by
  refine ⟨iter_active hh.wf hh.ledger hh.spacing hv.liq h0 h, ?_, (iter_fee_le h hv.fee).1, hout, ?_, ?_⟩
  · rw [iter_exactIn h hh.byIn, hv.sum]
  · have hp := hv.proto
    obtain ⟨target, info, r, remaining, pool, tick, u, h⟩ := swapIter_ok h
    have h1 := addFee_proto h.fee
    have hr := h.rem
    rw [if_pos hh.byIn] at hr
    have key : (if a.xToY then pool.feeProtocolTokenX else pool.feeProtocolTokenY) + remaining ≤ P := by
      omega
    rw [h.res]
    dsimp only
    cases h.upd with
    | inside => exact key
    | cross _ _ _ _ hx =>
      dsimp only
      rw [(cross_full hx).2.1]
      exact key
    | dust _ _ _ _ _ _ hf =>
      dsimp only
      have h2 := addFee_proto hf
      dsimp only at h2
      omega
    | drop => dsimp only; omega
    | done _ _ _ _ hr => dsimp only; omega
    | uninit => exact key
  · rw [(poolGrows_iter h).start]
    exact hv.now

/-- the step of a round -/
theorem round_step (hh : Healthy s a start amount B P) (hv : Live s a start amount B P st)
    (h0 : st.remaining ≠ 0) {target : Nat} {info : Option (Int × Bool)}
    (ht : IterTarget s a st.pool target info) :
    ∃ r, computeSwapStep st.pool.sqrtPrice target st.pool.liquidity st.remaining a.byIn a.key.feeTier.fee = .ok r ∧
      PriceOK r.nextSqrtPrice ∧
      (st.pool.liquidity = 0 ∨ r.feeAmount * 10 ^ 33 < 2 ^ 128 * st.pool.liquidity) ∧
      (r.amountOut : ℚ) ≤ outQ (decide (st.pool.sqrtPrice ≥ target)) st.pool.sqrtPrice r.nextSqrtPrice B ∧
      (r.amountIn + r.feeAmount ≤ st.remaining ∨ (a.xToY = true ∧ TieAt s a start amount)) := by
  have hL : st.pool.liquidity = activeLiq s a.key st.pool.currentTickIndex := by
    rcases hv.liq.liq with h | h
    · exact h
    · exact absurd h.1 h0
  have hagree := hv.liq.side.agree
  have hrem : st.remaining ≤ amount := by have := hv.sum; omega
  have hLB : st.pool.liquidity ≤ B := by rw [hL]; exact hh.act _
  rw [hh.byIn]
  by_cases hz : st.pool.liquidity = 0
  · rw [hz]
    refine ⟨_, computeSwapStep_zero, ht.price, .inl rfl, ?_, .inl (Nat.zero_le _)⟩
    have := outAmt_le (x := decide (st.pool.sqrtPrice ≥ target)) hagree.price ht.price B
    exact le_trans (by exact_mod_cast Nat.zero_le _) this
  · have hside := ht.side
    have hdown : target < st.pool.sqrtPrice → a.xToY = true := by
      intro h1
      by_contra hx
      rw [if_neg hx] at hside
      omega
    obtain ⟨r, h1, h2⟩ := step_in_succeeds (amount := st.remaining) hagree.price ht.price (fun h => by
      have hx := hdown h
      rw [if_pos hx] at hside
      exact le_trans (hh.low hx) hside.1) hz (lt_of_le_of_lt hLB hh.bound) (lt_of_le_of_lt hrem hh.amt)
      (fun h => hh.fee0 (hdown h)) hh.fee1
    refine ⟨r, h1, h2.price, .inr h2.feeFits, ?_, h2.sum.imp id ?_⟩
    · rw [h2.out]
      exact le_trans (outAmt_le hagree.price h2.price _) (outQ_mono hLB)
    · rintro ⟨h3, h4⟩
      have hx := hdown h3
      rw [if_pos hx] at hside
      have hst := hv.liq.side.side
      rw [if_pos hx] at hst
      refine ⟨hx, st.pool.sqrtPrice, target, st.pool.currentTickIndex, st.remaining, hrem, hside.1, h3, hst, ?_,
        by rw [← hL]; exact h4⟩
      match info, ht with
      | none, ht => exact .inl (ht.none rfl)
      | some (i, b), ht => exact .inr ⟨i, (ht.tick i b rfl).2.1, (ht.tick i b rfl).1⟩

/-- a round succeeds, reaches a limit or ends in a tie -/
theorem round_total (hh : Healthy s a start amount B P) (hv : Live s a start amount B P st)
    (h0 : st.remaining ≠ 0) :
    (∃ st', swapIter s a st = .ok st' ∧ Live s a start amount B P st') ∨
    swapIter s a st = .error (.inv .PriceLimitReached) ∨
    swapIter s a st = .error (.inv .TickLimitReached) ∨
    (a.xToY = true ∧ swapIter s a st = .error .panic ∧ TieAt s a start amount) := by
  have hL : st.pool.liquidity = activeLiq s a.key st.pool.currentTickIndex := by
    rcases hv.liq.liq with h | h
    · exact h
    · exact absurd h.1 h0
  have hagree := hv.liq.side.agree
  have hlim : if a.xToY then a.limit ≤ st.pool.sqrtPrice else st.pool.sqrtPrice ≤ a.limit := by
    have := hv.liq.side.limit
    cases hx : a.xToY
    · simpa [hx] using this
    · simp only [hx, if_true] at this ⊢
      omega
  have hrem : st.remaining ≤ amount := by have := hv.sum; omega
  have hLB : st.pool.liquidity ≤ B := by rw [hL]; exact hh.act _
  have hact : ∀ t, activeLiq s a.key t < 2 ^ 256 := fun t =>
    lt_of_le_of_lt (hh.act t) (lt_trans hh.bound (by norm_num))
  rcases closer_total hh.wf.wf hh.spacing hagree.grid a.key a.limit a.xToY with ⟨⟨target, info⟩, hc⟩ | hc
  swap
  · refine .inr (.inr (.inl ?_))
    unfold swapIter
    dsimp only
    rw [hc]
    rfl
  have ht := iter_target hh.wf hh.spacing hagree hlim hc
  obtain ⟨r, hstep, hnOK, hfit, hout, hsum⟩ := round_step hh hv h0 ht
  by_cases hs : r.amountIn + r.feeAmount ≤ st.remaining
  swap
  · obtain ⟨hx, htie⟩ := hsum.resolve_left hs
    refine .inr (.inr (.inr ⟨hx, ?_, htie⟩))
    unfold swapIter
    dsimp only
    rw [hc, ok_bind]
    dsimp only
    rw [unwrap_eq hstep, ok_bind, hh.byIn]
    have hb : ∀ {β : Type} (f : Nat → Nat → M β), (addC 256 .panic r.amountIn r.feeAmount >>= fun inFee =>
        subC .panic st.remaining inFee >>= fun rem => f inFee rem) = .error .panic := by
      intro β f
      unfold addC fit subC
      split
      · rw [ok_bind, if_neg hs]; rfl
      · rfl
    exact hb _
  -- the amounts
  have hrm : st.remaining - (r.amountIn + r.feeAmount) ≤ st.remaining := Nat.sub_le _ _
  obtain ⟨pool, hfee⟩ := addFee_succeeds (p := st.pool) (amount := r.feeAmount) (inX := a.xToY) hh.proto
    (by have := hh.amt; omega) hfit (by have := hv.proto; have := hh.room; omega)
  have hpl : pool.liquidity = st.pool.liquidity := by rw [(addFee_full hfee).2]
  have hpc : pool.currentTickIndex = st.pool.currentTickIndex := by rw [(addFee_full hfee).2]
  have hnow : pool.startTimestamp ≤ a.now := by rw [(addFee_full hfee).2]; exact hv.now
  have hpp := addFee_proto hfee
  obtain ⟨tick, htick⟩ := limiting_total ht
  have hremOk : if a.byIn then r.amountIn + r.feeAmount ≤ st.remaining ∧
      st.remaining - (r.amountIn + r.feeAmount) = st.remaining - (r.amountIn + r.feeAmount)
      else r.amountOut ≤ st.remaining ∧ st.remaining - (r.amountIn + r.feeAmount) = st.remaining - r.amountOut := by
    rw [if_pos hh.byIn]; exact ⟨hs, rfl⟩
  have hn := iter_next (remaining := st.remaining - (r.amountIn + r.feeAmount)) hagree.price ht hstep hremOk
  -- the output
  have hside := hv.liq.side.side
  have houtQ : (r.amountOut : ℚ) ≤ outQ a.xToY st.pool.sqrtPrice r.nextSqrtPrice B := by
    have hns := hn.side
    have hts := ht.side
    cases hx : a.xToY
    · simp only [hx, Bool.false_eq_true, if_false] at hns hts
      rcases Nat.lt_or_ge st.pool.sqrtPrice target with h1 | h1
      · rw [decide_eq_false (by omega : ¬ st.pool.sqrtPrice ≥ target)] at hout
        exact hout
      · have e : r.nextSqrtPrice = st.pool.sqrtPrice := by omega
        rw [decide_eq_true h1, e] at hout
        rw [e]
        refine le_trans hout ?_
        unfold outQ amountX amountY
        simp
    · simp only [hx, if_true] at hts
      rw [decide_eq_true hts.2] at hout
      exact hout
  have htot : ((st.totalOut + r.amountOut : Nat) : ℚ) ≤ outQ a.xToY start r.nextSqrtPrice B := by
    rw [← outQ_add hnOK hagree.price hh.start ?_ B]
    · push_cast
      exact add_le_add hv.out houtQ
    · have hns := hn.side
      cases hx : a.xToY
      · simp only [hx, Bool.false_eq_true, if_false] at hns hside ⊢
        exact ⟨hside, hns.1⟩
      · simp only [hx, if_true] at hns hside ⊢
        exact ⟨hns, hside⟩
  have htot256 : st.totalOut + r.amountOut < 2 ^ 256 := by
    have h1 : ((st.totalOut + r.amountOut : Nat) : ℚ) ≤ (B : ℚ) := le_trans htot (outQ_le hh.start hnOK B)
    have h2 : st.totalOut + r.amountOut ≤ B := by exact_mod_cast h1
    exact lt_of_le_of_lt h2 (lt_trans hh.bound (by norm_num))
  -- the end of the round
  have hen : ∃ b, isEnoughAmountToChangePrice (st.remaining - (r.amountIn + r.feeAmount)) r.nextSqrtPrice
      pool.liquidity a.key.feeTier.fee true a.xToY = .ok b := by
    rw [hpl]
    have hL6 : st.pool.liquidity < 2 ^ 256 := lt_of_le_of_lt hLB (lt_trans hh.bound (by norm_num))
    have ha6 : st.remaining - (r.amountIn + r.feeAmount) < 2 ^ 256 := by have := hh.amt; omega
    have hf12 : a.key.feeTier.fee ≤ 10 ^ 12 := le_trans hh.fee1 (Nat.sub_le _ _)
    cases hx : a.xToY
    · refine (C42_in_y_partial hnOK hL6 ha6 hf12).2 ?_
      rcases hh.high hx st.pool.currentTickIndex with h1 | h1
      · exact .inl (by rw [hL]; exact h1)
      · right
        rw [← hL] at h1
        have h2 : (st.remaining - (r.amountIn + r.feeAmount)) * (10 ^ 12 - a.key.feeTier.fee) / 10 ^ 12 ≤ amount := by
          refine le_trans (Nat.div_le_of_le_mul ?_) (le_trans hrm hrem)
          rw [Nat.mul_comm (10 ^ 12)]
          exact Nat.mul_le_mul_left _ (Nat.sub_le _ _)
        have h3 := lt_of_le_of_lt (Nat.div_le_div_right (c := st.pool.liquidity) (Nat.mul_le_mul_right (10 ^ 29) h2)) h1
        have h4 : r.nextSqrtPrice < 2 ^ 127 := lt_of_le_of_lt hnOK.2 (by norm_num [MAX_SQRT_PRICE])
        calc _ < 2 ^ 127 + 2 ^ 127 := Nat.add_lt_add h4 h3
          _ = 2 ^ 128 := by norm_num
    · exact C42_in_x hnOK hL6 ha6 hf12
  obtain ⟨u, hu⟩ := update_total hh.wf hh.ledger hh.spacing hh.proto (fun _ => hh.fee1) (r := r)
    (remaining := st.remaining - (r.amountIn + r.feeAmount)) ht htick hL hact hpl hpc hnow hnOK
    (by have := hh.amt; omega) (fun _ _ => by rw [hh.byIn]; exact hen)
    (fun _ => by have := hv.proto; have := hh.room; omega)
  have hut : u.total + u.remaining ≤ st.remaining - (r.amountIn + r.feeAmount) := by
    cases hu <;> dsimp only <;> omega
  have hup : u.pool.sqrtPrice = r.nextSqrtPrice := by
    cases hu with
    | inside => rfl
    | cross _ _ _ _ hx => dsimp only; rw [(cross_full hx).2.1]
    | dust _ _ _ _ _ _ hf => dsimp only; rw [(addFee_full hf).2]
    | drop => rfl
    | done => rfl
    | uninit => rfl
  have htin : st.totalIn + (r.amountIn + r.feeAmount) + u.total < 2 ^ 256 := by
    have := hv.sum
    have := hh.amt
    omega
  have hfe : st.fee + r.feeAmount < 2 ^ 256 := by
    have := hv.sum
    have := hh.amt
    have := hv.fee
    omega
  by_cases hpl' : r.nextSqrtPrice = a.limit ∧ st.remaining - (r.amountIn + r.feeAmount) ≠ 0
  · refine .inr (.inl ?_)
    unfold swapIter
    dsimp only
    rw [hc, ok_bind]
    dsimp only
    rw [unwrap_eq hstep, ok_bind, addC_eq (by have := hh.amt; omega), ok_bind, if_pos hh.byIn,
      subC_eq hs, ok_bind, unwrap_eq hfee, ok_bind, addC_eq hfe, ok_bind, addC_eq (by omega), ok_bind,
      addC_eq htot256, ok_bind, failIf_pos hpl']
    rfl
  by_cases htl : (a.xToY = true ∧ u.pool.currentTickIndex ≤ getMinTick a.key.feeTier.tickSpacing) ∨
     (a.xToY = false ∧ u.pool.currentTickIndex ≥ getMaxTick a.key.feeTier.tickSpacing)
  · refine .inr (.inr (.inl ?_))
    have htl' : (a.xToY = true ∧ u.pool.currentTickIndex ≤
        (if a.xToY then getMinTick a.key.feeTier.tickSpacing else getMaxTick a.key.feeTier.tickSpacing)) ∨
        (a.xToY = false ∧ u.pool.currentTickIndex ≥
        (if a.xToY then getMinTick a.key.feeTier.tickSpacing else getMaxTick a.key.feeTier.tickSpacing)) := by
      rcases htl with ⟨h1, h2⟩ | ⟨h1, h2⟩
      · exact .inl ⟨h1, by rw [if_pos h1]; exact h2⟩
      · exact .inr ⟨h1, by rw [if_neg (by rw [h1]; decide)]; exact h2⟩
    unfold swapIter
    dsimp only
    rw [hc, ok_bind]
    dsimp only
    rw [unwrap_eq hstep, ok_bind, addC_eq (by have := hh.amt; omega), ok_bind, if_pos hh.byIn,
      subC_eq hs, ok_bind, unwrap_eq hfee, ok_bind, addC_eq hfe, ok_bind, addC_eq (by omega), ok_bind,
      addC_eq htot256, ok_bind, failIf_neg hpl', ok_bind, htick, ok_bind, updateTick_intro hu, ok_bind,
      addC_eq htin, ok_bind]
    rw [failIf_pos htl']
    rfl
  left
  have hit := swapIter_intro (st := st) ⟨hc, hstep, hremOk, hfee, hpl', htick, hu, htl, htin, htot256, rfl⟩ hfe
  refine ⟨_, hit, live_iter hh hv h0 hit ?_⟩
  dsimp only
  rw [hup]
  exact htot

/-! ### the whole swap -/

/-- the loop succeeds, reaches a limit or ends in a tie -/
theorem loop_total (hh : Healthy s a start amount B P) : ∀ n st r, Live s a start amount B P st →
    swapLoop s a n st = some r →
    (∃ st', r = .ok st' ∧ Live s a start amount B P st' ∧ st'.remaining = 0) ∨
    r = .error (.inv .PriceLimitReached) ∨ r = .error (.inv .TickLimitReached) ∨
    (a.xToY = true ∧ r = .error .panic ∧ TieAt s a start amount) := by
  intro n
  induction n with
  | zero => intro st r _ h; simp [swapLoop] at h
  | succ n ih =>
    intro st r hv h
    unfold swapLoop at h
    by_cases h0 : st.remaining = 0
    · rw [if_pos h0] at h
      cases h
      exact .inl ⟨st, rfl, hv, h0⟩
    · rw [if_neg h0] at h
      rcases round_total hh hv h0 with ⟨st1, h1, hv1⟩ | h1 | h1 | ⟨hx, h1, h2⟩
      · rw [h1] at h
        exact ih st1 r hv1 h
      · rw [h1] at h
        cases h
        exact .inr (.inl rfl)
      · rw [h1] at h
        cases h
        exact .inr (.inr (.inl rfl))
      · rw [h1] at h
        cases h
        exact .inr (.inr (.inr ⟨hx, rfl, h2⟩))

/-- the calculation of a swap succeeds, is refused or ends in a tie -/
theorem calc_total {key : PoolKey} {xToY : Bool} {limit now : Nat} {pool : Pool} (hr : Reach s)
    (hh : Healthy s ⟨key, xToY, true, limit, now⟩ pool.sqrtPrice amount B P)
    (hs : swapStart s key xToY amount limit = .ok pool)
    (hv : Live s ⟨key, xToY, true, limit, now⟩ pool.sqrtPrice amount B P ⟨pool, [], amount, 0, 0, 0⟩) :
    (∃ c, calculateSwap s now key xToY amount true limit = .ok c ∧ c.amountIn = amount ∧ c.amountOut ≤ B) ∨
    (∃ e, (e = .PriceLimitReached ∨ e = .TickLimitReached ∨ e = .NoGainSwap) ∧
      calculateSwap s now key xToY amount true limit = .error (.inv e)) ∨
    (xToY = true ∧ calculateSwap s now key xToY amount true limit = .error .panic ∧
      TieAt s ⟨key, xToY, true, limit, now⟩ pool.sqrtPrice amount) := by
  have hfuel := C38_fuel (byIn := true) (now := now) hr hs
  cases hl : swapLoop s ⟨key, xToY, true, limit, now⟩ swapFuel ⟨pool, [], amount, 0, 0, 0⟩ with
  | none => exact absurd hl hfuel
  | some r =>
    rcases loop_total hh _ _ _ hv hl with ⟨st, h1, h2, h3⟩ | h1 | h1 | ⟨hx, h1, h2⟩
    · subst h1
      by_cases h4 : st.totalOut = 0
      · refine .inr (.inl ⟨.NoGainSwap, .inr (.inr rfl), ?_⟩)
        unfold calculateSwap
        rw [hs, ok_bind, hl, Option.getD_some, ok_bind, failIf_pos h4]
        rfl
      · left
        refine ⟨{ amountIn := st.totalIn, amountOut := st.totalOut, startSqrtPrice := pool.sqrtPrice,
                  targetSqrtPrice := st.pool.sqrtPrice, fee := st.fee, pool := st.pool, ticks := st.ticks },
          ?_, ?_, ?_⟩
        · unfold calculateSwap
          rw [hs, ok_bind, hl, Option.getD_some, ok_bind, failIf_neg h4]
          rfl
        · have := h2.sum
          dsimp only
          omega
        · have := le_trans h2.out (outQ_le hh.start h2.liq.side.agree.price B)
          exact_mod_cast this
    · subst h1
      refine .inr (.inl ⟨.PriceLimitReached, .inl rfl, ?_⟩)
      unfold calculateSwap
      rw [hs, ok_bind, hl]
      rfl
    · subst h1
      refine .inr (.inl ⟨.TickLimitReached, .inr (.inl rfl), ?_⟩)
      unfold calculateSwap
      rw [hs, ok_bind, hl]
      rfl
    · subst h1
      refine .inr (.inr ⟨hx, ?_, h2⟩)
      unfold calculateSwap
      rw [hs, ok_bind, hl]
      rfl

end Verif
