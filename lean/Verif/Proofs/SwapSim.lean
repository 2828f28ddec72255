import Verif.Proofs.SwapFrame
import Verif.Proofs.SwapAmounts

/-! # The swap loop forwards: rebuilding an iteration, and its independence of the protocol fee -/

set_option exponentiation.threshold 1000

namespace Verif
open Service Spec

variable {s : Inv} {a : SwapArgs} {st st' : SwapState}

theorem updateTick_intro {pool : Pool} {result : SwapResult} {swapLimit : Nat} {tick : UpdatePoolTick}
    {remaining : Nat} {byIn xToY : Bool} {now protocolFee : Nat} {tier : FeeTier}
    {u : UpdateTickResult}
    (h : UpdateTickCase pool result swapLimit tick remaining byIn xToY now protocolFee tier u) :
    pool.updateTick result swapLimit tick remaining byIn xToY now protocolFee tier = .ok u := by
  unfold Pool.updateTick
  cases h with
  | inside hc hi =>
    rw [if_pos hc]
    simp only [bind_ok_iff, unwrap_ok_iff, pure_ok_iff]
    exact ⟨_, hi, rfl⟩
  | @cross t t' pool' enough ht hp he hc hx =>
    rw [if_neg (by rw [ht]; simp [hp])]
    simp only [bind_ok_iff, unwrap_ok_iff]
    refine ⟨enough, he, ?_⟩
    rw [ht]
    dsimp only
    rw [if_pos hc]
    simp only [bind_ok_iff, unwrap_ok_iff, pure_ok_iff]
    exact ⟨_, hx, rfl⟩
  | @dust t pool' ht hp he hd hr hb hf =>
    subst hd hb
    rw [if_neg (by rw [ht]; simp [hp])]
    simp only [bind_ok_iff, unwrap_ok_iff]
    refine ⟨false, he, ?_⟩
    rw [ht]
    dsimp only
    rw [if_neg (by simp), if_pos hr]
    simp only [if_true, bind_ok_iff, unwrap_ok_iff, pure_ok_iff]
    exact ⟨_, hf, rfl⟩
  | @drop t ht hp he hd hr hb =>
    subst hd hb
    rw [if_neg (by rw [ht]; simp [hp])]
    simp only [bind_ok_iff, unwrap_ok_iff]
    refine ⟨false, he, ?_⟩
    rw [ht]
    dsimp only
    rw [if_neg (by simp), if_pos hr]
    rfl
  | @done t ht hp he hd hr =>
    subst hd hr
    rw [if_neg (by rw [ht]; simp [hp])]
    simp only [bind_ok_iff, unwrap_ok_iff]
    refine ⟨false, he, ?_⟩
    rw [ht]
    dsimp only
    rw [if_neg (by simp), if_neg (by simp)]
    rfl
  | @uninit i enough ht hp he =>
    rw [if_neg (by rw [ht]; simp [hp])]
    simp only [bind_ok_iff, unwrap_ok_iff]
    refine ⟨enough, he, ?_⟩
    rw [ht]
    rfl

theorem swapIter_intro {target : Nat} {info : Option (Int × Bool)} {r : SwapResult} {remaining : Nat}
    {pool : Pool} {tick : UpdatePoolTick} {u : UpdateTickResult}
    (h : SwapIterOk s a st st' target info r remaining pool tick u)
    (hf : st.fee + r.feeAmount < 2 ^ 256) : swapIter s a st = .ok st' := by
  have hin := h.inFits
  unfold swapIter
  simp only [bind_ok_iff, unwrap_ok_iff, addC_ok_iff, failIf_ok_iff, pure_ok_iff]
  refine ⟨(target, info), h.limit, r, h.step, _, ⟨by omega, rfl⟩, remaining, ?_, pool, h.fee, _,
    ⟨hf, rfl⟩, _, ⟨by omega, rfl⟩, _, ⟨h.outFits, rfl⟩, (), h.notLimit, tick, h.htick, u,
    updateTick_intro h.upd, _, ⟨hin, rfl⟩, (), ?_, h.res.symm⟩
  · have := h.rem
    cases hb : a.byIn with
    | true => rw [hb] at this; simpa using this
    | false => rw [hb] at this; simpa using this
  · have := h.notTickLimit
    cases hx : a.xToY with
    | true => rw [hx] at this; simpa using this
    | false => rw [hx] at this; simpa using this

/-- the charged fees are part of the input -/
theorem iter_fee_le (h : swapIter s a st = .ok st') (hf : st.fee ≤ st.totalIn) :
    st'.fee ≤ st'.totalIn ∧ st.totalIn ≤ st'.totalIn := by
  obtain ⟨target, info, r, remaining, pool, tick, u, h⟩ := swapIter_ok h
  rw [h.res]
  dsimp only
  omega

theorem loop_totalIn_le : ∀ n st st', swapLoop s a n st = some (.ok st') → st.totalIn ≤ st'.totalIn := by
  intro n
  induction n with
  | zero => intro st st' h; simp [swapLoop] at h
  | succ n ih =>
    intro st st' h
    unfold swapLoop at h
    split at h
    · cases h; exact le_refl _
    · cases hi : swapIter s a st with
      | error e => rw [hi] at h; cases h
      | ok st1 =>
        rw [hi] at h
        refine le_trans ?_ (ih st1 st' h)
        obtain ⟨target, info, r, remaining, pool, tick, u, h⟩ := swapIter_ok hi
        rw [h.res]
        dsimp only
        omega

/-! ### a different protocol fee -/

/-- equal up to fee growth and protocol fees -/
structure PoolSim (p q : Pool) : Prop where
  liquidity : q.liquidity = p.liquidity
  price : q.sqrtPrice = p.sqrtPrice
  tick : q.currentTickIndex = p.currentTickIndex
  start : q.startTimestamp = p.startTimestamp

theorem cdiv_pct_le {amount pf : Nat} (h : pf ≤ 10 ^ 12) :
    (amount * pf + (10 ^ 12 - 1)) / 10 ^ 12 ≤ amount := by
  rw [← Nat.lt_succ_iff, Nat.div_lt_iff_lt_mul (by positivity)]
  have := Nat.mul_le_mul_left amount h
  rw [Nat.succ_mul]
  omega

/-- charging a fee works for any protocol fee up to 100% if it works for 0 -/
theorem addFee_any {p q p' : Pool} {amount pf : Nat} {inX : Bool} (hs : PoolSim p q)
    (h : p.addFee amount inX 0 = .ok p') (hpf : pf ≤ 10 ^ 12) (ha : amount < 2 ^ 256)
    (hroom : (if inX then q.feeProtocolTokenX else q.feeProtocolTokenY) + amount < 2 ^ 256) :
    ∃ q', q.addFee amount inX pf = .ok q' ∧ PoolSim p' q' ∧
      (if inX then q'.feeProtocolTokenX else q'.feeProtocolTokenY) ≤
        (if inX then q.feeProtocolTokenX else q.feeProtocolTokenY) + amount ∧
      PoolSim q q' ∧ PoolSim p p' := by
  obtain ⟨-, hfull⟩ := addFee_full h
  have hsim : PoolSim p p' := by
    rw [hfull]
    exact ⟨rfl, rfl, rfl, rfl⟩
  have mk : ∀ q', PoolSim q q' → PoolSim p' q' := fun q' hq =>
    ⟨by rw [hq.1, hs.1, hsim.1], by rw [hq.2, hs.2, hsim.2], by rw [hq.3, hs.3, hsim.3],
      by rw [hq.4, hs.4, hsim.4]⟩
  have hle := cdiv_pct_le (amount := amount) hpf
  have hmul : tokMulPctUp amount pf = .ok ((amount * pf + (10 ^ 12 - 1)) / 10 ^ 12) := by
    unfold tokMulPctUp bigMulUp
    simp only [bind_ok_iff, mulC_ok_iff, addC_ok_iff, fit_ok_iff]
    have h1 : amount * pf ≤ 2 ^ 256 * 10 ^ 12 := Nat.mul_le_mul ha.le hpf
    have h2 : (2 : Nat) ^ 256 * 10 ^ 12 + 10 ^ 12 < 2 ^ 512 := by norm_num
    refine ⟨_, ⟨by omega, rfl⟩, _, ⟨by rw [pctOne_eq]; omega, rfl⟩, ?_, ?_⟩
    · rw [pctOne_eq]; omega
    · rw [pctOne_eq]
  have hzero : tokMulPctUp amount 0 = .ok 0 := by
    unfold tokMulPctUp bigMulUp
    simp only [bind_ok_iff, mulC_ok_iff, addC_ok_iff, fit_ok_iff]
    refine ⟨_, ⟨by simp, rfl⟩, _, ⟨by rw [pctOne_eq]; norm_num, rfl⟩, ?_, ?_⟩
    · rw [pctOne_eq]; norm_num
    · rw [pctOne_eq]; norm_num
  unfold Pool.addFee at h ⊢
  rw [hzero, ok_bind] at h
  rw [hmul, ok_bind]
  generalize (amount * pf + (10 ^ 12 - 1)) / 10 ^ 12 = k at hle
  simp only [bind_ok_iff, subC_ok_iff] at h ⊢
  obtain ⟨w, ⟨_, hw⟩, h⟩ := h
  rw [Nat.sub_zero] at hw
  rw [hw] at h
  clear hw
  by_cases hc : (amount - k = 0 ∧ k = 0) ∨ q.liquidity = 0
  · refine ⟨q, ⟨_, ⟨hle, rfl⟩, by rw [if_pos hc]; rfl⟩, mk q ⟨rfl, rfl, rfl, rfl⟩, by omega,
      ⟨rfl, rfl, rfl, rfl⟩, hsim⟩
  · have hc' : ¬ ((amount = 0 ∧ True) ∨ p.liquidity = 0) := by
      rw [← hs.liquidity]
      omega
    rw [if_neg hc', bind_ok_iff] at h
    obtain ⟨g, hg, _⟩ := h
    have hg' : ∃ g', fgFromFee q.liquidity (amount - k) = .ok g' := by
      rw [hs.liquidity]
      unfold fgFromFee at hg ⊢
      simp only [bind_ok_iff, mulC_ok_iff, divC_ok_iff, fit_ok_iff] at hg ⊢
      obtain ⟨_, ⟨g1, rfl⟩, _, ⟨g2, rfl⟩, _, ⟨g3, rfl⟩, g4, rfl⟩ := hg
      have e1 : (amount - k) * fgOne ≤ amount * fgOne := Nat.mul_le_mul_right _ (by omega)
      have e2 := Nat.mul_le_mul_right liqOne e1
      exact ⟨_, _, ⟨by omega, rfl⟩, _, ⟨by omega, rfl⟩, _, ⟨g3, rfl⟩,
        lt_of_le_of_lt (Nat.div_le_div_right e2) g4, rfl⟩
    obtain ⟨g', hg'⟩ := hg'
    cases inX with
    | true =>
      simp only [if_true] at hroom ⊢
      refine ⟨{ q with feeGrowthGlobalX := fgAdd q.feeGrowthGlobalX g',
                       feeProtocolTokenX := q.feeProtocolTokenX + k },
        ⟨_, ⟨hle, rfl⟩, ?_⟩, ?_, ?_, ?_, hsim⟩
      · rw [if_neg hc]
        simp only [bind_ok_iff, addC_ok_iff, pure_ok_iff]
        exact ⟨g', hg', _, ⟨by omega, rfl⟩, rfl⟩
      · exact mk _ ⟨rfl, rfl, rfl, rfl⟩
      · dsimp only; omega
      · exact ⟨rfl, rfl, rfl, rfl⟩
    | false =>
      simp only [Bool.false_eq_true, if_false] at hroom ⊢
      refine ⟨{ q with feeGrowthGlobalY := fgAdd q.feeGrowthGlobalY g',
                       feeProtocolTokenY := q.feeProtocolTokenY + k },
        ⟨_, ⟨hle, rfl⟩, ?_⟩, ?_, ?_, ?_, hsim⟩
      · rw [if_neg hc]
        simp only [bind_ok_iff, addC_ok_iff, pure_ok_iff]
        exact ⟨g', hg', _, ⟨by omega, rfl⟩, rfl⟩
      · exact mk _ ⟨rfl, rfl, rfl, rfl⟩
      · dsimp only; omega
      · exact ⟨rfl, rfl, rfl, rfl⟩

/-- crossing a tick does not depend on fee growth -/
theorem cross_sim {t t' : Tick} {p q p' : Pool} {now : Nat} (hs : PoolSim p q)
    (h : t.cross p now = .ok (t', p')) :
    ∃ t'' q', t.cross q now = .ok (t'', q') ∧ PoolSim p' q' ∧
      q'.feeProtocolTokenX = q.feeProtocolTokenX ∧ q'.feeProtocolTokenY = q.feeProtocolTokenY := by
  simp only [Tick.cross, bind_ok_iff, pure_ok_iff] at h
  obtain ⟨k, hk, l, hl, e⟩ := h
  cases e
  rw [← hs.start] at hk
  rw [← hs.tick, ← hs.liquidity] at hl
  refine ⟨{ t with
    feeGrowthOutsideX := fgSub q.feeGrowthGlobalX t.feeGrowthOutsideX
    feeGrowthOutsideY := fgSub q.feeGrowthGlobalY t.feeGrowthOutsideY
    secondsOutside := (k + 2 ^ 64 - t.secondsOutside) % 2 ^ 64 },
    { q with liquidity := l, lastTimestamp := now }, ?_, ⟨rfl, hs.price, hs.tick, hs.start⟩,
    rfl, rfl⟩
  simp only [Tick.cross, bind_ok_iff, pure_ok_iff]
  exact ⟨k, hk, l, hl, rfl⟩

/-- two runs of the loop with different protocol fees -/
structure StateSim (inX : Bool) (base : Nat) (p q : SwapState) : Prop where
  pool : PoolSim p.pool q.pool
  remaining : q.remaining = p.remaining
  totalIn : q.totalIn = p.totalIn
  totalOut : q.totalOut = p.totalOut
  fee : q.fee = p.fee
  feeLe : p.fee ≤ p.totalIn
  proto : (if inX then q.pool.feeProtocolTokenX else q.pool.feeProtocolTokenY) ≤ base + q.totalIn

theorem iter_sim {pf base : Nat} {p p' q : SwapState} (hpf : pf ≤ 10 ^ 12)
    (hs : StateSim a.xToY base p q) (h0 : s.protocolFee = 0) (h : swapIter s a p = .ok p')
    (hroom : base + p'.totalIn < 2 ^ 256) :
    ∃ q', swapIter { s with protocolFee := pf } a q = .ok q' ∧ StateSim a.xToY base p' q' := by
  have hle := iter_fee_le h hs.feeLe
  obtain ⟨target, info, r, remaining, pool, tick, u, h⟩ := swapIter_ok h
  have hin := h.inFits
  have hres := h.res
  have htot : p'.totalIn = p.totalIn + (r.amountIn + r.feeAmount) + u.total := by rw [hres]
  have hproto := hs.proto
  rw [hs.totalIn] at hproto
  have hfee := h.fee
  rw [h0] at hfee
  obtain ⟨pool', hf', hsim', hpr', hqs, -⟩ := addFee_any hs.pool hfee hpf (by omega) (by omega)
  -- the pool with the new price
  have hsim2 : PoolSim { pool with sqrtPrice := r.nextSqrtPrice }
      { pool' with sqrtPrice := r.nextSqrtPrice } := ⟨hsim'.1, rfl, hsim'.3, hsim'.4⟩
  have key : ∃ u' : UpdateTickResult, UpdateTickCase { pool' with sqrtPrice := r.nextSqrtPrice } r target
      tick remaining a.byIn a.xToY a.now pf a.key.feeTier u' ∧ PoolSim u.pool u'.pool ∧
      u'.total = u.total ∧ u'.remaining = u.remaining ∧
      (if a.xToY then u'.pool.feeProtocolTokenX else u'.pool.feeProtocolTokenY) ≤
        base + p'.totalIn := by
    rw [htot]
    have hpr : (if a.xToY then pool'.feeProtocolTokenX else pool'.feeProtocolTokenY) ≤
        base + (p.totalIn + (r.amountIn + r.feeAmount)) := by omega
    have hupd := h.upd
    rw [h0] at hupd
    cases hupd with
    | inside hc hi =>
      exact ⟨_, .inside hc hi, ⟨hsim2.1, rfl, rfl, hsim2.4⟩, rfl, rfl, by simpa using hpr⟩
    | cross ht hp he hc hx =>
      obtain ⟨t'', q', k1, k2, k3, k4⟩ := cross_sim hsim2 hx
      refine ⟨_, .cross ht hp ?_ hc k1, ⟨k2.1, k2.2, rfl, k2.4⟩, rfl, rfl, ?_⟩
      · rw [hsim2.1]; exact he
      · dsimp only
        rw [k3, k4]
        simpa using hpr
    | dust ht hp he hd hr hb hf =>
      obtain ⟨q', k1, k2, k3, k4, k5⟩ := addFee_any (pf := pf) hsim2 hf hpf (by
          have := h.inFits
          dsimp only at this
          omega) (by
          dsimp only at htot ⊢
          omega)
      refine ⟨_, .dust ht hp ?_ hd hr hb k1, ⟨k2.1, k2.2, rfl, k2.4⟩, rfl, rfl, ?_⟩
      · rw [hsim2.1]; exact he
      · dsimp only at k3 ⊢
        omega
    | drop ht hp he hd hr hb =>
      refine ⟨_, .drop ht hp ?_ hd hr hb, ⟨hsim2.1, rfl, rfl, hsim2.4⟩, rfl, rfl, by simpa using hpr⟩
      rw [hsim2.1]; exact he
    | done ht hp he hd hr =>
      refine ⟨_, .done ht hp ?_ hd hr, ⟨hsim2.1, rfl, rfl, hsim2.4⟩, rfl, rfl, by simpa using hpr⟩
      rw [hsim2.1]; exact he
    | uninit ht hp he =>
      refine ⟨_, .uninit ht hp ?_, ⟨hsim2.1, rfl, rfl, hsim2.4⟩, rfl, rfl, by simpa using hpr⟩
      rw [hsim2.1]; exact he
  obtain ⟨u', hu, hup, hut, hur, hupr⟩ := key
  refine ⟨{ pool := u'.pool
            ticks := match u'.tick with
              | .initialized t => if u'.crossed then q.ticks ++ [t] else q.ticks
              | _ => q.ticks
            remaining := u'.remaining
            totalIn := q.totalIn + (r.amountIn + r.feeAmount) + u'.total
            totalOut := q.totalOut + r.amountOut
            fee := q.fee + r.feeAmount }, swapIter_intro (target := target) (info := info) (r := r)
              (remaining := remaining) (pool := pool') (tick := tick) (u := u')
              ⟨?_, ?_, ?_, hf', h.notLimit, ?_, hu, ?_, ?_, ?_, rfl⟩ ?_, ?_⟩
  · rw [hs.pool.tick]; exact h.limit
  · rw [hs.pool.price, hs.pool.liquidity, hs.remaining]; exact h.step
  · rw [hs.remaining]; exact h.rem
  · exact h.htick
  · rw [hup.tick]; exact h.notTickLimit
  · rw [hs.totalIn, hut]; exact hin
  · rw [hs.totalOut]; exact h.outFits
  · rw [hs.fee]
    have := hs.feeLe
    omega
  · have e : p'.pool = u.pool := by rw [hres]
    have e1 : p'.remaining = u.remaining := by rw [hres]
    have e2 : p'.totalOut = p.totalOut + r.amountOut := by rw [hres]
    have e3 : p'.fee = p.fee + r.feeAmount := by rw [hres]
    refine ⟨by rw [e]; exact hup, by rw [e1]; exact hur, ?_, ?_, ?_, hle.1, ?_⟩
    · rw [htot, hs.totalIn, ← hut]
    · rw [e2, hs.totalOut]
    · rw [e3, hs.fee]
    · dsimp only
      rw [hs.totalIn, hut, ← htot]
      exact hupr

theorem loop_sim {pf base : Nat} (hpf : pf ≤ 10 ^ 12) (h0 : s.protocolFee = 0) : ∀ n p p' q,
    StateSim a.xToY base p q → swapLoop s a n p = some (.ok p') → base + p'.totalIn < 2 ^ 256 →
    ∃ q', swapLoop { s with protocolFee := pf } a n q = some (.ok q') ∧ StateSim a.xToY base p' q' := by
  intro n
  induction n with
  | zero => intro p p' q _ h; simp [swapLoop] at h
  | succ n ih =>
    intro p p' q hs h hroom
    unfold swapLoop at h ⊢
    rw [hs.remaining]
    split at h
    · next hz =>
      cases h
      rw [if_pos hz]
      exact ⟨q, rfl, hs⟩
    · next hz =>
      rw [if_neg hz]
      cases hi : swapIter s a p with
      | error e => rw [hi] at h; cases h
      | ok p1 =>
        rw [hi] at h
        have := loop_totalIn_le _ _ _ h
        obtain ⟨q1, hq, hs1⟩ := iter_sim hpf hs h0 hi (by omega)
        rw [hq]
        exact ih p1 p' q1 hs1 h hroom

/-- with a protocol fee above 100% no iteration can charge a fee -/
theorem iter_no_fee (hpf : 10 ^ 12 < s.protocolFee) (h : swapIter s a st = .ok st') :
    st'.fee = st.fee := by
  obtain ⟨target, info, r, remaining, pool, tick, u, h⟩ := swapIter_ok h
  have hf := h.fee
  have : r.feeAmount = 0 := by
    unfold Pool.addFee tokMulPctUp bigMulUp at hf
    simp only [bind_ok_iff, subC_ok_iff, mulC_ok_iff, addC_ok_iff, fit_ok_iff] at hf
    obtain ⟨_, ⟨_, ⟨_, rfl⟩, _, ⟨_, rfl⟩, _, rfl⟩, _, ⟨h1, _⟩, _⟩ := hf
    by_contra hne
    rw [pctOne_eq] at h1
    have h2 := (Nat.div_lt_iff_lt_mul (by positivity)).1 (Nat.lt_succ_of_le h1)
    have h3 : r.feeAmount * (10 ^ 12 + 1) ≤ r.feeAmount * s.protocolFee :=
      Nat.mul_le_mul_left _ hpf
    rw [Nat.mul_add, Nat.succ_mul] at *
    omega
  rw [h.res, this]
  rfl

end Verif
