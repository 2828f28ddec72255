import Verif.Proofs.PriceLog

/-! # The lookup of the tick of a price -/

set_option exponentiation.threshold 1000

namespace Verif
open Real

/-- `t` is the floor tick of `p` -/
structure FloorTick (p : Nat) (t : Int) : Prop where
  ge : MIN_TICK ≤ t
  le : t ≤ MAX_TICK
  low : priceOf t ≤ p
  high : t < MAX_TICK → p < priceOf (t + 1)

theorem floorTick_exists {p : Nat} (h1 : MIN_SQRT_PRICE ≤ p) : ∃ t, FloorTick p t := by
  have key : ∀ k : Nat, MIN_TICK + k ≤ MAX_TICK →
      priceOf (MIN_TICK + k) ≤ p ∨ ∃ t, FloorTick p t := by
    intro k
    induction k with
    | zero => intro _; left; rw [Nat.cast_zero, add_zero, priceOf_min]; exact h1
    | succ k ih =>
      intro hk
      rcases ih (by push_cast at hk; omega) with h | h
      · rcases Nat.lt_or_ge p (priceOf (MIN_TICK + (k + 1 : Nat))) with h2 | h2
        · right
          refine ⟨MIN_TICK + k, by omega, by push_cast at hk; omega, h, fun _ => ?_⟩
          rw [show MIN_TICK + (k : Int) + 1 = MIN_TICK + (k + 1 : Nat) by push_cast; ring]
          exact h2
        · left; exact h2
      · right; exact h
  rcases key 443636 (by norm_num [MIN_TICK, MAX_TICK]) with h | h
  · have e : MIN_TICK + (443636 : Nat) = MAX_TICK := by norm_num [MIN_TICK, MAX_TICK]
    rw [e] at h
    exact ⟨MAX_TICK, by norm_num [MIN_TICK, MAX_TICK], le_rfl, h, fun h => absurd h (lt_irrefl _)⟩
  · exact h

theorem FloorTick.le_of {p : Nat} {t u : Int} (h : FloorTick p t) (hu : MIN_TICK ≤ u)
    (hu2 : u ≤ MAX_TICK) (hp : priceOf u ≤ p) : u ≤ t := by
  by_contra hc
  push Not at hc
  have h1 := h.high (by omega)
  have h2 := priceOf_le (t := t + 1) (u := u) (by have := h.ge; omega) hu2 (by omega)
  omega

theorem FloorTick.lt_of {p : Nat} {t u : Int} (h : FloorTick p t) (hu : MIN_TICK ≤ u)
    (hu2 : u ≤ MAX_TICK) (hp : p < priceOf u) : t < u := by
  by_contra hc
  push Not at hc
  have h2 := priceOf_le hu h.le hc
  have := h.low
  omega

theorem FloorTick.unique {p : Nat} {t u : Int} (h : FloorTick p t) (h' : FloorTick p u) : t = u :=
  le_antisymm (h'.le_of h.ge h.le h.low) (h.le_of h'.ge h'.le h'.low)

theorem priceOf_nat (n : Nat) : priceOf (n : Int) = fpPrice n * 10 ^ 12 := by
  unfold priceOf
  rw [if_pos (by omega)]
  simp

theorem priceOf_neg {n : Nat} (h : 0 < n) : priceOf (-(n : Int)) = 10 ^ 24 / fpPrice n * 10 ^ 12 := by
  unfold priceOf
  rw [if_neg (by omega)]
  simp

/-- logarithm of a price -/
noncomputable def plog (p : Nat) : ℝ := Real.log ((p : ℝ) / 10 ^ 24)

theorem plog_fp (n : Nat) : plog (n * 10 ^ 12) = flog n := by
  unfold plog flog
  congr 1
  push_cast
  rw [div_eq_div_iff (by positivity) (by positivity)]
  ring

theorem plog_mono {p q : Nat} (h0 : 0 < p) (h : p ≤ q) : plog p ≤ plog q := by
  unfold plog
  have : (0 : ℝ) < p := by exact_mod_cast h0
  have h2 : (p : ℝ) ≤ q := by exact_mod_cast h
  apply Real.log_le_log (by positivity)
  gcongr

theorem unit_ge : 1.6138e-10 < unit := by
  have := Real.log_two_gt_d9
  unfold unit
  norm_num at *
  linarith

theorem eta_le : eta ≤ 5e-10 := by
  have e : eta = 1 / 2 ^ 31 := rfl
  rw [e]; norm_num

private theorem fin_pos {n R u e lam fl pl lx L : ℝ} (hu : 1.6138e-10 < u) (he : e ≤ 5e-10)
    (r2 : lx - L ≤ (R + 2 ^ 17) * u + 2 * e) (l2 : pl + L ≤ lx + e) (h3 : fl ≤ pl)
    (h4 : n * lam - 1 / 10 ^ 10 ≤ fl) (h6 : n * (309800.8 * u) ≤ n * lam)
    (h7 : R * u ≤ 309801 * (n - 1) * u) (h8 : n * u ≤ 221818 * u) : False := by
  have a1 : (R + 2 ^ 17) * u = R * u + 131072 * u := by ring
  have a2 : 309801 * (n - 1) * u = 309801 * (n * u) - 309801 * u := by ring
  have a3 : n * (309800.8 * u) = 309800.8 * (n * u) := by ring
  rw [a1] at r2
  rw [a2] at h7
  rw [a3] at h6
  norm_num at *
  linarith

private theorem fin_neg {n R u e lam fl fq pl lx lx1 L : ℝ} (hu : 1.6138e-10 < u) (he : e ≤ 5e-10)
    (r2 : lx - L ≤ (R + 2 ^ 17) * u + 2 * e) (l2 : 2 * L - lx1 ≤ lx + e)
    (u2 : lx1 ≤ pl + L + 1 / 65536) (h3 : pl ≤ fq) (h4 : fq + fl ≤ 0)
    (h5 : (n - 1) * lam - 1 / 10 ^ 10 ≤ fl) (h6 : (n - 1) * (309800.8 * u) ≤ (n - 1) * lam)
    (h7 : R * u ≤ (309801 * (n - 1) - 300000) * u) (h8 : n * u ≤ 221818 * u) : False := by
  have a1 : (R + 2 ^ 17) * u = R * u + 131072 * u := by ring
  have a2 : (309801 * (n - 1) - 300000) * u = 309801 * (n * u) - 609801 * u := by ring
  have a3 : (n - 1) * (309800.8 * u) = 309800.8 * (n * u) - 309800.8 * u := by ring
  rw [a1] at r2
  rw [a2] at h7
  rw [a3] at h6
  norm_num at *
  linarith

theorem log2X32_small {x : Nat} (h : x < 2 ^ 32) :
    log2X32 x = (false, (log2X32 (2 ^ 64 / (x + 1))).2) := by
  have hge : 2 ^ 32 ≤ 2 ^ 64 / (x + 1) := by
    rw [Nat.le_div_iff_mul_le (by omega)]
    calc 2 ^ 32 * (x + 1) ≤ 2 ^ 32 * 2 ^ 32 := Nat.mul_le_mul_left _ (by omega)
      _ = _ := by norm_num
  unfold log2X32
  have h1 : x < 4294967296 := h
  have e : 18446744073709551616 / (x + 1) = 2 ^ 64 / (x + 1) := by norm_num
  have h2 : ¬ 2 ^ 64 / (x + 1) < 4294967296 := by omega
  simp only [h1, if_true, decide_true, Bool.not_true, e]
  simp only [h2, if_false, decide_false, Bool.not_false]
  split <;> rfl

theorem cand_pos {p : Nat} {t : Int} (hf : FloorTick p t) (h1 : 10 ^ 24 ≤ p) (h2 : p ≤ MAX_SQRT_PRICE) :
    ∃ a : Nat, tickCandidates p = (true, (a : Int), (a : Int) + 1) ∧ (a : Int) ≤ t ∧ t ≤ a + 1 := by
  have ht0 : 0 ≤ t := hf.le_of (by norm_num [MIN_TICK]) (by norm_num [MAX_TICK])
    (by rw [priceOf_zero]; exact h1)
  obtain ⟨n, rfl⟩ : ∃ n : Nat, t = n := ⟨t.toNat, by omega⟩
  have hn : n ≤ 221818 := by have := hf.le; simp only [MAX_TICK] at this; omega
  set x := sqrtPriceToX32 p with hx
  have hx1 : 2 ^ 32 ≤ x := by
    rw [hx]; unfold sqrtPriceToX32
    rw [Nat.le_div_iff_mul_le (by norm_num [spOne])]
    norm_num [spOne] at h1 ⊢
    omega
  have hx2 : x < 2 ^ 64 := by
    rw [hx]; unfold sqrtPriceToX32
    rw [Nat.div_lt_iff_lt_mul (by norm_num [spOne])]
    norm_num [spOne, MAX_SQRT_PRICE] at h2 ⊢
    omega
  obtain ⟨R, e, r1, r2⟩ := log2X32_bounds hx1 hx2
  have hp0 : (0 : ℝ) < p := by
    have : 0 < p := lt_of_lt_of_le (by norm_num) h1
    exact_mod_cast this
  have z1 : (x : ℝ) ≤ (p : ℝ) / 10 ^ 24 * 2 ^ 32 := by
    have : x * 10 ^ 24 ≤ p * 2 ^ 32 := by
      have := Nat.div_mul_le_self (p * 4294967296) spOne
      norm_num [spOne] at this ⊢
      exact this
    have : (x : ℝ) * 10 ^ 24 ≤ p * 2 ^ 32 := by exact_mod_cast this
    rw [div_mul_eq_mul_div, le_div_iff₀ (by positivity)]
    exact this
  have z2 : (p : ℝ) / 10 ^ 24 * 2 ^ 32 < x + 1 := by
    have : p * 2 ^ 32 < (x + 1) * 10 ^ 24 := by
      have := lt_div_add_one_mul (p * 4294967296) (d := spOne) (by norm_num [spOne])
      norm_num [spOne] at this ⊢
      exact this
    have : (p : ℝ) * 2 ^ 32 < (x + 1) * 10 ^ 24 := by exact_mod_cast this
    rw [div_mul_eq_mul_div, div_lt_iff₀ (by positivity)]
    exact this
  have z3 : (2 ^ 32 : ℝ) ≤ (p : ℝ) / 10 ^ 24 * 2 ^ 32 :=
    le_trans (by exact_mod_cast hx1) z1
  obtain ⟨l1, l2⟩ := log_trunc z3 z1 z2
  have hl : Real.log ((p : ℝ) / 10 ^ 24 * 2 ^ 32) = plog p + Real.log (2 ^ 32) := by
    rw [Real.log_mul (by positivity) (by positivity)]; rfl
  rw [hl] at l1 l2
  have hup := unit_ge
  have hup0 := unit_pos
  have hel := eta_le
  refine ⟨R / 309801, ?_, ?_, ?_⟩
  · unfold tickCandidates
    simp only [← hx, e]
    rfl
  · by_contra hc
    push Not at hc
    have hR : 309801 * (n + 1) ≤ R := by
      have : n + 1 ≤ R / 309801 := by omega
      have := (Nat.le_div_iff_mul_le (by norm_num)).1 this
      linarith
    have hRr : (309801 : ℝ) * (n + 1) ≤ R := by exact_mod_cast hR
    have hlog : plog p ≤ (n + 1) * lamU := by
      by_cases hm : (n : Int) < MAX_TICK
      · have hh := hf.high hm
        rw [show (n : Int) + 1 = ((n + 1 : Nat) : Int) by push_cast; ring, priceOf_nat] at hh
        have h3 := plog_mono (by exact_mod_cast hp0) hh.le
        rw [plog_fp] at h3
        have h4 := (fpPrice_log (n + 1) (by omega)).1
        push_cast at h4
        linarith
      · have e2 : n = 221818 := by simp only [MAX_TICK] at hm; omega
        have h3 := plog_mono (by exact_mod_cast hp0) h2
        have e3 : MAX_SQRT_PRICE = fpPrice n * 10 ^ 12 := by
          rw [← priceOf_nat, e2]; exact priceOf_max.symm
        rw [e3, plog_fp] at h3
        have h4 := (fpPrice_log n (by omega)).1
        have h5 : 0 ≤ lamU := by unfold lamU; norm_num
        linarith
    have h6 := rate_upper
    have h7 : ((n : ℝ) + 1) * lamU < (n + 1) * (309801 * unit) := by
      apply mul_lt_mul_of_pos_left h6
      positivity
    have h8 : (309801 : ℝ) * (n + 1) * unit ≤ R * unit := by gcongr
    linarith
  · by_contra hc
    push Not at hc
    have hR : R < 309801 * (n - 1 : Nat) := by
      have : R / 309801 < n - 1 := by omega
      have := (Nat.div_lt_iff_lt_mul (by norm_num)).1 this
      linarith
    have hn1 : 1 ≤ n := by omega
    have hRr : (R : ℝ) < 309801 * (n - 1) := by
      have : (R : ℝ) < (309801 * (n - 1 : Nat) : Nat) := by exact_mod_cast hR
      push_cast [Nat.cast_sub hn1] at this
      exact this
    have hlow := hf.low
    rw [priceOf_nat] at hlow
    have h3 := plog_mono (by have := fpOne_le_fpPrice n; norm_num [fpOne] at this; positivity) hlow
    rw [plog_fp] at h3
    have h4 := (fpPrice_log n (by omega)).2
    have h5 := rate_lower
    have hnr : (n : ℝ) ≤ 221818 := by exact_mod_cast hn
    have h6 : (n : ℝ) * (309800.8 * unit) ≤ n * lamL := by gcongr
    have h7 : (R : ℝ) * unit ≤ 309801 * (n - 1) * unit := by gcongr
    have h8 : (n : ℝ) * unit ≤ 221818 * unit := by gcongr
    exact fin_pos hup hel r2 l2 h3 h4 h6 h7 h8

set_option maxHeartbeats 1000000 in
theorem cand_neg {p : Nat} {t : Int} (hf : FloorTick p t) (h1 : p < 10 ^ 24) (h2 : MIN_SQRT_PRICE ≤ p) :
    ∃ a : Nat, tickCandidates p = (false, -(a : Int), -(a : Int) - 1) ∧ -(a : Int) - 1 ≤ t ∧
      t ≤ -(a : Int) ∧ a ≤ 221818 := by
  have ht0 : t < 0 := hf.lt_of (by norm_num [MIN_TICK]) (by norm_num [MAX_TICK])
    (by rw [priceOf_zero]; exact h1)
  obtain ⟨n, rfl⟩ : ∃ n : Nat, t = -(n : Int) := ⟨(-t).toNat, by omega⟩
  have hn0 : 0 < n := by omega
  have hn : n ≤ 221818 := by have := hf.ge; simp only [MIN_TICK] at this; omega
  set x := sqrtPriceToX32 p with hx
  have hx1 : x < 2 ^ 32 := by
    rw [hx]; unfold sqrtPriceToX32
    rw [Nat.div_lt_iff_lt_mul (by norm_num [spOne])]
    norm_num [spOne] at h1 ⊢
    omega
  have hx2 : 65536 ≤ x := by
    rw [hx]; unfold sqrtPriceToX32
    rw [Nat.le_div_iff_mul_le (by norm_num [spOne])]
    norm_num [spOne, MIN_SQRT_PRICE] at h2 ⊢
    omega
  have hge : 2 ^ 32 ≤ 2 ^ 64 / (x + 1) := by
    rw [Nat.le_div_iff_mul_le (by omega)]
    calc 2 ^ 32 * (x + 1) ≤ 2 ^ 32 * 2 ^ 32 := Nat.mul_le_mul_left _ (by omega)
      _ = _ := by norm_num
  have hlt : 2 ^ 64 / (x + 1) < 2 ^ 64 := Nat.div_lt_self (by norm_num) (by omega)
  obtain ⟨R, e, r1, r2⟩ := log2X32_bounds hge hlt
  have hp0 : (0 : ℝ) < p := by
    have : 0 < p := lt_of_lt_of_le (by norm_num [MIN_SQRT_PRICE]) h2
    exact_mod_cast this
  -- the real number behind `x`
  have z1 : (x : ℝ) ≤ (p : ℝ) / 10 ^ 24 * 2 ^ 32 := by
    have : x * 10 ^ 24 ≤ p * 2 ^ 32 := by
      have := Nat.div_mul_le_self (p * 4294967296) spOne
      norm_num [spOne] at this ⊢
      exact this
    have : (x : ℝ) * 10 ^ 24 ≤ p * 2 ^ 32 := by exact_mod_cast this
    rw [div_mul_eq_mul_div, le_div_iff₀ (by positivity)]
    exact this
  have z2 : (p : ℝ) / 10 ^ 24 * 2 ^ 32 < x + 1 := by
    have : p * 2 ^ 32 < (x + 1) * 10 ^ 24 := by
      have := lt_div_add_one_mul (p * 4294967296) (d := spOne) (by norm_num [spOne])
      norm_num [spOne] at this ⊢
      exact this
    have : (p : ℝ) * 2 ^ 32 < (x + 1) * 10 ^ 24 := by exact_mod_cast this
    rw [div_mul_eq_mul_div, div_lt_iff₀ (by positivity)]
    exact this
  have hxr : (65536 : ℝ) ≤ x := by exact_mod_cast hx2
  have hl : Real.log ((p : ℝ) / 10 ^ 24 * 2 ^ 32) = plog p + Real.log (2 ^ 32) := by
    rw [Real.log_mul (by positivity) (by positivity)]; rfl
  have hw0 : (0 : ℝ) < (p : ℝ) / 10 ^ 24 * 2 ^ 32 := by positivity
  have u1 : plog p + Real.log (2 ^ 32) ≤ Real.log ((x : ℝ) + 1) := by
    rw [← hl]; exact Real.log_le_log hw0 z2.le
  have u2 : Real.log ((x : ℝ) + 1) ≤ plog p + Real.log (2 ^ 32) + 1 / 65536 := by
    rw [← hl]
    have : Real.log ((x : ℝ) + 1) - Real.log ((p : ℝ) / 10 ^ 24 * 2 ^ 32) ≤ 1 / 65536 := by
      rw [← Real.log_div (by positivity) hw0.ne']
      refine le_trans (Real.log_le_sub_one_of_pos (by positivity)) ?_
      rw [sub_le_iff_le_add, div_le_iff₀ hw0]
      linarith
    linarith
  -- the truncated reciprocal
  set x' := 2 ^ 64 / (x + 1) with hx'
  have y1 : (x' : ℝ) ≤ 2 ^ 64 / ((x : ℝ) + 1) := by
    rw [le_div_iff₀ (by positivity)]
    have : x' * (x + 1) ≤ 2 ^ 64 := Nat.div_mul_le_self _ _
    exact_mod_cast this
  have y2 : 2 ^ 64 / ((x : ℝ) + 1) < x' + 1 := by
    rw [div_lt_iff₀ (by positivity)]
    have : 2 ^ 64 < (x' + 1) * (x + 1) := lt_div_add_one_mul _ (by omega)
    exact_mod_cast this
  obtain ⟨l1, l2⟩ := log_trunc (le_trans (by exact_mod_cast hge) y1) y1 y2
  have hl2 : Real.log (2 ^ 64 / ((x : ℝ) + 1)) = 2 * Real.log (2 ^ 32) - Real.log ((x : ℝ) + 1) := by
    rw [Real.log_div (by positivity) (by positivity), Real.log_pow, Real.log_pow]
    push_cast
    ring
  rw [hl2] at l1 l2
  have hup := unit_ge
  have hup0 := unit_pos
  have hel := eta_le
  have hnr : (n : ℝ) ≤ 221818 := by exact_mod_cast hn
  have ub : (R + 300000) / 309801 ≤ n := by
    by_contra hc
    push Not at hc
    have hR : 309801 * (n + 1) ≤ R + 300000 := by
      have := (Nat.le_div_iff_mul_le (by norm_num)).1 hc
      omega
    have hRr : (309801 : ℝ) * (n + 1) ≤ R + 300000 := by exact_mod_cast hR
    -- the price of the tick
    have hlow := hf.low
    rw [priceOf_neg hn0] at hlow
    set Q := 10 ^ 24 / fpPrice n with hQ
    have hQmin : 15258932 ≤ Q := by
      rw [← fpPrice_max_div, hQ]
      have hF := fpPrice_le_max hn
      rw [← fpPrice_max] at hF
      exact Nat.div_le_div_left hF (by have := fpOne_le_fpPrice n; norm_num [fpOne] at this; omega)
    have hQ0 : (15258932 : ℝ) ≤ Q := by exact_mod_cast hQmin
    have h3 := plog_mono (by positivity) hlow
    rw [plog_fp] at h3
    have hF0 : (0 : ℝ) < fpPrice n := by
      have := fpOne_le_fpPrice n
      norm_num [fpOne] at this
      have : 0 < fpPrice n := by omega
      exact_mod_cast this
    have hQF : (10 ^ 24 : ℝ) < (Q + 1) * fpPrice n := by
      have : 10 ^ 24 < (Q + 1) * fpPrice n := lt_div_add_one_mul _ (by exact_mod_cast hF0)
      exact_mod_cast this
    have h4 : -(1 / 15258932) ≤ flog Q + flog (fpPrice n) := by
      have hQ1 : (0 : ℝ) < Q := by linarith
      have e1 : flog Q + flog (fpPrice n) = Real.log ((Q : ℝ) * fpPrice n / 10 ^ 24) := by
        unfold flog
        rw [← Real.log_mul (by positivity) (by positivity)]
        congr 1
        rw [div_mul_div_comm]
        norm_num
      rw [e1, ← neg_neg (Real.log _), ← Real.log_inv, neg_le_neg_iff, inv_div]
      refine le_trans (Real.log_le_sub_one_of_pos (by positivity)) ?_
      rw [sub_le_iff_le_add, div_le_iff₀ (by positivity)]
      have : (fpPrice n : ℝ) * 1 ≤ fpPrice n * (Q / 15258932) := by
        gcongr
        rw [le_div_iff₀ (by norm_num)]; linarith
      have e2 : (1 / 15258932 + 1) * ((Q : ℝ) * fpPrice n) =
          Q * fpPrice n + fpPrice n * (Q / 15258932) := by ring
      rw [e2]
      linarith
    have h5 := (fpPrice_log n (by omega)).1
    have h6 := rate_upper
    have h7 : (n : ℝ) * lamU ≤ n * (309801 * unit) := by gcongr
    have h8 : ((309801 : ℝ) * (n + 1) - 300000) * unit ≤ R * unit := by gcongr; linarith
    clear * - hup hup0 hel r1 r2 l1 l2 h3 h4 h5 h6 h7 h8 u1 u2
    norm_num at hup hel h7 h8 h4 h5
    linarith
  refine ⟨(R + 300000) / 309801, ?_, ?_, ?_, by omega⟩
  · unfold tickCandidates
    simp only [← hx, log2X32_small hx1, ← hx', e]
    rfl
  · by_contra hc
    push Not at hc
    have hn1 : 1 ≤ n := hn0
    have hR : R + 300000 < 309801 * (n - 1 : Nat) := by
      have : (R + 300000) / 309801 < n - 1 := by omega
      have := (Nat.div_lt_iff_lt_mul (by norm_num)).1 this
      linarith
    have hRr : (R : ℝ) + 300000 < 309801 * (n - 1) := by
      have : (R : ℝ) + 300000 < (309801 * (n - 1 : Nat) : Nat) := by exact_mod_cast hR
      push_cast [Nat.cast_sub hn1] at this
      exact this
    have hn2 : 0 < n - 1 := by omega
    have hh := hf.high (by simp only [MAX_TICK]; omega)
    rw [show -(n : Int) + 1 = -((n - 1 : Nat) : Int) by omega, priceOf_neg hn2] at hh
    set Q := 10 ^ 24 / fpPrice (n - 1) with hQ
    have h3 := plog_mono (by exact_mod_cast hp0) hh.le
    rw [plog_fp] at h3
    have hF0 : (0 : ℝ) < fpPrice (n - 1) := by
      have := fpOne_le_fpPrice (n - 1)
      norm_num [fpOne] at this
      have : 0 < fpPrice (n - 1) := by omega
      exact_mod_cast this
    have hQ1 : (0 : ℝ) < Q := by
      have : 0 < Q := by
        by_contra hq
        have : Q = 0 := by omega
        rw [this] at hh
        simp at hh
      exact_mod_cast this
    have h4 : flog Q + flog (fpPrice (n - 1)) ≤ 0 := by
      have e1 : flog Q + flog (fpPrice (n - 1)) = Real.log ((Q : ℝ) * fpPrice (n - 1) / 10 ^ 24) := by
        unfold flog
        rw [← Real.log_mul (by positivity) (by positivity)]
        congr 1
        rw [div_mul_div_comm]
        norm_num
      rw [e1]
      apply Real.log_nonpos (by positivity)
      rw [div_le_one (by positivity)]
      have : Q * fpPrice (n - 1) ≤ 10 ^ 24 := Nat.div_mul_le_self _ _
      exact_mod_cast this
    have h5 := (fpPrice_log (n - 1) (by omega)).2
    have hc1 : ((n - 1 : Nat) : ℝ) = n - 1 := by push_cast [Nat.cast_sub hn1]; ring
    rw [hc1] at h5
    have h6 := rate_lower
    have h6' : ((n : ℝ) - 1) * (309800.8 * unit) ≤ (n - 1) * lamL := by
      apply mul_le_mul_of_nonneg_left h6.le
      have : (1 : ℝ) ≤ n := by exact_mod_cast hn1
      linarith
    have h7 : (R : ℝ) * unit ≤ (309801 * (n - 1) - 300000) * unit := by gcongr; linarith
    have h8 : (n : ℝ) * unit ≤ 221818 * unit := by gcongr
    exact fin_neg hup hel r2 l2 u2 h3 h4 h5 h6' h7 h8
  · omega

end Verif
