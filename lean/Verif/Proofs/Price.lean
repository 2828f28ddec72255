import Verif.Proofs.Delta
import Mathlib.Data.Nat.Bitwise

/-! # The price of a tick: closed form, bounds and growth -/

namespace Verif

/-- the factors of `priceTable` -/
def factors : List Nat := priceTable.map Prod.snd

/-- closed form of the product loop: low bits first -/
def prodP : List Nat → Nat → Nat → Nat
  | [], _, sp => sp
  | c :: cs, t, sp => prodP cs (t / 2) (if t % 2 = 1 then sp * c / fpOne else sp)

/-- masks `2^k, 2^(k+1), …` attached to the factors -/
def maskTable : Nat → List Nat → List (Nat × Nat)
  | _, [] => []
  | k, c :: cs => (2 ^ k, c) :: maskTable (k + 1) cs

theorem priceTable_eq : priceTable = maskTable 0 factors := by decide

/-- all products of the loop fit in 128 bits, starting from at most `a` -/
def chkBound : Nat → List Nat → Bool
  | _, [] => true
  | a, c :: cs => decide (a * c < 2 ^ 128) && decide (fpOne ≤ c) && chkBound (a * c / fpOne) cs

theorem land_two_pow_ne_zero (t k : Nat) : t &&& 2 ^ k ≠ 0 ↔ t / 2 ^ k % 2 = 1 := by
  have h : (t &&& 2 ^ k ≠ 0) ↔ t.testBit k = true := by
    rw [Nat.and_comm, Nat.two_pow_and]
    cases h : t.testBit k <;> simp
  rw [h, Nat.testBit_eq_decide_div_mod_eq]
  simp

theorem fold_eq (t : Nat) : ∀ (cs : List Nat) (k sp a : Nat), sp ≤ a → chkBound a cs = true →
    (maskTable k cs).foldlM
      (fun sp mc => if t &&& mc.1 ≠ 0 then fpMul sp mc.2 else (pure sp : M Nat)) sp
      = .ok (prodP cs (t / 2 ^ k) sp) := by
  intro cs
  induction cs with
  | nil => intro k sp a _ _; rfl
  | cons c cs ih =>
    intro k sp a hsp hb
    simp only [chkBound, Bool.and_eq_true, decide_eq_true_eq] at hb
    obtain ⟨⟨hb1, hb2⟩, hb3⟩ := hb
    have hmul : sp * c ≤ a * c := Nat.mul_le_mul_right _ hsp
    have hdiv : sp * c / fpOne ≤ a * c / fpOne := Nat.div_le_div_right hmul
    have hle : a ≤ a * c / fpOne := by
      rw [Nat.le_div_iff_mul_le (by norm_num [fpOne])]
      exact Nat.mul_le_mul_left _ hb2
    simp only [maskTable, List.foldlM_cons, prodP]
    by_cases h : t / 2 ^ k % 2 = 1
    · rw [if_pos ((land_two_pow_ne_zero t k).2 h), if_pos h]
      unfold fpMul
      rw [mulC_eq (lt_of_le_of_lt hmul hb1), ok_bind]
      have := ih (k + 1) (sp * c / fpOne) _ hdiv hb3
      rw [pow_succ, ← Nat.div_div_eq_div_mul] at this
      exact this
    · rw [if_neg (fun h' => h ((land_two_pow_ne_zero t k).1 h')), if_neg h]
      have := ih (k + 1) sp _ (le_trans hsp hle) hb3
      rw [pow_succ, ← Nat.div_div_eq_div_mul] at this
      exact this

/-- the fixed point price of a non-negative tick -/
def fpPrice (t : Nat) : Nat := prodP factors t fpOne

theorem prodP_mono_sp : ∀ (cs : List Nat) (t a b : Nat), a ≤ b → prodP cs t a ≤ prodP cs t b := by
  intro cs
  induction cs with
  | nil => intro t a b h; exact h
  | cons c cs ih =>
    intro t a b h
    simp only [prodP]
    apply ih
    split
    · exact Nat.div_le_div_right (Nat.mul_le_mul_right _ h)
    · exact h

theorem prodP_ge : ∀ (cs : List Nat) (t a : Nat), (∀ c ∈ cs, fpOne ≤ c) → a ≤ prodP cs t a := by
  intro cs
  induction cs with
  | nil => intro t a _; exact le_rfl
  | cons c cs ih =>
    intro t a h
    simp only [prodP]
    refine le_trans ?_ (ih _ _ (fun c' hc' => h c' (List.mem_cons_of_mem _ hc')))
    split
    · rw [Nat.le_div_iff_mul_le (by norm_num [fpOne])]
      exact Nat.mul_le_mul_left _ (h c List.mem_cons_self)
    · exact le_rfl

/-- a relative gap survives the remaining factors; each floor costs `m` -/
theorem prodP_gap (m : Nat) : ∀ (cs : List Nat) (t a b : Nat), (∀ c ∈ cs, fpOne ≤ c) →
    a * (m + 1) + cs.length * m ≤ b * m →
    prodP cs t a * (m + 1) ≤ prodP cs t b * m := by
  intro cs
  induction cs with
  | nil => intro t a b _ h; simpa [prodP] using h
  | cons c cs ih =>
    intro t a b hc h
    have hc' : ∀ c' ∈ cs, fpOne ≤ c' := fun c' h' => hc c' (List.mem_cons_of_mem _ h')
    have hc0 := hc c List.mem_cons_self
    simp only [List.length_cons] at h
    simp only [prodP]
    apply ih _ _ _ hc'
    split
    · have hp : 0 < fpOne := by norm_num [fpOne]
      have h1 : a * c / fpOne * fpOne ≤ a * c := Nat.div_mul_le_self _ _
      have h2 : b * c < (b * c / fpOne + 1) * fpOne := by
        have := Nat.lt_div_mul_add hp (a := b * c)
        nlinarith
      generalize a * c / fpOne = a' at *
      generalize b * c / fpOne = b' at *
      generalize cs.length = n at *
      -- (a' (m+1) + n m) * fpOne ≤ b' m fpOne
      apply Nat.le_of_mul_le_mul_right _ hp
      have h3 : (a * (m + 1) + (n + 1) * m) * c ≤ b * m * c := Nat.mul_le_mul_right _ h
      have h4 : b * c * m ≤ (b' + 1) * fpOne * m := Nat.mul_le_mul_right _ h2.le
      have h5 : a' * fpOne * (m + 1) ≤ a * c * (m + 1) := Nat.mul_le_mul_right _ h1
      have h6 : (n + 1) * m * fpOne ≤ (n + 1) * m * c := Nat.mul_le_mul_left _ hc0
      nlinarith
    · nlinarith

/-- gap between a full block of low ones and the next factor -/
def chkGap (m : Nat) : Nat → List Nat → Bool
  | _, [] => true
  | a, c :: cs => decide (a * (m + 1) + cs.length * m ≤ c * m) && chkGap m (a * c / fpOne) cs

theorem prodP_succ (m : Nat) : ∀ (cs : List Nat) (t a : Nat), (∀ c ∈ cs, fpOne ≤ c) →
    chkGap m a cs = true → t + 1 < 2 ^ cs.length →
    prodP cs t a * (m + 1) ≤ prodP cs (t + 1) fpOne * m := by
  intro cs
  induction cs with
  | nil => intro t a _ _ h; simp at h
  | cons c cs ih =>
    intro t a hc hg ht
    have hc' : ∀ c' ∈ cs, fpOne ≤ c' := fun c' h' => hc c' (List.mem_cons_of_mem _ h')
    simp only [chkGap, Bool.and_eq_true, decide_eq_true_eq] at hg
    simp only [List.length_cons, pow_succ] at ht
    simp only [prodP]
    by_cases h : t % 2 = 1
    · have h1 : ¬ (t + 1) % 2 = 1 := by omega
      have h2 : (t + 1) / 2 = t / 2 + 1 := by omega
      rw [if_pos h, if_neg h1, h2]
      exact ih _ _ hc' hg.2 (by omega)
    · have h1 : (t + 1) % 2 = 1 := by omega
      have h2 : (t + 1) / 2 = t / 2 := by omega
      rw [if_neg h, if_pos h1, h2, Nat.mul_div_cancel_left _ (by norm_num [fpOne])]
      exact prodP_gap m cs _ _ _ hc' hg.1

theorem factors_ge : ∀ c ∈ factors, fpOne ≤ c := by decide

theorem fpPrice_succ {t : Nat} (h : t + 1 < 2 ^ 18) :
    fpPrice t * 1000001 ≤ fpPrice (t + 1) * 1000000 :=
  prodP_succ 1000000 factors t fpOne factors_ge (by decide +kernel) h

theorem fpOne_le_fpPrice (t : Nat) : fpOne ≤ fpPrice t := prodP_ge _ _ _ factors_ge

theorem fpPrice_lt {t u : Nat} (h : t < u) (hu : u < 2 ^ 18) : fpPrice t < fpPrice u := by
  induction u with
  | zero => omega
  | succ n ih =>
    have h1 := fpPrice_succ hu
    have h2 := fpOne_le_fpPrice n
    have h3 : fpPrice n < fpPrice (n + 1) := by
      norm_num [fpOne] at h2; omega
    rcases Nat.lt_succ_iff_lt_or_eq.1 h with h4 | h4
    · exact lt_trans (ih h4 (by omega)) h3
    · subst h4; exact h3

theorem fpPrice_zero : fpPrice 0 = 1000000000000 := by decide +kernel
theorem fpPrice_max : fpPrice 221818 = 65535383934512647 := by decide +kernel
theorem fpPrice_max_div : 10 ^ 24 / fpPrice 221818 = 15258932 := by decide +kernel

theorem fpPrice_le_max {t : Nat} (h : t ≤ 221818) : fpPrice t ≤ 65535383934512647 := by
  rw [← fpPrice_max]
  rcases Nat.lt_or_eq_of_le h with h1 | h1
  · exact (fpPrice_lt h1 (by norm_num)).le
  · rw [h1]

/-- the sqrt price of a tick in range, as a total function -/
def priceOf (t : Int) : Nat :=
  if 0 ≤ t then fpPrice t.natAbs * 10 ^ 12 else 10 ^ 24 / fpPrice t.natAbs * 10 ^ 12

theorem calculateSqrtPrice_eq {t : Int} (h1 : MIN_TICK ≤ t) (h2 : t ≤ MAX_TICK) :
    calculateSqrtPrice t = .ok (priceOf t) := by
  simp only [MIN_TICK, MAX_TICK] at h1 h2
  have hn : t.natAbs ≤ 221818 := by omega
  have ha : absI32 t = (t.natAbs : Int) := by
    unfold absI32; rw [if_neg (by omega)]
  have hbits : bitsI32 (t.natAbs : Int) = t.natAbs := by
    unfold bitsI32
    change ((t.natAbs : Int) % 4294967296).toNat = t.natAbs
    omega
  unfold calculateSqrtPrice
  simp only [ha, hbits]
  rw [failIf_neg (by simp only [MAX_TICK]; omega), ok_bind]
  have hf := fold_eq t.natAbs factors 0 fpOne fpOne le_rfl (by decide +kernel)
  rw [← priceTable_eq, pow_zero, Nat.div_one] at hf
  change (do
    let sp ← priceTable.foldlM _ fpOne
    _ : M Nat) = _
  rw [hf, ok_bind]
  have hmax := fpPrice_le_max hn
  have hge := fpOne_le_fpPrice t.natAbs
  unfold priceOf
  rw [show prodP factors t.natAbs fpOne = fpPrice t.natAbs from rfl]
  by_cases h0 : 0 ≤ t
  · rw [if_pos h0, if_pos h0, mulC_eq (lt_of_le_of_lt (Nat.mul_le_mul_right _ hmax) (by norm_num))]
    norm_num
  · rw [if_neg h0, if_neg h0, mulC_eq (by norm_num [fpOne]), ok_bind,
      divC_eq (lt_of_lt_of_le (by norm_num [fpOne]) hge), ok_bind]
    have : fpOne * fpOne = 10 ^ 24 := by norm_num [fpOne]
    rw [this]
    have hlt : 10 ^ 24 / fpPrice t.natAbs * 10 ^ 12 < 2 ^ 128 :=
      lt_of_le_of_lt (Nat.mul_le_mul_right _ (Nat.div_le_self _ _)) (by norm_num)
    rw [show (1000000000000 : Nat) = 10 ^ 12 from by norm_num, mulC_eq hlt]

theorem calculateSqrtPrice_out {t : Int} (h : t < MIN_TICK ∨ MAX_TICK < t) (h2 : t ≠ -2147483648) :
    calculateSqrtPrice t = .error .track := by
  simp only [MIN_TICK, MAX_TICK] at h
  have ha : absI32 t = (t.natAbs : Int) := by
    unfold absI32; rw [if_neg h2]
  unfold calculateSqrtPrice
  simp only [ha]
  rw [failIf_pos (by simp only [MAX_TICK]; omega), error_bind]

theorem inv_gap {t : Nat} (h : t + 1 ≤ 221818) :
    10 ^ 24 / fpPrice (t + 1) < 10 ^ 24 / fpPrice t := by
  have h1 := fpPrice_succ (t := t) (by omega)
  have h2 := fpOne_le_fpPrice t
  have h3 := fpPrice_le_max h
  norm_num [fpOne] at h2
  generalize fpPrice t = a at *
  generalize fpPrice (t + 1) = b at *
  have hb : 0 < b := by omega
  rw [Nat.lt_iff_add_one_le, Nat.le_div_iff_mul_le (by omega)]
  have h4 : 10 ^ 24 / b * b ≤ 10 ^ 24 := Nat.div_mul_le_self _ _
  generalize 10 ^ 24 / b = q at *
  -- (q+1) a ≤ 10^24
  have h5 : q * (a * 1000001) ≤ q * (b * 1000000) := Nat.mul_le_mul_left _ h1
  have h6 : a ≤ b := by omega
  by_cases hq : q * a + a ≤ 10 ^ 24
  · calc (q + 1) * a = q * a + a := by ring
      _ ≤ _ := hq
  · exfalso
    have hq' : q * a ≤ q * b := Nat.mul_le_mul_left _ h6
    -- q*a*1000001 ≤ 10^30
    have h7 : q * a * 1000001 ≤ 10 ^ 30 := by nlinarith
    norm_num at h7 h3 hq h4
    omega

theorem priceOf_lt {t u : Int} (h1 : MIN_TICK ≤ t) (h2 : u ≤ MAX_TICK) (h : t < u) :
    priceOf t < priceOf u := by
  simp only [MIN_TICK, MAX_TICK] at h1 h2
  have key : ∀ a b : Nat, a < b → b ≤ 221818 → 10 ^ 24 / fpPrice b < 10 ^ 24 / fpPrice a := by
    intro a b hab
    induction b with
    | zero => omega
    | succ n ih =>
      intro hn
      rcases Nat.lt_succ_iff_lt_or_eq.1 hab with h4 | h4
      · exact lt_trans (inv_gap hn) (ih h4 (by omega))
      · subst h4; exact inv_gap hn
  unfold priceOf
  by_cases ht : 0 ≤ t
  · have hu : 0 ≤ u := by omega
    rw [if_pos ht, if_pos hu]
    exact Nat.mul_lt_mul_of_pos_right (fpPrice_lt (by omega) (by omega)) (by norm_num)
  · rw [if_neg ht]
    have hn := key 0 t.natAbs (by omega) (by omega)
    rw [fpPrice_zero] at hn
    by_cases hu : 0 ≤ u
    · rw [if_pos hu]
      have := fpOne_le_fpPrice u.natAbs
      refine Nat.mul_lt_mul_of_pos_right ?_ (by norm_num)
      refine lt_of_lt_of_le hn ?_
      norm_num [fpOne] at this ⊢
      exact this
    · rw [if_neg hu]
      exact Nat.mul_lt_mul_of_pos_right (key _ _ (by omega) (by omega)) (by norm_num)

theorem priceOf_le {t u : Int} (h1 : MIN_TICK ≤ t) (h2 : u ≤ MAX_TICK) (h : t ≤ u) :
    priceOf t ≤ priceOf u := by
  rcases lt_or_eq_of_le h with h3 | h3
  · exact (priceOf_lt h1 h2 h3).le
  · rw [h3]

theorem priceOf_max : priceOf MAX_TICK = MAX_SQRT_PRICE := by decide +kernel
theorem priceOf_min : priceOf MIN_TICK = MIN_SQRT_PRICE := by decide +kernel
theorem priceOf_zero : priceOf 0 = 10 ^ 24 := by decide +kernel

theorem priceOf_ge_min {t : Int} (h1 : MIN_TICK ≤ t) (h2 : t ≤ MAX_TICK) :
    MIN_SQRT_PRICE ≤ priceOf t := by rw [← priceOf_min]; exact priceOf_le le_rfl h2 h1

theorem priceOf_le_max {t : Int} (h1 : MIN_TICK ≤ t) (h2 : t ≤ MAX_TICK) :
    priceOf t ≤ MAX_SQRT_PRICE := by rw [← priceOf_max]; exact priceOf_le h1 le_rfl h2

/-- inversion for a tick that is not `i32::MIN` -/
theorem calculateSqrtPrice_ok {t : Int} {p : Nat} (h : calculateSqrtPrice t = .ok p)
    (h2 : t ≠ -2147483648) : MIN_TICK ≤ t ∧ t ≤ MAX_TICK ∧ p = priceOf t := by
  by_cases h3 : MIN_TICK ≤ t ∧ t ≤ MAX_TICK
  · rw [calculateSqrtPrice_eq h3.1 h3.2] at h
    cases h
    exact ⟨h3.1, h3.2, rfl⟩
  · rw [calculateSqrtPrice_out (by omega) h2] at h
    cases h

end Verif
