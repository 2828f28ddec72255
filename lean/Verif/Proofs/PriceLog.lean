import Verif.Proofs.Log
import Verif.Proofs.Price
import Mathlib.Analysis.SpecialFunctions.Log.Deriv
import Mathlib.Analysis.Complex.ExponentialBounds

/-!
# The logarithm of the price of a tick

It is `tick · lam` up to a relative error of about 10^-8, where `lam` is slightly below 309801 units.
-/

namespace Verif
open Real

/-- logarithm of a fixed point number with 12 decimals -/
noncomputable def flog (n : Nat) : ℝ := Real.log ((n : ℝ) / 10 ^ 12)

/-- relative error of the tabulated factors -/
noncomputable def dl : ℝ := 1 / 10 ^ 12

theorem dl_pos : 0 < dl := by unfold dl; positivity

/-- the factors grow by squaring, up to the relative error -/
def chkSq : Nat → List Nat → Bool
  | _, [] => true
  | c, c' :: cs => decide (c' * 10 ^ 24 ≤ c * c * (10 ^ 12 + 1)) &&
      decide (c * c * (10 ^ 12 - 1) ≤ c' * 10 ^ 24) && chkSq c' cs

theorem flog_sq {c c' : Nat} (hc : fpOne ≤ c) (hc' : fpOne ≤ c')
    (h1 : c' * 10 ^ 24 ≤ c * c * (10 ^ 12 + 1)) (h2 : c * c * (10 ^ 12 - 1) ≤ c' * 10 ^ 24) :
    flog c' ≤ 2 * flog c + dl ∧ 2 * flog c - 2 * dl ≤ flog c' := by
  have hc0 : (0 : ℝ) < c := by
    have : 0 < c := lt_of_lt_of_le (by norm_num [fpOne]) hc
    exact_mod_cast this
  have hc0' : (0 : ℝ) < c' := by
    have : 0 < c' := lt_of_lt_of_le (by norm_num [fpOne]) hc'
    exact_mod_cast this
  have g1 : (c' : ℝ) * 10 ^ 24 ≤ c * c * (10 ^ 12 + 1) := by exact_mod_cast h1
  have g2 : (c : ℝ) * c * (10 ^ 12 - 1) ≤ c' * 10 ^ 24 := by
    have : ((10 ^ 12 - 1 : Nat) : ℝ) = 10 ^ 12 - 1 := by norm_num
    rw [← this]
    exact_mod_cast h2
  have e : 2 * flog c = Real.log ((c : ℝ) * c / 10 ^ 24) := by
    unfold flog
    rw [two_mul, ← Real.log_mul (by positivity) (by positivity)]
    congr 1
    ring
  have d1 : dl = 1 / 10 ^ 12 := rfl
  constructor
  · have : flog c' - 2 * flog c ≤ dl := by
      rw [e]
      unfold flog
      rw [← Real.log_div (by positivity) (by positivity)]
      refine le_trans (Real.log_le_sub_one_of_pos (by positivity)) ?_
      rw [d1, sub_le_iff_le_add, div_le_iff₀ (by positivity), div_le_iff₀ (by positivity)]
      linarith
    linarith
  · have : 2 * flog c - flog c' ≤ 2 * dl := by
      rw [e]
      unfold flog
      rw [← Real.log_div (by positivity) (by positivity)]
      refine le_trans (Real.log_le_sub_one_of_pos (by positivity)) ?_
      rw [d1, sub_le_iff_le_add, div_le_iff₀ (by positivity), div_le_iff₀ (by positivity)]
      have : (c : ℝ) * c ≤ c' * 10 ^ 24 / (10 ^ 12 - 1) := by
        rw [le_div_iff₀ (by norm_num)]; exact g2
      have h3 : (c' : ℝ) * 10 ^ 24 / (10 ^ 12 - 1) ≤ c' * (10 ^ 12 + 2) := by
        rw [div_le_iff₀ (by norm_num)]
        nlinarith
      linarith
    linarith

/-- bounds on the logarithms of a list of factors, doubling along the list -/
def LogUB : ℝ → List Nat → Prop
  | _, [] => True
  | μ, c :: cs => flog c ≤ μ ∧ LogUB (2 * μ) cs

def LogLB : ℝ → List Nat → Prop
  | _, [] => True
  | μ, c :: cs => μ ≤ flog c ∧ LogLB (2 * μ) cs

theorem logUB_chain : ∀ (cs : List Nat) (c : Nat) (μ : ℝ), fpOne ≤ c → (∀ x ∈ cs, fpOne ≤ x) →
    chkSq c cs = true → flog c ≤ μ - dl → LogUB (2 * μ) cs := by
  intro cs
  induction cs with
  | nil => intro c μ _ _ _ _; trivial
  | cons c' cs ih =>
    intro c μ hc hcs hk h
    simp only [chkSq, Bool.and_eq_true, decide_eq_true_eq] at hk
    have hc' := hcs c' List.mem_cons_self
    obtain ⟨l1, _⟩ := flog_sq hc hc' hk.1.1 hk.1.2
    have hd := dl_pos
    exact ⟨by linarith, ih c' (2 * μ) hc' (fun x hx => hcs x (List.mem_cons_of_mem _ hx)) hk.2 (by linarith)⟩

theorem logLB_chain : ∀ (cs : List Nat) (c : Nat) (μ : ℝ), fpOne ≤ c → (∀ x ∈ cs, fpOne ≤ x) →
    chkSq c cs = true → μ + 2 * dl ≤ flog c → LogLB (2 * μ) cs := by
  intro cs
  induction cs with
  | nil => intro c μ _ _ _ _; trivial
  | cons c' cs ih =>
    intro c μ hc hcs hk h
    simp only [chkSq, Bool.and_eq_true, decide_eq_true_eq] at hk
    have hc' := hcs c' List.mem_cons_self
    obtain ⟨_, l2⟩ := flog_sq hc hc' hk.1.1 hk.1.2
    have hd := dl_pos
    exact ⟨by linarith, ih c' (2 * μ) hc' (fun x hx => hcs x (List.mem_cons_of_mem _ hx)) hk.2 (by linarith)⟩

/-- multiplying two fixed point numbers of at least one -/
theorem flog_mul {a c : Nat} (ha : fpOne ≤ a) (hc : fpOne ≤ c) :
    flog (a * c / fpOne) ≤ flog a + flog c ∧ flog a + flog c - 2 * dl ≤ flog (a * c / fpOne) ∧
    fpOne ≤ a * c / fpOne := by
  have hf : fpOne = 10 ^ 12 := by norm_num [fpOne]
  rw [hf] at ha hc ⊢
  have hge : 10 ^ 12 ≤ a * c / 10 ^ 12 := by
    rw [Nat.le_div_iff_mul_le (by positivity)]; exact Nat.mul_le_mul ha hc
  have ha0 : (0 : ℝ) < a := by
    have : 0 < a := by omega
    exact_mod_cast this
  have hc0 : (0 : ℝ) < c := by
    have : 0 < c := by omega
    exact_mod_cast this
  have h1 : a * c / 10 ^ 12 * 10 ^ 12 ≤ a * c := Nat.div_mul_le_self _ _
  have h2 : a * c < (a * c / 10 ^ 12 + 1) * 10 ^ 12 := lt_div_add_one_mul _ (by positivity)
  set q := a * c / 10 ^ 12 with hq
  have h1r : (q : ℝ) * 10 ^ 12 ≤ a * c := by exact_mod_cast h1
  have h2r : (a : ℝ) * c < (q + 1) * 10 ^ 12 := by exact_mod_cast h2
  have hqr : (10 ^ 12 : ℝ) ≤ q := by exact_mod_cast hge
  have hq0 : (0 : ℝ) < q := by linarith [show (0 : ℝ) < 10 ^ 12 by positivity]
  have e : flog a + flog c = Real.log ((a : ℝ) * c / 10 ^ 24) := by
    unfold flog
    rw [← Real.log_mul (by positivity) (by positivity)]
    congr 1
    ring
  refine ⟨?_, ?_, hge⟩
  · rw [e]
    unfold flog
    apply Real.log_le_log (by positivity)
    rw [div_le_div_iff₀ (by positivity) (by positivity)]
    nlinarith
  · have : flog a + flog c - flog q ≤ 2 * dl := by
      rw [e]
      unfold flog
      rw [← Real.log_div (by positivity) (by positivity)]
      refine le_trans (Real.log_le_sub_one_of_pos (by positivity)) ?_
      have d1 : dl = 1 / 10 ^ 12 := rfl
      rw [d1, sub_le_iff_le_add, div_le_iff₀ (by positivity), div_le_iff₀ (by positivity)]
      nlinarith
    linarith

theorem prodP_upper : ∀ (cs : List Nat) (t a : Nat) (μ : ℝ), 0 ≤ μ → fpOne ≤ a → (∀ x ∈ cs, fpOne ≤ x) →
    LogUB μ cs → flog (prodP cs t a) ≤ flog a + t * μ := by
  intro cs
  induction cs with
  | nil =>
    intro t a μ hμ _ _ _
    simp only [prodP]
    have : 0 ≤ (t : ℝ) * μ := by positivity
    linarith
  | cons c cs ih =>
    intro t a μ hμ ha hcs h
    obtain ⟨h1, h2⟩ := h
    have hc := hcs c List.mem_cons_self
    have hcs' := fun x hx => hcs x (List.mem_cons_of_mem c hx)
    simp only [prodP]
    have ht : (t : ℝ) = 2 * ((t / 2 : Nat) : ℝ) + ((t % 2 : Nat) : ℝ) := by
      have : t = 2 * (t / 2) + t % 2 := by omega
      exact_mod_cast this
    by_cases hb : t % 2 = 1
    · rw [if_pos hb]
      obtain ⟨m1, _, m3⟩ := flog_mul ha hc
      have := ih (t / 2) _ (2 * μ) (by positivity) m3 hcs' h2
      rw [ht, hb]
      push_cast at this ⊢
      linarith
    · rw [if_neg hb]
      have := ih (t / 2) a (2 * μ) (by positivity) ha hcs' h2
      rw [ht, show t % 2 = 0 by omega]
      push_cast at this ⊢
      linarith

theorem prodP_lower : ∀ (cs : List Nat) (t a : Nat) (μ : ℝ), fpOne ≤ a → (∀ x ∈ cs, fpOne ≤ x) →
    LogLB μ cs → t < 2 ^ cs.length → flog a + t * μ - cs.length * (2 * dl) ≤ flog (prodP cs t a) := by
  intro cs
  induction cs with
  | nil =>
    intro t a μ _ _ _ ht
    have : t = 0 := by simpa using ht
    subst this
    simp [prodP]
  | cons c cs ih =>
    intro t a μ ha hcs h hlt
    obtain ⟨h1, h2⟩ := h
    have hc := hcs c List.mem_cons_self
    have hcs' := fun x hx => hcs x (List.mem_cons_of_mem c hx)
    simp only [prodP]
    have hd := dl_pos
    have ht : (t : ℝ) = 2 * ((t / 2 : Nat) : ℝ) + ((t % 2 : Nat) : ℝ) := by
      have : t = 2 * (t / 2) + t % 2 := by omega
      exact_mod_cast this
    have hlt' : t / 2 < 2 ^ cs.length := by
      simp only [List.length_cons, pow_succ] at hlt; omega
    simp only [List.length_cons]
    by_cases hb : t % 2 = 1
    · rw [if_pos hb]
      obtain ⟨_, m2, m3⟩ := flog_mul ha hc
      have := ih (t / 2) _ (2 * μ) m3 hcs' h2 hlt'
      rw [ht, hb]
      push_cast at this ⊢
      linarith
    · rw [if_neg hb]
      have := ih (t / 2) a (2 * μ) ha hcs' h2 hlt'
      rw [ht, show t % 2 = 0 by omega]
      push_cast at this ⊢
      linarith

/-- the logarithm of the first factor -/
theorem flog_first : 4.99975001e-5 ≤ flog 1000049998750 ∧ flog 1000049998750 ≤ 4.99975002e-5 := by
  have h := Real.abs_log_sub_add_sum_range_le (x := -(4999875 / 10 ^ 11)) (by norm_num [abs_lt]) 3
  have e : (1 - -(4999875 / 10 ^ 11) : ℝ) = ((1000049998750 : Nat) : ℝ) / 10 ^ 12 := by norm_num
  rw [e] at h
  change |_ + flog 1000049998750| ≤ _ at h
  rw [abs_le] at h
  norm_num [Finset.sum_range_succ] at h
  constructor
  · norm_num; linarith
  · norm_num; linarith

/-- upper rate: a little less than 309801 units per tick -/
noncomputable def lamU : ℝ := 4.9997502e-5
/-- lower rate -/
noncomputable def lamL : ℝ := 4.9997497e-5

theorem factors_split : factors = 1000049998750 :: factors.tail := by decide

theorem factors_UB : LogUB lamU factors := by
  have hd : dl = 1 / 10 ^ 12 := rfl
  have hf := flog_first
  rw [factors_split]
  refine ⟨?_, logUB_chain factors.tail 1000049998750 lamU (by norm_num [fpOne]) (by decide +kernel)
    (by decide +kernel) ?_⟩
  · unfold lamU; linarith [hf.2, show (4.99975002e-5 : ℝ) ≤ 4.9997502e-5 by norm_num]
  · rw [hd]; unfold lamU
    linarith [hf.2, show (4.99975002e-5 : ℝ) ≤ 4.9997502e-5 - 1 / 10 ^ 12 by norm_num]

theorem factors_LB : LogLB lamL factors := by
  have hd : dl = 1 / 10 ^ 12 := rfl
  have hf := flog_first
  rw [factors_split]
  refine ⟨?_, logLB_chain factors.tail 1000049998750 lamL (by norm_num [fpOne]) (by decide +kernel)
    (by decide +kernel) ?_⟩
  · unfold lamL; linarith [hf.1, show (4.9997497e-5 : ℝ) ≤ 4.99975001e-5 by norm_num]
  · rw [hd]; unfold lamL
    linarith [hf.1, show (4.9997497e-5 : ℝ) + 2 * (1 / 10 ^ 12) ≤ 4.99975001e-5 by norm_num]

theorem flog_one : flog fpOne = 0 := by
  unfold flog; norm_num [fpOne]

theorem fpPrice_log (t : Nat) (h : t < 2 ^ 18) :
    flog (fpPrice t) ≤ t * lamU ∧ t * lamL - 1 / 10 ^ 10 ≤ flog (fpPrice t) := by
  have h1 := prodP_upper factors t fpOne lamU (by unfold lamU; norm_num) le_rfl factors_ge factors_UB
  have h2 := prodP_lower factors t fpOne lamL le_rfl factors_ge factors_LB h
  rw [flog_one] at h1 h2
  have hl : factors.length = 18 := by decide
  rw [hl] at h2
  have hd : dl = 1 / 10 ^ 12 := rfl
  rw [hd] at h2
  change flog (fpPrice t) ≤ _ at h1
  change _ ≤ flog (fpPrice t) at h2
  constructor
  · linarith
  · norm_num at h2 ⊢
    linarith

/-- one tick is a little less than 309801 units -/
theorem rate_upper : lamU < 309801 * unit := by
  have := Real.log_two_gt_d9
  unfold lamU unit
  norm_num at *
  linarith

/-- and more than 309800.8 units -/
theorem rate_lower : 309800.8 * unit < lamL := by
  have := Real.log_two_lt_d9
  unfold lamL unit
  norm_num at *
  linarith

end Verif
