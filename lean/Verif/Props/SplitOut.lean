import Verif.Proofs.SplitOut
import Verif.Props.Split

/-!
# Property C94: the same amount of Y asked for in several parts costs no less

The same output of Y for X, once in one swap and once in any number of swaps one after the other, as long as no
initialised tick is reached. The parts take the price at least as far as the whole. They cost no less than the whole
but for a few units and a relative error of 6·10^-15; they can indeed cost less (`C94_negation`).
-/

set_option exponentiation.threshold 1000

namespace Verif
open Service Spec Split

variable {env : Env} {s s₁ s₂ : Inv} {key : PoolKey} {limit b o : Nat} {r : CalculateSwapResult} {pool : Pool} {l : List Nat}

/-- the charge without the fee, and the two costs -/
theorem asked_compare (hr : Reach s) (hp : s.pools.get key = some pool)
    (hb : Border s key true pool.currentTickIndex b) (hl : limit ≤ b)
    (h : swap env s key true l.sum false limit = .ok (s₁, r)) (hend : b < priceNow s₁ key)
    (h' : askedInParts env key limit l s = .ok (s₂, o)) (hend' : b < priceNow s₂ key) :
    priceNow s₂ key ≤ priceNow s₁ key ∧ MIN_SQRT_PRICE ≤ priceNow s₁ key ∧ MIN_SQRT_PRICE ≤ priceNow s key ∧
    ∃ c c', r.amountIn = c + cdiv (c * key.feeTier.fee) (10 ^ 12) ∧ c' + cdiv (c' * key.feeTier.fee) (10 ^ 12) ≤ o ∧
      (c = 0 ∨ (c - 1) * (priceNow s key * priceNow s₁ key) * 10 ^ 14 <
        (c' * 10 ^ 14 + l.length) * (priceNow s key * priceNow s₁ key) + c * 10 ^ 24 * 10 ^ 14) := by
  have ha := reach_agree s hr _ _ hp
  have hs : ShortOut key.feeTier.fee pool l.sum r := asked_short (l := []) (t := (s₁, 0)) hr hp hb hl h rfl hend
  obtain ⟨g0, g1, g2, c', g3, g4⟩ := asked_down hr hp hb hl h' hend' hs.liq
  dsimp only at g0 g1 g2 g3 g4
  have e : priceNow s₁ key = r.targetSqrtPrice := by rw [priceNow_eq (swap_pool h)]; exact hs.price
  have hm := hs.moves
  have hle : priceNow s₂ key ≤ priceNow s₁ key := by
    have := (cdiv_le_iff hs.liq).2 g2
    rw [e, hs.next.2]
    have := hs.next.1
    omega
  have hq := ha.price.1
  refine ⟨hle, g0.trans hle, by rw [priceNow_eq hp]; exact hq, _, c', hs.cost, g3, ?_⟩
  rcases Nat.eq_zero_or_pos (dxUp pool.sqrtPrice r.targetSqrtPrice pool.liquidity) with hz | hz
  · exact .inl hz
  · right
    obtain ⟨c, hc⟩ := Nat.exists_eq_succ_of_ne_zero hz.ne'
    have h1 := charge_upper hs.den hm.le hc
    have h2 := charge_less (by unfold MIN_SQRT_PRICE at g0; omega) hle g4
    rw [e] at h2
    rw [priceNow_eq hp, e, hc, Nat.succ_sub_one]
    have e1 : c.succ = c + 1 := rfl
    rw [e1]
    generalize pool.sqrtPrice * r.targetSqrtPrice = m at h1 h2 ⊢
    calc c * m * 10 ^ 14 < ((pool.sqrtPrice - r.targetSqrtPrice) * (pool.liquidity * 10 ^ 19) + (c + 1) * 10 ^ 24) * 10 ^ 14 :=
          Nat.mul_lt_mul_of_pos_right h1 (by norm_num)
      _ = (pool.sqrtPrice - r.targetSqrtPrice) * (pool.liquidity * 10 ^ 19 * 10 ^ 14) + (c + 1) * 10 ^ 24 * 10 ^ 14 := by ring
      _ ≤ _ := Nat.add_le_add_right h2 _

theorem fee_two {c c' f : Nat} (h : c ≤ c' + 1) (hf : f ≤ 10 ^ 12) :
    c + cdiv (c * f) (10 ^ 12) ≤ c' + cdiv (c' * f) (10 ^ 12) + 2 := by
  have h1 : c * f ≤ c' * f + f := by
    calc c * f ≤ (c' + 1) * f := Nat.mul_le_mul_right _ h
      _ = _ := by ring
  have h2 := cdiv_mono (d := 10 ^ 12) h1
  have h3 := cdiv_add_le (c' * f) f (d := 10 ^ 12) (by norm_num)
  have h4 : cdiv f (10 ^ 12) ≤ 1 := (cdiv_le_iff (by norm_num)).2 (by omega)
  omega

/-- C94 in units (full statement: no unit, no conditions on the size and the number of the parts, no border): with a cost
that is small against the product of the prices and fewer than 5·10^13 parts, the whole costs at most two units more. -/
theorem C94_unit_partial (hr : Reach s) (hp : s.pools.get key = some pool)
    (hb : Border s key true pool.currentTickIndex b) (hl : limit ≤ b)
    (h : swap env s key true l.sum false limit = .ok (s₁, r)) (hend : b < priceNow s₁ key)
    (h' : askedInParts env key limit l s = .ok (s₂, o)) (hend' : b < priceNow s₂ key)
    (hn : l.length ≤ 5 * 10 ^ 13) (hsmall : 2 * r.amountIn * 10 ^ 24 ≤ priceNow s key * priceNow s₁ key) :
    priceNow s₂ key ≤ priceNow s₁ key ∧ r.amountIn ≤ o + 2 := by
  obtain ⟨k1, -, -, c, c', k2, k3, k4⟩ := asked_compare hr hp hb hl h hend h' hend'
  refine ⟨k1, ?_⟩
  have hf : key.feeTier.fee ≤ 10 ^ 12 := by
    have := ((reach_tiers hr).pools key (by rw [hp]; rfl)).1.2.2
    unfold pctOne at this
    omega
  have hc : c ≤ c' + 1 := by
    rcases k4 with hz | k4
    · omega
    have hcr : c ≤ r.amountIn := by omega
    generalize priceNow s key * priceNow s₁ key = m at k4 hsmall
    by_contra hcon
    have h1 : (c' + 1) * m * 10 ^ 14 ≤ (c - 1) * m * 10 ^ 14 :=
      Nat.mul_le_mul_right _ (Nat.mul_le_mul_right _ (by omega))
    have h2 : (c' * 10 ^ 14 + l.length) * m ≤ (c' * 10 ^ 14 + 5 * 10 ^ 13) * m := Nat.mul_le_mul_right _ (Nat.add_le_add_left hn _)
    have h3 : c * 10 ^ 24 * 10 ^ 14 ≤ m * (5 * 10 ^ 13) := by
      calc c * 10 ^ 24 * 10 ^ 14 = 2 * c * 10 ^ 24 * (5 * 10 ^ 13) := by ring
        _ ≤ 2 * r.amountIn * 10 ^ 24 * (5 * 10 ^ 13) :=
            Nat.mul_le_mul_right _ (Nat.mul_le_mul_right _ (Nat.mul_le_mul_left _ hcr))
        _ ≤ _ := Nat.mul_le_mul_right _ hsmall
    have e : (c' + 1) * m * 10 ^ 14 = (c' * 10 ^ 14 + 5 * 10 ^ 13) * m + m * (5 * 10 ^ 13) := by ring
    exact absurd (lt_of_lt_of_le k4 (Nat.add_le_add h2 h3)) (by rw [← e]; exact not_lt.2 h1)
  have := fee_two hc hf
  omega

theorem asked_ratio {c c' n m : ℚ} (hm : 2 * 10 ^ 38 ≤ m) (hc' : 0 ≤ c') (hn : n ≤ 10 ^ 14) (h1 : 1 ≤ c)
    (h : (c - 1) * m * 10 ^ 14 < (c' * 10 ^ 14 + n) * m + c * 10 ^ 24 * 10 ^ 14) :
    c ≤ (1 + 6 / 10 ^ 15) * (c' + 2) := by
  by_contra hc
  push Not at hc
  have h2 : (c' * 10 ^ 14 + n) * m ≤ (c' + 1) * 10 ^ 14 * m := by nlinarith
  have h3 : (c - 1) * m < (c' + 1) * m + c * 10 ^ 24 := by nlinarith
  have h4 : c * (m - 10 ^ 24) < (c' + 2) * m := by linarith
  have h5 : m ≤ (1 + 6 / 10 ^ 15) * (m - 10 ^ 24) := by linarith
  have h6 : (c' + 2) * m ≤ (c' + 2) * ((1 + 6 / 10 ^ 15) * (m - 10 ^ 24)) := mul_le_mul_of_nonneg_left h5 (by linarith)
  have h7 : (1 + 6 / 10 ^ 15) * (c' + 2) * (m - 10 ^ 24) < c * (m - 10 ^ 24) :=
    mul_lt_mul_of_pos_right hc (by linarith)
  linarith

/-- C94 without the condition on the size: the parts cost no less but for a relative error of 6·10^-15 and a few units
(full statement: without them; refuted by `C94_negation`). -/
theorem C94_ratio_partial (hr : Reach s) (hp : s.pools.get key = some pool)
    (hb : Border s key true pool.currentTickIndex b) (hl : limit ≤ b)
    (h : swap env s key true l.sum false limit = .ok (s₁, r)) (hend : b < priceNow s₁ key)
    (h' : askedInParts env key limit l s = .ok (s₂, o)) (hend' : b < priceNow s₂ key)
    (hn : l.length ≤ 10 ^ 14) :
    priceNow s₂ key ≤ priceNow s₁ key ∧ (r.amountIn : ℚ) ≤ (1 + 6 / 10 ^ 15) * (o + 4) + 1 := by
  obtain ⟨k1, p1, p2, c, c', k2, k3, k4⟩ := asked_compare hr hp hb hl h hend h' hend'
  refine ⟨k1, ?_⟩
  have hf : key.feeTier.fee ≤ 10 ^ 12 := by
    have := ((reach_tiers hr).pools key (by rw [hp]; rfl)).1.2.2
    unfold pctOne at this
    omega
  have hm : (2 * 10 ^ 38 : Nat) ≤ priceNow s key * priceNow s₁ key :=
    calc 2 * 10 ^ 38 ≤ MIN_SQRT_PRICE * MIN_SQRT_PRICE := by norm_num [MIN_SQRT_PRICE]
      _ ≤ _ := Nat.mul_le_mul p2 p1
  have hc : (c : ℚ) ≤ (1 + 6 / 10 ^ 15) * (c' + 2) := by
    rcases k4 with hz | k4
    · rw [hz]
      push_cast
      positivity
    rcases Nat.eq_zero_or_pos c with hz | hz
    · rw [hz]
      push_cast
      positivity
    generalize priceNow s key * priceNow s₁ key = m at k4 hm
    have k5 : ((c : ℚ) - 1) * m * 10 ^ 14 < (c' * 10 ^ 14 + l.length) * m + c * 10 ^ 24 * 10 ^ 14 := by
      have := (Nat.cast_lt (α := ℚ)).2 k4
      push_cast [Nat.cast_sub (show 1 ≤ c from hz)] at this
      exact this
    exact asked_ratio (by exact_mod_cast hm) (by positivity) (by exact_mod_cast hn) (by exact_mod_cast hz) k5
  have u1 : ((cdiv (c * key.feeTier.fee) (10 ^ 12) : Nat) : ℚ) * 10 ^ 12 ≤ c * key.feeTier.fee + 10 ^ 12 := by
    have := (cdiv_mul_lt (c * key.feeTier.fee) (d := 10 ^ 12) (by norm_num)).le
    exact_mod_cast this
  have u2 : (c' : ℚ) * key.feeTier.fee ≤ (cdiv (c' * key.feeTier.fee) (10 ^ 12) : Nat) * 10 ^ 12 := by
    have := le_cdiv_mul (c' * key.feeTier.fee) (d := 10 ^ 12) (by norm_num)
    exact_mod_cast this
  have u3 : (c' : ℚ) + (cdiv (c' * key.feeTier.fee) (10 ^ 12) : Nat) ≤ o := by exact_mod_cast k3
  have u4 : (r.amountIn : ℚ) = c + (cdiv (c * key.feeTier.fee) (10 ^ 12) : Nat) := by rw [k2]; push_cast; ring
  have hf0 : (0 : ℚ) ≤ key.feeTier.fee := by positivity
  have hf1 : (key.feeTier.fee : ℚ) ≤ 10 ^ 12 := by exact_mod_cast hf
  rw [u4]
  generalize ((cdiv (c * key.feeTier.fee) (10 ^ 12) : Nat) : ℚ) = g at u1
  generalize ((cdiv (c' * key.feeTier.fee) (10 ^ 12) : Nat) : ℚ) = g' at u2 u3
  generalize (key.feeTier.fee : ℚ) = f at *
  generalize (c : ℚ) = x at *
  generalize (c' : ℚ) = x' at *
  generalize (o : ℚ) = t at *
  have v1 : x * f ≤ (1 + 6 / 10 ^ 15) * (x' + 2) * f := mul_le_mul_of_nonneg_right hc hf0
  have v2 : (x + g) * 10 ^ 12 ≤ (1 + 6 / 10 ^ 15) * (x' + 2) * 10 ^ 12 + ((1 + 6 / 10 ^ 15) * (x' + 2) * f + 10 ^ 12) := by
    linarith
  have v3 : x' * f ≤ g' * 10 ^ 12 := u2
  nlinarith

namespace SplitDemo

/-- what account 2 pays for several requests, and the price after them -/
def costs (s : Inv) (key : PoolKey) (l : List Nat) : Option (Nat × Nat) :=
  (askedInParts (Demo.by_ 2) key MIN_SQRT_PRICE l s).toOption.map (fun x => (x.2, priceNow x.1 key))

end SplitDemo

open SplitDemo MoreDemo

/-- C94 is false without the error: the whole costs 6750597080 units of X more than half and half. -/
theorem C94_negation : Reach between ∧
    costs between smallKey [390000000000000 + 390000000000000] =
      some (3245141567057827164654354 + 6750597080, 15503486855989852555) ∧
    costs between smallKey [390000000000000, 390000000000000] =
      some (3245141567057827164654354, 15503486855989852555) :=
  ⟨between_reach, by decide +kernel⟩

/-- a request and the same in three parts: both end before the tick -10 (`demo_border`), the parts cost three units more -/
example :
    ((Demo.start.pools.get Demo.key).map (fun p => (p.sqrtPrice, p.currentTickIndex))) = some (10 ^ 24, 0) ∧
    costs Demo.start Demo.key [3 * 10 ^ 5] = some (300304, 999992500000000000000000) ∧
    costs Demo.start Demo.key [10 ^ 5, 10 ^ 5, 10 ^ 5] = some (300307, 999992500000000000000000) ∧
    2 * 300304 * 10 ^ 24 ≤ 10 ^ 24 * 999992500000000000000000 := by
  decide +kernel

end Verif
