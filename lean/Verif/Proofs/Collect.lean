import Verif.Proofs.FeeGrowth
import Verif.Spec.CollectHistory
import Mathlib.Algebra.Order.BigOperators.Ring.Finset

/-! # Fees paid out are at most the fees collected -/

namespace Verif

theorem fgToFee_eq {g L a : Nat} (h : fgToFee g L = .ok a) : a = g * L / 10 ^ 33 := by
  unfold fgToFee at h
  simp only [bind_ok_iff, mulC_ok_iff, fit_ok_iff] at h
  obtain ⟨_, ⟨_, rfl⟩, _, rfl⟩ := h
  rw [Nat.div_div_eq_div_mul]
  have : liqOne * fgOne = 10 ^ 33 := by decide
  rw [this]

theorem fgToFee_mul_le {g L a : Nat} (h : fgToFee g L = .ok a) : a * 10 ^ 33 ≤ L * g := by
  rw [fgToFee_eq h, Nat.mul_comm L g]
  exact Nat.div_mul_le_self _ _

theorem fgFromFee_mul_le {L fee g : Nat} (h : fgFromFee L fee = .ok g) : L * g ≤ fee * 10 ^ 33 := by
  obtain ⟨_, rfl, _⟩ := fgFromFee_eq h
  exact Nat.mul_div_le _ _

/-- wrapping can only shrink a difference -/
theorem fgSub_fgAdd_le {a g s : Nat} (ha : a < 2 ^ 128) (hg : g < 2 ^ 128) (hs : s < 2 ^ 128) :
    fgSub (fgAdd a g) s ≤ fgSub a s + g := by
  rw [fgAdd_eq ha hg, fgSub_eq (Nat.mod_lt _ (by positivity)) hs, fgSub_eq ha hs]
  omega

theorem position_update_ok {p p' : Position} {sign : Bool} {delta gx gy : Nat}
    (h : p.update sign delta gx gy = .ok p') :
    ∃ ox oy, fgToFee (fgSub gx p.feeGrowthInsideX) p.liquidity = .ok ox ∧
      fgToFee (fgSub gy p.feeGrowthInsideY) p.liquidity = .ok oy ∧
      p'.tokensOwedX = p.tokensOwedX + ox ∧ p'.tokensOwedY = p.tokensOwedY + oy ∧
      p'.feeGrowthInsideX = gx ∧ p'.feeGrowthInsideY = gy ∧
      (if sign then p'.liquidity = p.liquidity + delta
        else delta ≤ p.liquidity ∧ p'.liquidity = p.liquidity - delta) ∧
      p'.poolKey = p.poolKey ∧ p'.lowerTickIndex = p.lowerTickIndex ∧
      p'.upperTickIndex = p.upperTickIndex := by
  unfold Position.update at h
  simp only [bind_ok_iff, failIf_ok_iff, addC_ok_iff, pure_ok_iff] at h
  obtain ⟨_, _, ox, hox, oy, hoy, l, hl, tx, ⟨_, rfl⟩, ty, ⟨_, rfl⟩, rfl⟩ := h
  refine ⟨ox, oy, hox, hoy, rfl, rfl, rfl, rfl, ?_, rfl, rfl, rfl⟩
  unfold Position.calculateNewLiquidity at hl
  simp only [bind_ok_iff, failIf_ok_iff] at hl
  obtain ⟨_, hc, hl⟩ := hl
  cases sign with
  | true => simp only [if_true, addC_ok_iff] at hl ⊢; exact hl.2
  | false =>
    simp only [Bool.false_eq_true, if_false, subC_ok_iff] at hl ⊢
    exact hl

/-- all accumulators and snapshots are 128-bit values -/
def Family.WF {n : Nat} (f : Family n) : Prop :=
  ∀ i, f.accX i < 2 ^ 128 ∧ f.accY i < 2 ^ 128 ∧
    (f.pos i).feeGrowthInsideX < 2 ^ 128 ∧ (f.pos i).feeGrowthInsideY < 2 ^ 128

theorem fgSub_self (a : Nat) : fgSub a a = 0 := by
  unfold fgSub; rw [if_neg (by omega)]; omega

theorem sum_update_le {n : Nat} (g : Fin n → Nat) (i : Fin n) (h : Fin n → Nat) (d : Nat)
    (hne : ∀ j, j ≠ i → h j = g j) (hi : h i ≤ g i + d) : ∑ j, h j ≤ ∑ j, g j + d := by
  rw [← Finset.add_sum_erase _ h (Finset.mem_univ i), ← Finset.add_sum_erase _ g (Finset.mem_univ i)]
  have : ∑ j ∈ Finset.univ.erase i, h j = ∑ j ∈ Finset.univ.erase i, g j :=
    Finset.sum_congr rfl (fun j hj => hne j (Finset.ne_of_mem_erase hj))
  omega

/-- one token's worth of the invariant: adding a fee -/
theorem collect_fee {n : Nat} {l acc snap : Fin n → Nat} {active : Fin n → Bool} {L amount g : Nat}
    (hacc : ∀ i, acc i < 2 ^ 128) (hsnap : ∀ i, snap i < 2 ^ 128)
    (hg : fgFromFee L amount = .ok g) (hact : (∑ i, if active i then l i else 0) ≤ L) :
    ∑ i, l i * fgSub (if active i then fgAdd (acc i) g else acc i) (snap i) ≤
      ∑ i, l i * fgSub (acc i) (snap i) + amount * 10 ^ 33 := by
  obtain ⟨_, _, hlt⟩ := fgFromFee_eq hg
  calc ∑ i, l i * fgSub (if active i then fgAdd (acc i) g else acc i) (snap i)
      ≤ ∑ i, (l i * fgSub (acc i) (snap i) + (if active i then l i else 0) * g) := by
        apply Finset.sum_le_sum
        intro i _
        cases active i with
        | true =>
          simp only [if_true]
          rw [← Nat.mul_add]
          exact Nat.mul_le_mul_left _ (fgSub_fgAdd_le (hacc i) hlt (hsnap i))
        | false => simp
    _ = ∑ i, l i * fgSub (acc i) (snap i) + (∑ i, if active i then l i else 0) * g := by
        rw [Finset.sum_add_distrib, Finset.sum_mul]
    _ ≤ _ := by
        apply Nat.add_le_add_left
        exact le_trans (Nat.mul_le_mul_right _ hact) (fgFromFee_mul_le hg)

theorem collect_wf {n : Nat} {f : Family n} {cx cy px py : Nat} (h : CollectHist f cx cy px py) :
    f.WF := by
  induction h with
  | start h0 =>
    intro i
    obtain ⟨_, _, _, a, b, c, d⟩ := h0 i
    exact ⟨a, b, c, d⟩
  | @feeX f cx cy px py L amount g active _ hg _ ih =>
    intro i
    obtain ⟨a, b, c, d⟩ := ih i
    refine ⟨?_, b, c, d⟩
    show (if active i then fgAdd (f.accX i) g else f.accX i) < _
    split
    · exact fgAdd_lt a (fgFromFee_eq hg).2.2
    · exact a
  | @feeY f cx cy px py L amount g active _ hg _ ih =>
    intro i
    obtain ⟨a, b, c, d⟩ := ih i
    refine ⟨a, ?_, c, d⟩
    show (if active i then fgAdd (f.accY i) g else f.accY i) < _
    split
    · exact fgAdd_lt b (fgFromFee_eq hg).2.2
    · exact b
  | @update f cx cy px py i sign delta p _ hu ih =>
    obtain ⟨ox, oy, _, _, _, _, e1, e2, _⟩ := position_update_ok hu
    intro j
    obtain ⟨a, b, c, d⟩ := ih j
    refine ⟨a, b, ?_⟩
    by_cases hj : j = i
    · subst hj; simp only [Function.update_self, e1, e2]; exact ⟨a, b⟩
    · simp only [Function.update_of_ne hj]; exact ⟨c, d⟩
  | @payout f cx cy px py i _ ih =>
    intro j
    obtain ⟨a, b, c, d⟩ := ih j
    refine ⟨a, b, ?_⟩
    by_cases hj : j = i
    · subst hj; simp only [Function.update_self]; exact ⟨c, d⟩
    · simp only [Function.update_of_ne hj]; exact ⟨c, d⟩

theorem collect_inv {n : Nat} {f : Family n} {cx cy px py : Nat} (h : CollectHist f cx cy px py)
    {K : Nat} (hK : K = 10 ^ 33) :
    px * K + ∑ i, ((f.pos i).tokensOwedX * K +
        (f.pos i).liquidity * fgSub (f.accX i) (f.pos i).feeGrowthInsideX) ≤ cx * K ∧
    py * K + ∑ i, ((f.pos i).tokensOwedY * K +
        (f.pos i).liquidity * fgSub (f.accY i) (f.pos i).feeGrowthInsideY) ≤ cy * K := by
  induction h with
  | start h0 =>
    constructor
    · refine le_of_eq ?_
      rw [Nat.zero_mul, Nat.zero_add]
      refine Finset.sum_eq_zero (fun i _ => ?_)
      obtain ⟨a, b, c, _⟩ := h0 i
      rw [a, b, Nat.zero_mul, Nat.zero_mul, Nat.add_zero]
    · refine le_of_eq ?_
      rw [Nat.zero_mul, Nat.zero_add]
      refine Finset.sum_eq_zero (fun i _ => ?_)
      obtain ⟨a, b, c, _⟩ := h0 i
      rw [a, c, Nat.zero_mul, Nat.zero_mul, Nat.add_zero]
  | @feeX f cx cy px py L amount g active hh hg hact ih =>
    refine ⟨?_, ih.2⟩
    have hwf := collect_wf hh
    have := collect_fee (acc := f.accX) (snap := fun i => (f.pos i).feeGrowthInsideX)
      (fun i => (hwf i).1) (fun i => (hwf i).2.2.1) hg hact
    rw [← hK] at this
    have h1 := ih.1
    simp only [Finset.sum_add_distrib] at h1 ⊢
    rw [Nat.add_mul]
    omega
  | @feeY f cx cy px py L amount g active hh hg hact ih =>
    refine ⟨ih.1, ?_⟩
    have hwf := collect_wf hh
    have := collect_fee (acc := f.accY) (snap := fun i => (f.pos i).feeGrowthInsideY)
      (fun i => (hwf i).2.1) (fun i => (hwf i).2.2.2) hg hact
    rw [← hK] at this
    have h1 := ih.2
    simp only [Finset.sum_add_distrib] at h1 ⊢
    rw [Nat.add_mul]
    omega
  | @update f cx cy px py i sign delta p hh hu ih =>
    obtain ⟨ox, oy, hox, hoy, e1, e2, e3, e4, _⟩ := position_update_ok hu
    constructor
    · refine le_trans (Nat.add_le_add_left ?_ _) ih.1
      apply sum_update_le _ i _ 0
      · intro j hj
        simp only [Function.update_of_ne hj]
      · simp only [Function.update_self, e1, e3, fgSub_self, Nat.mul_zero, Nat.add_zero, Nat.add_mul]
        exact Nat.add_le_add_left (hK ▸ fgToFee_mul_le hox) _
    · refine le_trans (Nat.add_le_add_left ?_ _) ih.2
      apply sum_update_le _ i _ 0
      · intro j hj
        simp only [Function.update_of_ne hj]
      · simp only [Function.update_self, e2, e4, fgSub_self, Nat.mul_zero, Nat.add_zero, Nat.add_mul]
        exact Nat.add_le_add_left (hK ▸ fgToFee_mul_le hoy) _
  | @payout f cx cy px py i hh ih =>
    have aux : ∀ (o r r' : Fin n → Nat), (∀ j, j ≠ i → r' j = o j + r j) → r' i = r i →
        ∑ j, r' j + o i = ∑ j, (o j + r j) := by
      intro o r r' hne hi
      rw [← Finset.add_sum_erase _ r' (Finset.mem_univ i),
        ← Finset.add_sum_erase _ (fun j => o j + r j) (Finset.mem_univ i), hi,
        Finset.sum_congr rfl (fun j hj => hne j (Finset.ne_of_mem_erase hj))]
      omega
    constructor
    · refine le_trans (le_of_eq ?_) ih.1
      rw [Nat.add_mul, Nat.add_assoc, Nat.add_comm ((f.pos i).tokensOwedX * K)]
      refine congrArg _ (aux (fun j => (f.pos j).tokensOwedX * K)
        (fun j => (f.pos j).liquidity * fgSub (f.accX j) (f.pos j).feeGrowthInsideX) _ ?_ ?_)
      · intro j hj; simp only [Function.update_of_ne hj]
      · simp only [Function.update_self, Nat.zero_mul, Nat.zero_add]
    · refine le_trans (le_of_eq ?_) ih.2
      rw [Nat.add_mul, Nat.add_assoc, Nat.add_comm ((f.pos i).tokensOwedY * K)]
      refine congrArg _ (aux (fun j => (f.pos j).tokensOwedY * K)
        (fun j => (f.pos j).liquidity * fgSub (f.accY j) (f.pos j).feeGrowthInsideY) _ ?_ ?_)
      · intro j hj; simp only [Function.update_of_ne hj]
      · simp only [Function.update_self, Nat.zero_mul, Nat.zero_add]

end Verif
