import Verif.Proofs.Amount
import Verif.Spec.Pieces

/-! # Sums of deposits and withdrawals -/

set_option exponentiation.threshold 1000

namespace Verif

theorem pieces_closed {t l u : Int} {p pl pu : Nat} {sign : Bool} {Ls : List Nat}
    {rs : List (Nat × Nat × Bool)} (hpl : calculateSqrtPrice l = .ok pl)
    (hpu : calculateSqrtPrice u = .ok pu) (h : Pieces t p sign u l Ls rs) :
    sumX rs = (Ls.map (dxR sign (clampPrice t l u p pl pu) pu)).sum ∧
    sumY rs = (Ls.map (dyR sign pl (clampPrice t l u p pl pu))).sum := by
  unfold Pieces at h
  induction h with
  | nil => exact ⟨rfl, rfl⟩
  | @cons L r Ls rs hr _ ih =>
    obtain ⟨x, y, i⟩ := r
    obtain ⟨pl', pu', hpl', hpu', -, hx, hy, -⟩ := calculateAmountDelta_ok hr
    rw [hpl] at hpl'; rw [hpu] at hpu'
    cases hpl'; cases hpu'
    simp only [sumX, sumY, List.map_cons, List.sum_cons] at ih ⊢
    rw [ih.1, ih.2, ← hx, ← hy]
    exact ⟨rfl, rfl⟩

theorem clampPrice_ge {t l u : Int} {p pl pu : Nat} (hp : MIN_SQRT_PRICE ≤ p)
    (hpl : calculateSqrtPrice l = .ok pl) (hpu : calculateSqrtPrice u = .ok pu) :
    MIN_SQRT_PRICE ≤ clampPrice t l u p pl pu := by
  unfold clampPrice
  split
  · exact calculateSqrtPrice_ge_min hpl
  · split
    · exact hp
    · exact calculateSqrtPrice_ge_min hpu

end Verif
