import Verif.Proofs.Reasons
import Verif.Proofs.Accept
import Verif.Proofs.Claim

/-! # Why calls about positions are refused -/

set_option exponentiation.threshold 1000

namespace Verif
open Service Spec

variable {env : Env} {s : Inv} {e : InvErr}

theorem ensure_inv {c : Prop} [Decidable c] : ensure c .panic ≠ .error (.inv e) := by
  unfold ensure; split <;> simp

theorem tickmapFlip_inv {tm : Tickmap} {v : Bool} {t : Int} {sp : Nat} {key : PoolKey} :
    tickmapFlip tm v t sp key ≠ .error (.inv e) := by
  unfold tickmapFlip
  intro h
  simp only [bind_inv_iff, tickToPosition_inv, ensure_inv, pure_inv, false_or, and_false, exists_false] at h

theorem ticksUpdate_inv {m : Map (PoolKey × Int) Tick} {key : PoolKey} {i : Int} {t : Tick}
    (h : ticksUpdate m key i t = .error (.inv e)) : m.get (key, i) = none := by
  unfold ticksUpdate ticksGet at h
  cases hq : m.get (key, i) with
  | none => rfl
  | some q => rw [hq] at h; cases h

theorem putTick_inv {key : PoolKey} {t : Tick} {b : Bool} (h1 : b = true → s.ticks.get (key, t.index) = none)
    (h2 : b = false → ∃ q, s.ticks.get (key, t.index) = some q) : putTick s key t b ≠ .error (.inv e) := by
  intro h
  unfold putTick at h
  cases b with
  | true =>
    simp only [if_true, addTick, ticksAdd, h1 rfl, bind_inv_iff, reduceCtorEq, tickmapFlip_inv, pure_inv, false_or,
      and_false, exists_false] at h
  | false =>
    obtain ⟨q, hq⟩ := h2 rfl
    simp only [Bool.false_eq_true, if_false, bind_inv_iff, pure_inv, and_false, exists_false, or_false] at h
    rw [ticksUpdate_inv h] at hq
    cases hq

theorem dropTick_inv {key : PoolKey} {i : Int} {t q : Tick} (hi : t.index = i) (hq : s.ticks.get (key, i) = some q) :
    dropTick s key i t ≠ .error (.inv e) := by
  intro h
  unfold dropTick at h
  split at h
  · next h0 =>
    simp only [removeTick, failIf, h0, ne_eq, not_true_eq_false, if_false, bind_inv_iff, reduceCtorEq, tickmapFlip_inv,
      pure_inv, false_or, and_false, exists_false, or_false, ticksRemove, ticksGet, hi, hq, okOr] at h
  · simp only [bind_inv_iff, pure_inv, and_false, exists_false, or_false] at h
    rw [ticksUpdate_inv h] at hq
    cases hq

theorem increase_get {b b' : Balances} {t u w : ActorId} {n : Nat} (h : increaseTokenBalance b t w n = .ok b')
    (hne : t ≠ u) : b'.get (w, u) = b.get (w, u) := by
  have hk : (w, u) ≠ (w, t) := by simp [hne.symm]
  rcases increase_ok.1 h with ⟨_, rfl⟩ | ⟨_, _, rfl⟩
  · rfl
  · rw [Map.get_insert, if_neg hk]

theorem removeAt_inv {ps : Positions} {a : ActorId} {i n : Nat} : ps.removeAt a i n ≠ .error (.inv e) := by
  intro h
  unfold Positions.removeAt at h
  simp only [bind_inv_iff, pure_inv, and_false, exists_false, or_false] at h
  split at h
  · simp only [bind_inv_iff, pure_inv, and_false, exists_false, or_false] at h
    unfold okOr at h
    split at h <;> simp at h
  · exact pure_inv h

theorem posRemove_inv {ps : Positions} {a : ActorId} {i : Nat} (h : ps.remove a i = .error (.inv e)) :
    e = .PositionNotFound ∧ ps.map.get (a, i) = none := by
  unfold Positions.remove at h
  rw [bind_inv_iff] at h
  rcases h with h | ⟨p, _, h⟩
  · unfold Positions.get okOr at h
    split at h
    · cases h
    · next hn => cases h; exact ⟨rfl, hn⟩
  · simp only [bind_inv_iff, removeAt_inv, pure_inv, and_false, exists_false, or_false] at h

end Verif
