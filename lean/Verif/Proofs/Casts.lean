import Verif.Model.Casts
import Verif.Spec.Words

/-! # Words and their value -/

namespace Verif
open Spec

theorem value_nil : value [] = 0 := rfl
theorem value_cons (w : Nat) (l : List Nat) : value (w :: l) = w + value l * 2 ^ 64 := by
  simp only [value]

theorem wordsVal_eq (l : Words) : wordsVal l = value l := by
  induction l with
  | nil => simp only [wordsVal, value_nil]
  | cons w t ih => simp only [wordsVal, value_cons, ih, Nat.mul_comm]

theorem pow64_succ (n : Nat) : 2 ^ (64 * (n + 1)) = 2 ^ (64 * n) * 2 ^ 64 := Nat.pow_add 2 (64 * n) 64

theorem value_append (a b : List Nat) : value (a ++ b) = value a + value b * 2 ^ (64 * a.length) := by
  induction a with
  | nil => simp [value_nil]
  | cons w t ih =>
    rw [List.cons_append, value_cons, value_cons, ih, List.length_cons]
    rw [pow64_succ]
    ring

theorem value_replicate (n : Nat) : value (List.replicate n 0) = 0 := by
  induction n with
  | zero => rfl
  | succ n ih => rw [List.replicate_succ, value_cons, ih, Nat.zero_mul]

theorem value_lt {l : List Nat} (h : ∀ w ∈ l, w < 2 ^ 64) : value l < 2 ^ (64 * l.length) := by
  induction l with
  | nil => simp [value_nil]
  | cons w t ih =>
    rw [value_cons, List.length_cons, pow64_succ]
    have h1 := ih (fun w hw => h w (List.mem_cons_of_mem _ hw))
    have h2 := h w List.mem_cons_self
    have h3 : (value t + 1) * 2 ^ 64 ≤ 2 ^ (64 * t.length) * 2 ^ 64 := Nat.mul_le_mul_right _ h1
    rw [Nat.add_mul] at h3
    omega

theorem orAll_eq_zero (l : Words) : orAll l = 0 ↔ value l = 0 := by
  induction l with
  | nil => simp [orAll, value_nil]
  | cons w t ih =>
    rw [value_cons]
    have : orAll (w :: t) = w ||| orAll t := rfl
    rw [this, Nat.or_eq_zero_iff, ih]
    omega

theorem value_take_drop (l : List Nat) (n : Nat) (hn : n ≤ l.length) :
    value l = value (l.take n) + value (l.drop n) * 2 ^ (64 * n) := by
  conv_lhs => rw [← List.take_append_drop n l]
  rw [value_append, List.length_take, min_eq_left hn]

/-- the words above the first `n` are zero exactly if the value fits in `n` words -/
theorem orAll_drop {l : Words} (hw : ∀ w ∈ l, w < 2 ^ 64) {n : Nat} (hn : n ≤ l.length) :
    orAll (l.drop n) = 0 ↔ value l < 2 ^ (64 * n) := by
  rw [orAll_eq_zero]
  have h := value_take_drop l n hn
  have h2 : value (l.take n) < 2 ^ (64 * n) := by
    have := value_lt (l := l.take n) (fun w h => hw w (List.mem_of_mem_take h))
    rwa [List.length_take, min_eq_left hn] at this
  constructor
  · intro h0; rw [h, h0]; omega
  · intro h1
    rcases Nat.eq_zero_or_pos (value (l.drop n)) with h0 | h0
    · exact h0
    · have : 2 ^ (64 * n) ≤ value (l.drop n) * 2 ^ (64 * n) := Nat.le_mul_of_pos_left _ h0
      omega

theorem value_take_of_lt {l : Words} (hw : ∀ w ∈ l, w < 2 ^ 64) {n : Nat} (hn : n ≤ l.length)
    (h : value l < 2 ^ (64 * n)) : value (l.take n) = value l := by
  have h1 := value_take_drop l n hn
  rw [(orAll_eq_zero _).1 ((orAll_drop hw hn).2 h)] at h1
  omega

theorem value_four (n : Nat) (h : n < 2 ^ 256) :
    value [n % 2 ^ 64, (n >>> 64) % 2 ^ 64, (n >>> 128) % 2 ^ 64, (n >>> 192) % 2 ^ 64] = n := by
  simp only [value_cons, value_nil, Nat.shiftRight_eq_div_pow]
  have e1 : (2:Nat) ^ 128 = 2 ^ 64 * 2 ^ 64 := by norm_num
  have e2 : (2:Nat) ^ 192 = 2 ^ 64 * 2 ^ 64 * 2 ^ 64 := by norm_num
  have e3 : (2:Nat) ^ 256 = 2 ^ 64 * 2 ^ 64 * 2 ^ 64 * 2 ^ 64 := by norm_num
  rw [e1, e2]
  rw [e3] at h
  generalize (2:Nat) ^ 64 = W at *
  rw [← Nat.div_div_eq_div_mul, ← Nat.div_div_eq_div_mul, ← Nat.div_div_eq_div_mul]
  have h1 : n / W / W / W < W := by
    rw [Nat.div_div_eq_div_mul, Nat.div_div_eq_div_mul]
    apply Nat.div_lt_of_lt_mul
    calc n < _ := h
      _ = _ := by ring
  rw [Nat.mod_eq_of_lt h1]
  have a1 := Nat.mod_add_div n W
  have a2 := Nat.mod_add_div (n / W) W
  have a3 := Nat.mod_add_div (n / W / W) W
  rw [Nat.zero_mul, Nat.add_zero]
  rw [Nat.mul_comm (n / W / W / W), a3, Nat.mul_comm (n / W / W), a2, Nat.mul_comm (n / W), a1]

end Verif
