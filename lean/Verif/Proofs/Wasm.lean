import Verif.Model.Wasm
import Verif.Proofs.Decimal
import Mathlib.Data.Nat.Digits.Lemmas

/-! # Texts and words -/

namespace Verif.Wasm

/-- value of digits, highest first -/
def value (l : List Nat) : Nat := l.foldl (fun r b => r * 10 + (b - 48)) 0

theorem foldl_value (l : List Nat) : ∀ r, l.foldl (fun r b => r * 10 + (b - 48)) r = r * 10 ^ l.length + value l := by
  induction l with
  | nil => intro r; simp [value]
  | cons b l ih =>
    intro r
    have e : value (b :: l) = (0 * 10 + (b - 48)) * 10 ^ l.length + value l := by
      rw [← ih]; rfl
    rw [List.foldl_cons, ih, e, List.length_cons, pow_succ]
    ring

theorem value_append (l m : List Nat) : value (l ++ m) = value l * 10 ^ m.length + value m := by
  unfold value
  rw [List.foldl_append, foldl_value m]
  rfl

theorem value_digits (l : List Nat) : value (l.reverse.map (48 + ·)) = Nat.ofDigits 10 l := by
  induction l with
  | nil => rfl
  | cons d l ih =>
    rw [List.reverse_cons, List.map_append, value_append, ih, Nat.ofDigits_cons]
    simp [value]
    ring

theorem text_nat (n : Nat) : text n = (if n = 0 then [0] else (Nat.digits 10 n).reverse).map (48 + ·) := by
  unfold text
  have h1 : ¬ ((n : Int) < 0) := by omega
  simp only [h1, if_false, Int.natCast_eq_zero, Int.natAbs_natCast]

theorem value_text (n : Nat) : value (text n) = n := by
  rw [text_nat]
  split
  · next h => rw [h]; rfl
  · rw [value_digits, Nat.ofDigits_digits]

theorem text_all (n : Nat) : (text n).all (fun b => decide (48 ≤ b ∧ b ≤ 57)) = true := by
  rw [text_nat, List.all_eq_true]
  intro b hb
  rw [List.mem_map] at hb
  obtain ⟨d, hd, rfl⟩ := hb
  have : d < 10 := by
    split at hd
    · simp at hd; omega
    · exact Nat.digits_lt_base (by norm_num) (List.mem_reverse.1 hd)
  simp
  omega

theorem pushDigit_ok {bits r b v : Nat} : pushDigit bits r b = .ok v ↔
    r * 10 + (b - 48) < 2 ^ bits ∧ v = r * 10 + (b - 48) := by
  unfold pushDigit
  simp only [bind_ok_iff, mulC_ok_iff, addC_ok_iff]
  constructor
  · rintro ⟨t, ⟨_, rfl⟩, h2, h3⟩
    exact ⟨h2, h3.symm ▸ rfl⟩
  · rintro ⟨h1, rfl⟩
    exact ⟨_, ⟨by omega, rfl⟩, h1, rfl⟩

theorem foldlM_ok {bits : Nat} (l : List Nat) : ∀ {r v : Nat}, r < 2 ^ bits →
    (l.foldlM (pushDigit bits) r = .ok v ↔
      r * 10 ^ l.length + value l < 2 ^ bits ∧ v = r * 10 ^ l.length + value l) := by
  induction l with
  | nil =>
    intro r v hr
    simp only [List.foldlM_nil, List.length_nil, pow_zero, Nat.mul_one, value, List.foldl_nil, Nat.add_zero]
    change (.ok r : M Nat) = .ok v ↔ _
    constructor
    · intro h; cases h; exact ⟨hr, rfl⟩
    · rintro ⟨_, rfl⟩; rfl
  | cons b l ih =>
    intro r v hr
    have e : r * 10 ^ (b :: l).length + value (b :: l) =
        (r * 10 + (b - 48)) * 10 ^ l.length + value l := by
      have h1 : value (b :: l) = (b - 48) * 10 ^ l.length + value l := by
        have := value_append [b] l
        simpa [value] using this
      rw [h1, List.length_cons, pow_succ]
      ring
    rw [List.foldlM_cons, bind_ok_iff, e]
    constructor
    · rintro ⟨t, h1, h2⟩
      obtain ⟨h3, rfl⟩ := pushDigit_ok.1 h1
      exact (ih h3).1 h2
    · rintro ⟨h1, h2⟩
      have h3 : r * 10 + (b - 48) < 2 ^ bits := by
        have : r * 10 + (b - 48) ≤ (r * 10 + (b - 48)) * 10 ^ l.length :=
          Nat.le_mul_of_pos_right _ (by positivity)
        omega
      exact ⟨_, pushDigit_ok.2 ⟨h3, rfl⟩, (ih h3).2 ⟨h1, h2⟩⟩

theorem readText_nat {bits n v : Nat} : readText bits (text n) = .ok v ↔ n < 2 ^ bits ∧ v = n := by
  unfold readText
  rw [if_pos (text_all n), foldlM_ok _ (by positivity), value_text]
  simp

theorem readText_neg {bits : Nat} {z : Int} (hz : z < 0) : readText bits (text z) = .error .panic := by
  unfold readText text
  simp only [hz, if_true, List.all_cons]
  rw [if_neg (by simp)]

/-! ## Words -/

theorem words_succ (n v : Nat) : words (n + 1) v = words n v ++ [v / 2 ^ (64 * n) % 2 ^ 64] := by
  unfold words
  rw [List.range_succ, List.map_append, List.map_singleton]

theorem orWords_append (l : List Nat) (w : Nat) : orWords (l ++ [w]) = orWords l ||| w <<< (l.length * 64) := by
  unfold orWords
  rw [List.zipIdx_append, List.foldl_append]
  simp

theorem or_shift {a w k : Nat} (h : a < 2 ^ k) : a ||| w <<< k = a + 2 ^ k * w := by
  rw [Nat.shiftLeft_eq, Nat.or_comm, Nat.mul_comm w, ← Nat.two_pow_add_eq_or_of_lt h, Nat.add_comm]

theorem orWords_words (n v : Nat) : orWords (words n v) = v % 2 ^ (64 * n) := by
  induction n with
  | zero => simp [words, orWords, Nat.mod_one]
  | succ n ih =>
    rw [words_succ, orWords_append, ih]
    have : (words n v).length = n := by simp [words]
    rw [this, Nat.mul_comm n 64, or_shift (Nat.mod_lt _ (by positivity)), show 64 * (n + 1) = 64 * n + 64 by ring,
      pow_add, Nat.mod_mul]

theorem words_cons (n v : Nat) : words (n + 1) v = v % 2 ^ 64 :: words n (v / 2 ^ 64) := by
  unfold words
  rw [List.range_succ_eq_map, List.map_cons, List.map_map]
  refine congrArg₂ _ (by simp) (List.map_congr_left fun i _ => ?_)
  simp only [Function.comp]
  rw [Nat.div_div_eq_div_mul, ← pow_add, show 64 * (i + 1) = 64 + 64 * i by ring]

theorem foldWords_cons (w : Nat) (l : List Nat) : foldWords (w :: l) = foldWords l <<< 64 ||| w := by
  unfold foldWords
  rw [List.reverse_cons, List.foldl_append]
  rfl

theorem foldWords_words (n : Nat) : ∀ v, foldWords (words n v) = v % 2 ^ (64 * n) := by
  induction n with
  | zero => intro v; simp [words, foldWords, Nat.mod_one]
  | succ n ih =>
    intro v
    rw [words_cons, foldWords_cons, ih, Nat.or_comm, or_shift (Nat.mod_lt _ (by positivity)),
      show 64 * (n + 1) = 64 + 64 * n by ring, pow_add, Nat.mod_mul]

end Verif.Wasm
