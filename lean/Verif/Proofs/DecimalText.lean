import Verif.Proofs.Decimal

/-!
# Lemmas about the text of a decimal
-/

namespace Verif.Decimal

variable {S : DecType} {a n : Nat}

theorem readNat_eq (l : List Char) : readNat l = Nat.ofDigitChars 10 l 0 := by
  rw [Nat.ofDigitChars_eq_foldl]
  rfl

theorem readNat_digits (n : Nat) : readNat (digits n) = n := by
  rw [readNat_eq]
  exact Nat.ofDigitChars_ten_toDigits

theorem readNat_zeros (k n : Nat) : readNat (List.replicate k '0' ++ digits n) = n := by
  rw [readNat_eq, Nat.ofDigitChars_append, Nat.ofDigitChars_replicate_zero, Nat.mul_zero]
  exact Nat.ofDigitChars_ten_toDigits

theorem digits_no_point (n : Nat) : ∀ c ∈ digits n, c ≠ '.' := by
  intro c hc h
  have := Nat.isDigit_of_mem_toDigits (by decide) (by decide) hc
  subst h
  revert this
  decide

theorem takeWhile_all {p : Char → Bool} {l : List Char} (h : ∀ c ∈ l, p c = true) (m : List Char) :
    (l ++ m).takeWhile p = l ++ m.takeWhile p ∧ (l ++ m).dropWhile p = m.dropWhile p := by
  induction l with
  | nil => simp
  | cons c t ih =>
    have hc := h c (by simp)
    have := ih (fun c' hc' => h c' (by simp [hc']))
    simp [hc, this.1, this.2]

theorem text_parts (n : Nat) (m : List Char) :
    wholePart (digits n ++ '.' :: m) = digits n ∧ places (digits n ++ '.' :: m) = m := by
  have h := takeWhile_all (p := fun c => decide (c ≠ '.')) (l := digits n)
    (fun c hc => by simpa using digits_no_point n c hc) ('.' :: m)
  unfold wholePart places
  rw [h.1, h.2]
  simp

theorem text_whole (n : Nat) : wholePart (digits n) = digits n ∧ places (digits n) = [] := by
  have h := takeWhile_all (p := fun c => decide (c ≠ '.')) (l := digits n)
    (fun c hc => by simpa using digits_no_point n c hc) []
  unfold wholePart places
  rw [List.append_nil] at h
  rw [h.1, h.2]
  simp

theorem tailLoop_digits : ∀ {k n : Nat}, 0 < n → n ≤ k → tailLoop k n = (digits n).length
  | 0, n, h0, hk => by omega
  | k + 1, n, h0, hk => by
    rw [tailLoop, if_pos h0]
    by_cases h : n < 10
    · have h1 : n / 10 = 0 := by omega
      rw [h1]
      have : tailLoop k 0 = 0 := by cases k <;> simp [tailLoop]
      simp [digits, Nat.toDigits_of_lt_base h, this]
    · rw [tailLoop_digits (by omega : 0 < n / 10) (by omega)]
      unfold digits
      rw [Nat.toDigits_of_base_le (by decide) (by omega) (n := n)]
      simp
      omega

/-- the loop counts the digits -/
theorem tailLen_digits {n : Nat} (hn : 0 < n) : tailLen n = (digits n).length :=
  tailLoop_digits hn le_rfl

theorem tailLen_zero : tailLen 0 = 0 := rfl

theorem tailLen_le {k n : Nat} (hn : n < 10 ^ k) : tailLen n ≤ k := by
  rcases Nat.eq_zero_or_pos n with rfl | h0
  · rw [tailLen_zero]; exact Nat.zero_le _
  rcases Nat.eq_zero_or_pos k with rfl | hk
  · rw [pow_zero] at hn; omega
  · rw [tailLen_digits h0]
    exact (Nat.length_toDigits_le_iff (by decide) hk).2 hn

theorem display_eq (hS : Sane S) (h0 : 0 < S.scale) (h1 : S.scale < 256) (a : Nat) :
    display S a = .ok (digits (a / 10 ^ S.scale) ++ '.' ::
      (List.replicate (S.scale - tailLen (a % 10 ^ S.scale)) '0' ++
        digits (a % 10 ^ S.scale))) := by
  have ht := tailLen_le (Nat.mod_lt a (pow10_pos S.scale))
  have hz : (S.scale + 256 - tailLen (a % 10 ^ S.scale)) % 256 =
      S.scale - tailLen (a % 10 ^ S.scale) := by omega
  unfold display
  rw [if_pos h0, one_eq hS]
  simp only [ok_bind, hz]
  rfl

end Verif.Decimal
