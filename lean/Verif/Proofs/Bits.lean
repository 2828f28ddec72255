import Verif.Model.Tickmap

/-! # Bit lemmas for the tick bitmap -/

namespace Verif

theorem getBit_eq_one {w b : Nat} : getBitAtPosition w b = 1 ↔ w.testBit b = true := by
  unfold getBitAtPosition
  rw [Nat.and_one_is_mod, Nat.testBit_eq_decide_div_mod_eq, Nat.shiftRight_eq_div_pow]
  simp

theorem getBit_eq_zero {w b : Nat} : getBitAtPosition w b = 0 ↔ w.testBit b = false := by
  unfold getBitAtPosition
  rw [Nat.and_one_is_mod, Nat.testBit_eq_decide_div_mod_eq, Nat.shiftRight_eq_div_pow]
  simp

theorem decide_getBit_one (w b : Nat) : decide (getBitAtPosition w b = 1) = w.testBit b := by
  rw [Bool.eq_iff_iff, decide_eq_true_iff]; exact getBit_eq_one

theorem decide_getBit_zero (w b : Nat) : decide (getBitAtPosition w b = 0) = !w.testBit b := by
  rw [Bool.eq_iff_iff, decide_eq_true_iff, getBit_eq_zero]; simp

theorem flipBit_testBit (w b j : Nat) :
    (flipBitAtPosition w b).testBit j = if j = b then !(w.testBit j) else w.testBit j := by
  unfold flipBitAtPosition
  rw [Nat.testBit_xor, Nat.one_shiftLeft, Nat.testBit_two_pow]
  by_cases h : j = b
  · subst h; simp
  · simp [h, Ne.symm h]

theorem flipBit_lt {w b : Nat} (hw : w < 2 ^ 64) (hb : b < 64) : flipBitAtPosition w b < 2 ^ 64 := by
  unfold flipBitAtPosition
  rw [Nat.one_shiftLeft]
  exact Nat.xor_lt_two_pow hw (Nat.pow_lt_pow_right (by norm_num) hb)

/-- the upward scan finds the lowest set bit -/
theorem skipZerosUp_spec (n sh bit : Nat) (h0 : sh ≠ 0) (hlt : sh < 2 ^ n) :
    ∃ k, skipZerosUp n sh bit = bit + k ∧ sh.testBit k = true ∧ ∀ j < k, sh.testBit j = false := by
  induction n generalizing sh bit with
  | zero => simp at hlt; omega
  | succ n ih =>
    rw [skipZerosUp]
    by_cases h : sh % 2 = 0
    · rw [if_pos h]
      have e : sh >>> 1 = sh / 2 := by rw [Nat.shiftRight_eq_div_pow]
      have h1 : sh >>> 1 ≠ 0 := by rw [e]; omega
      have h2 : sh >>> 1 < 2 ^ n := by rw [e]; rw [pow_succ] at hlt; omega
      obtain ⟨k, hk, hk1, hk2⟩ := ih (sh >>> 1) (bit + 1) h1 h2
      refine ⟨k + 1, by rw [hk]; omega, ?_, ?_⟩
      · rw [Nat.testBit_succ]; rw [e] at hk1; exact hk1
      · intro j hj
        cases j with
        | zero => rw [Nat.testBit_zero]; simp [h]
        | succ j =>
          rw [Nat.testBit_succ]
          have := hk2 j (by omega)
          rwa [e] at this
    · rw [if_neg h]
      refine ⟨0, rfl, ?_, ?_⟩
      · rw [Nat.testBit_zero]; simp; omega
      · intro j hj; omega

theorem mod_two_pow_pos {v b : Nat} : v % (1 <<< (b + 1)) > 0 ↔ ∃ k ≤ b, v.testBit k = true := by
  rw [Nat.one_shiftLeft]
  constructor
  · intro h
    obtain ⟨i, hi⟩ := Nat.exists_testBit_of_ne_zero (show v % 2 ^ (b + 1) ≠ 0 by omega)
    rw [Nat.testBit_mod_two_pow] at hi
    simp at hi
    exact ⟨i, by omega, hi.2⟩
  · rintro ⟨k, hk, hv⟩
    rcases Nat.eq_zero_or_pos (v % 2 ^ (b + 1)) with h | h
    · exfalso
      have : (v % 2 ^ (b + 1)).testBit k = true := by
        rw [Nat.testBit_mod_two_pow]; simp [hv]; omega
      rw [h] at this; simp at this
    · exact h

theorem and_shift_eq_zero {v b : Nat} : v &&& (1 <<< b) = 0 ↔ v.testBit b = false := by
  rw [Nat.one_shiftLeft]
  constructor
  · intro h
    have : (v &&& 2 ^ b).testBit b = false := by rw [h]; simp
    rw [Nat.testBit_and, Nat.testBit_two_pow_self] at this
    simpa using this
  · intro h
    apply Nat.eq_of_testBit_eq
    intro i
    rw [Nat.testBit_and, Nat.testBit_two_pow]
    by_cases hi : b = i
    · subst hi; simp [h]
    · simp [hi]

/-- the downward scan finds the highest set bit at or below its start -/
theorem skipZerosDown_spec (v b : Nat) (h : ∃ k ≤ b, v.testBit k = true) :
    ∃ k ≤ b, skipZerosDown v b = some k ∧ v.testBit k = true ∧
      ∀ j, k < j → j ≤ b → v.testBit j = false := by
  induction b with
  | zero =>
    obtain ⟨k, hk, hv⟩ := h
    have : k = 0 := by omega
    subst this
    refine ⟨0, le_rfl, ?_, hv, fun j h1 h2 => by omega⟩
    rw [skipZerosDown, if_neg]
    rw [and_shift_eq_zero, hv]; simp
  | succ b ih =>
    rw [skipZerosDown]
    by_cases hb : v.testBit (b + 1) = true
    · rw [if_neg (by rw [and_shift_eq_zero, hb]; simp)]
      exact ⟨b + 1, le_rfl, rfl, hb, fun j h1 h2 => by omega⟩
    · have hb' : v.testBit (b + 1) = false := by simpa using hb
      rw [if_pos (and_shift_eq_zero.2 hb')]
      obtain ⟨k, hk, hv⟩ := h
      have hk' : k ≤ b := by
        rcases Nat.lt_or_ge k (b + 1) with h | h
        · omega
        · have : k = b + 1 := by omega
          subst this; rw [hv] at hb'; cases hb'
      obtain ⟨m, hm, e, hv', hj⟩ := ih ⟨k, hk', hv⟩
      refine ⟨m, by omega, e, hv', ?_⟩
      intro j h1 h2
      rcases Nat.lt_or_ge j (b + 1) with h | h
      · exact hj j h1 (by omega)
      · have : j = b + 1 := by omega
        subst this; exact hb'

/-- bit `i` of the bitmap of a pool -/
def tmBit (tm : Tickmap) (key : PoolKey) (i : Nat) : Bool := (chunkWord tm key (i / 64)).testBit (i % 64)

/-- all words are 64-bit values -/
def TmWF (tm : Tickmap) : Prop := ∀ key c, chunkWord tm key c < 2 ^ 64

theorem tmBit_mk (tm : Tickmap) (key : PoolKey) (c b : Nat) (hb : b < 64) :
    tmBit tm key (c * 64 + b) = (chunkWord tm key c).testBit b := by
  unfold tmBit
  rw [show (c * 64 + b) / 64 = c by omega, show (c * 64 + b) % 64 = b by omega]

/-- the upward chunk loop returns the lowest set index in its window -/
theorem nextLoop_spec {tm : Tickmap} (hwf : TmWF tm) (key : PoolKey) (sp lc lb : Nat) (hlb : lb < 64) :
    ∀ (n c b : Nat), b < 64 → n = lc + 1 - c →
      (∃ i, c * 64 + b ≤ i ∧ i ≤ lc * 64 + lb ∧ tmBit tm key i = true ∧
          (∀ j, c * 64 + b ≤ j → j < i → tmBit tm key j = false) ∧
          nextLoop tm key sp lc lb n c b = some (indexToTick (i / 64) (i % 64) sp)) ∨
      ((∀ j, c * 64 + b ≤ j → j ≤ lc * 64 + lb → tmBit tm key j = false) ∧
        nextLoop tm key sp lc lb n c b = none) := by
  intro n
  induction n with
  | zero =>
    intro c b hb hn
    right
    exact ⟨fun j h1 h2 => by omega, rfl⟩
  | succ n ih =>
    intro c b hb hn
    rw [nextLoop]
    by_cases hc : c < lc ∨ (c = lc ∧ b ≤ lb)
    · rw [if_pos hc]
      simp only []
      have hw := hwf key c
      generalize hword : chunkWord tm key c = w at *
      have hsh : ∀ k, (w >>> b).testBit k = w.testBit (b + k) := fun k => Nat.testBit_shiftRight ..
      have hbit : ∀ j, c * 64 ≤ j → j < c * 64 + 64 → tmBit tm key j = w.testBit (j - c * 64) := by
        intro j h1 h2
        have := tmBit_mk tm key c (j - c * 64) (by omega)
        rw [show c * 64 + (j - c * 64) = j by omega, hword] at this
        exact this
      by_cases hs : w >>> b ≠ 0
      · rw [if_pos hs]
        have hlt : w >>> b < 2 ^ 64 := lt_of_le_of_lt (Nat.shiftRight_le _ _) hw
        obtain ⟨k, hk, hk1, hk2⟩ := skipZerosUp_spec 64 (w >>> b) b hs hlt
        rw [hk]
        have hkb : b + k < 64 := by
          rw [hsh] at hk1
          by_contra hcon
          have : w.testBit (b + k) = false :=
            Nat.testBit_lt_two_pow (lt_of_lt_of_le hw (Nat.pow_le_pow_right (by norm_num) (by omega)))
          rw [this] at hk1; cases hk1
        have hfirst : ∀ j, c * 64 + b ≤ j → j < c * 64 + (b + k) → tmBit tm key j = false := by
          intro j h1 h2
          rw [hbit j (by omega) (by omega)]
          have := hk2 (j - c * 64 - b) (by omega)
          rw [hsh] at this
          rwa [show b + (j - c * 64 - b) = j - c * 64 by omega] at this
        have hset : tmBit tm key (c * 64 + (b + k)) = true := by
          rw [hbit _ (by omega) (by omega), show c * 64 + (b + k) - c * 64 = b + k by omega, ← hsh]
          exact hk1
        by_cases hc2 : c < lc ∨ (c = lc ∧ b + k ≤ lb)
        · rw [if_pos hc2]
          left
          refine ⟨c * 64 + (b + k), by omega, by omega, hset, hfirst, ?_⟩
          rw [show (c * 64 + (b + k)) / 64 = c by omega, show (c * 64 + (b + k)) % 64 = b + k by omega]
        · rw [if_neg hc2]
          right
          exact ⟨fun j h1 h2 => hfirst j h1 (by omega), rfl⟩
      · rw [if_neg hs]
        have hz : ∀ j, c * 64 + b ≤ j → j < (c + 1) * 64 → tmBit tm key j = false := by
          intro j h1 h2
          rw [hbit j (by omega) (by omega)]
          have : (w >>> b).testBit (j - c * 64 - b) = false := by
            rw [not_not.1 hs]; simp
          rw [hsh] at this
          rwa [show b + (j - c * 64 - b) = j - c * 64 by omega] at this
        rcases ih (c + 1) 0 (by norm_num) (by omega) with ⟨i, h1, h2, h3, h4, h5⟩ | ⟨h1, h2⟩
        · left
          refine ⟨i, by omega, h2, h3, ?_, h5⟩
          intro j hj1 hj2
          rcases Nat.lt_or_ge j ((c + 1) * 64) with h | h
          · exact hz j hj1 h
          · exact h4 j (by omega) hj2
        · right
          refine ⟨?_, h2⟩
          intro j hj1 hj2
          rcases Nat.lt_or_ge j ((c + 1) * 64) with h | h
          · exact hz j hj1 h
          · exact h1 j (by omega) hj2
    · rw [if_neg hc]
      right
      refine ⟨fun j h1 h2 => ?_, rfl⟩
      exfalso
      apply hc
      omega

/-- the downward chunk loop returns the highest set index in its window -/
theorem prevLoop_spec {tm : Tickmap} (key : PoolKey) (sp lc lb : Nat) :
    ∀ (c b : Nat), b < 64 →
      (∃ i, lc * 64 + lb ≤ i ∧ i ≤ c * 64 + b ∧ tmBit tm key i = true ∧
          (∀ j, i < j → j ≤ c * 64 + b → tmBit tm key j = false) ∧
          prevLoop tm key sp lc lb c b = some (indexToTick (i / 64) (i % 64) sp)) ∨
      ((∀ j, lc * 64 + lb ≤ j → j ≤ c * 64 + b → tmBit tm key j = false) ∧
        prevLoop tm key sp lc lb c b = none) ∨ 64 ≤ lb := by
  intro c
  induction c with
  | zero =>
    intro b hb
    rcases Nat.lt_or_ge lb 64 with hlb | hlb
    swap
    · exact Or.inr (Or.inr hlb)
    have hbit : ∀ j, j < 64 → tmBit tm key j = (chunkWord tm key 0).testBit j := by
      intro j h2
      have := tmBit_mk tm key 0 j h2
      rwa [show 0 * 64 + j = j by omega] at this
    rw [prevLoop]
    generalize chunkWord tm key 0 = w at *
    by_cases hc : 0 > lc ∨ (0 = lc ∧ b ≥ lb)
    · rw [if_pos hc]
      simp only []
      by_cases hv : w % (1 <<< (b + 1)) > 0
      · rw [if_pos hv]
        obtain ⟨k, hk, e, hk1, hk2⟩ := skipZerosDown_spec w b (mod_two_pow_pos.1 hv)
        rw [e]
        have hlast : ∀ j, k < j → j ≤ 0 * 64 + b → tmBit tm key j = false := by
          intro j h1 h2
          rw [hbit j (by omega)]
          exact hk2 j h1 (by omega)
        simp only []
        by_cases hc2 : 0 > lc ∨ (0 = lc ∧ k ≥ lb)
        · rw [if_pos hc2]
          left
          refine ⟨k, by omega, by omega, by rw [hbit k (by omega)]; exact hk1, hlast, ?_⟩
          rw [show k / 64 = 0 by omega, show k % 64 = k by omega]
        · rw [if_neg hc2]
          right; left
          exact ⟨fun j h1 h2 => hlast j (by omega) h2, rfl⟩
      · rw [if_neg hv]
        right; left
        refine ⟨fun j h1 h2 => ?_, rfl⟩
        rw [hbit j (by omega)]
        by_contra hcon
        exact hv (mod_two_pow_pos.2 ⟨j, by omega, by simpa using hcon⟩)
    · rw [if_neg hc]
      right; left
      refine ⟨fun j h1 h2 => ?_, rfl⟩
      exfalso
      apply hc
      omega
  | succ c ih =>
    intro b hb
    rcases Nat.lt_or_ge lb 64 with hlb | hlb
    swap
    · exact Or.inr (Or.inr hlb)
    have hbit : ∀ j, (c + 1) * 64 ≤ j → j < (c + 1) * 64 + 64 →
        tmBit tm key j = (chunkWord tm key (c + 1)).testBit (j - (c + 1) * 64) := by
      intro j h1 h2
      have := tmBit_mk tm key (c + 1) (j - (c + 1) * 64) (by omega)
      rwa [show (c + 1) * 64 + (j - (c + 1) * 64) = j by omega] at this
    rw [prevLoop]
    generalize chunkWord tm key (c + 1) = w at *
    by_cases hc : c + 1 > lc ∨ (c + 1 = lc ∧ b ≥ lb)
    · rw [if_pos hc]
      simp only []
      by_cases hv : w % (1 <<< (b + 1)) > 0
      · rw [if_pos hv]
        obtain ⟨k, hk, e, hk1, hk2⟩ := skipZerosDown_spec w b (mod_two_pow_pos.1 hv)
        rw [e]
        have hlast : ∀ j, (c + 1) * 64 + k < j → j ≤ (c + 1) * 64 + b → tmBit tm key j = false := by
          intro j h1 h2
          rw [hbit j (by omega) (by omega)]
          exact hk2 _ (by omega) (by omega)
        simp only []
        by_cases hc2 : c + 1 > lc ∨ (c + 1 = lc ∧ k ≥ lb)
        · rw [if_pos hc2]
          left
          refine ⟨(c + 1) * 64 + k, by omega, by omega, ?_, hlast, ?_⟩
          · rw [hbit _ (by omega) (by omega), show (c + 1) * 64 + k - (c + 1) * 64 = k by omega]
            exact hk1
          · rw [show ((c + 1) * 64 + k) / 64 = c + 1 by omega,
              show ((c + 1) * 64 + k) % 64 = k by omega]
        · rw [if_neg hc2]
          right; left
          exact ⟨fun j h1 h2 => hlast j (by omega) h2, rfl⟩
      · rw [if_neg hv]
        have hz : ∀ j, (c + 1) * 64 ≤ j → j ≤ (c + 1) * 64 + b → tmBit tm key j = false := by
          intro j h1 h2
          rw [hbit j h1 (by omega)]
          by_contra hcon
          exact hv (mod_two_pow_pos.2 ⟨j - (c + 1) * 64, by omega, by simpa using hcon⟩)
        rcases ih 63 (by norm_num) with ⟨i, h1, h2, h3, h4, h5⟩ | ⟨h1, h2⟩ | h
        · left
          refine ⟨i, h1, by omega, h3, ?_, h5⟩
          intro j hj1 hj2
          rcases Nat.lt_or_ge j ((c + 1) * 64) with h | h
          · exact h4 j hj1 (by omega)
          · exact hz j h hj2
        · right; left
          refine ⟨?_, h2⟩
          intro j hj1 hj2
          rcases Nat.lt_or_ge j ((c + 1) * 64) with h | h
          · exact h1 j hj1 (by omega)
          · exact hz j h hj2
        · omega
    · rw [if_neg hc]
      right; left
      refine ⟨fun j h1 h2 => ?_, rfl⟩
      exfalso
      apply hc
      omega

end Verif
