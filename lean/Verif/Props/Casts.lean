import Verif.Proofs.Casts

/-!
# C13: checked conversions of wide integers

`Spec.value` is the number denoted by the 64-bit words. "Well-formed" means the right number of words,
each below 2^64.
-/

namespace Verif
open Spec

/-- C13, between wide types: a cast to a type with more words keeps the value; a checked cast to a
type of `n` words keeps the value if it fits in `64 n` bits and fails exactly otherwise. The results
are well-formed. -/
theorem C13_wide {m n : Nat} {l : Words} (hl : Words.WF m l) :
    (m ≤ n → ∃ r, castUp n l = .ok r ∧ Words.WF n r ∧ value r = value l) ∧
    (n < m → value l < 2 ^ (64 * n) →
      ∃ r, castDown n l = .ok r ∧ Words.WF n r ∧ value r = value l) ∧
    (n < m → 2 ^ (64 * n) ≤ value l → ∃ e, castDown n l = .error e) := by
  obtain ⟨hlen, hw⟩ := hl
  refine ⟨?_, ?_, ?_⟩
  · intro hmn
    refine ⟨_, rfl, ⟨by simp; omega, ?_⟩, ?_⟩
    · intro w h
      rcases List.mem_append.1 h with h | h
      · exact hw w h
      · rw [(List.mem_replicate.1 h).2]; positivity
    · rw [value_append, value_replicate]; omega
  · intro hnm hlt
    have hn : n ≤ l.length := by omega
    refine ⟨l.take n, ?_, ⟨by simp; omega, fun w h => hw w (List.mem_of_mem_take h)⟩,
      value_take_of_lt hw hn hlt⟩
    unfold castDown
    rw [if_neg]
    simpa using (orAll_drop hw hn).2 hlt
  · intro hnm hge
    have hn : n ≤ l.length := by omega
    refine ⟨.track, ?_⟩
    unfold castDown
    rw [if_pos]
    intro h0
    have := (orAll_drop hw hn).1 h0
    omega

/-- C13, to `u64` (types of at least two words) and `u128`: the value if it fits, an error exactly
otherwise. -/
theorem C13_u64_u128 {m : Nat} {l : Words} (hl : Words.WF m l) (hm : 2 ≤ m) :
    castU64 l = (if value l < 2 ^ 64 then .ok (value l) else .error .track) ∧
    castU128 l = (if value l < 2 ^ 128 then .ok (value l) else .error .track) := by
  obtain ⟨hlen, hw⟩ := hl
  match l, hlen with
  | [], h => simp at h; omega
  | [_], h => simp at h; omega
  | a :: b :: t, hlen =>
    have ha := hw a (by simp)
    have hb := hw b (by simp)
    have h1 := orAll_drop (n := 1) hw (by simp)
    have h2 := orAll_drop (n := 2) hw (by simp)
    have v1 : value (a :: b :: t) = a + (b + value t * 2 ^ 64) * 2 ^ 64 := by
      rw [value_cons, value_cons]
    constructor
    · unfold castU64
      by_cases h : value (a :: b :: t) < 2 ^ 64
      · rw [if_neg (by simpa using h1.2 h), if_pos h]
        simp only [lowU64, List.getD_cons_zero]
        refine congrArg Except.ok ?_
        omega
      · rw [if_pos (fun h0 => h (h1.1 h0)), if_neg h]
    · have hlow : lowU128 (a :: b :: t) = b * 2 ^ 64 + a := by
        simp [lowU128, Nat.shiftLeft_eq]
      unfold castU128
      by_cases h : value (a :: b :: t) < 2 ^ 128
      · rw [if_pos h, if_neg (c := orAll (List.drop 2 (a :: b :: t)) ≠ 0) (fun hc => hc (h2.2 h)),
          ite_self, hlow]
        refine congrArg Except.ok ?_
        have : value t = 0 := by
          rcases Nat.eq_zero_or_pos (value t) with h0 | h0
          · exact h0
          · have e1 : (2:Nat) ^ 128 = 2 ^ 64 * 2 ^ 64 := by norm_num
            rw [e1, v1, Nat.add_mul] at h
            have : 1 * 2 ^ 64 * 2 ^ 64 ≤ value t * 2 ^ 64 * 2 ^ 64 :=
              Nat.mul_le_mul_right _ (Nat.mul_le_mul_right _ h0)
            rw [Nat.one_mul] at this
            omega
        rw [v1, this, Nat.zero_mul, Nat.add_zero, Nat.add_comm]
      · rw [if_neg h, if_neg, if_pos (fun h0 => h (h2.1 h0))]
        intro h0
        have ht : t = [] := by
          simp at h0; exact h0
        subst ht
        rw [value_nil] at v1
        norm_num at h ha hb
        omega

/-- C13 is false for the narrow primitives: the checked casts to `u8`, `u16` and `u32` look only at
the lowest word, so 2^64 + 7 "fits" into a `u8`. -/
theorem C13_negation :
    ¬ ∀ (w : Nat) (l : Words), (w = 8 ∨ w = 16 ∨ w = 32) → Words.WF 4 l →
      (∀ v, castNarrow w l = .ok v → v = value l) := by
  intro h
  have := h 8 [7, 1, 0, 0] (Or.inl rfl) ⟨rfl, by decide⟩ 7 (by decide +kernel)
  revert this
  decide +kernel

/-- C13 for `u8`, `u16`, `u32`: correct for values below 2^64; in general the result is the value
modulo 2^64. (Full statement: failure for every value of `2^w` or more; refuted above.) -/
theorem C13_narrow_partial {w m : Nat} {l : Words} (hl : Words.WF m l) (hm : 1 ≤ m) :
    castNarrow w l =
      (if value l % 2 ^ 64 < 2 ^ w then .ok (value l % 2 ^ 64) else .error .track) ∧
    (value l < 2 ^ 64 →
      castNarrow w l = if value l < 2 ^ w then .ok (value l) else .error .track) := by
  obtain ⟨hlen, hw'⟩ := hl
  match l, hlen with
  | [], h => simp at h; omega
  | a :: t, hlen =>
    have ha := hw' a (by simp)
    have key : value (a :: t) % 2 ^ 64 = a := by
      rw [value_cons, Nat.add_mul_mod_self_right, Nat.mod_eq_of_lt ha]
    have h1 : castNarrow w (a :: t) =
        (if value (a :: t) % 2 ^ 64 < 2 ^ w then .ok (value (a :: t) % 2 ^ 64)
          else .error .track) := by
      rw [key]
      unfold castNarrow
      simp only [List.getD_cons_zero]
      have hpos : 0 < 2 ^ w := by positivity
      by_cases h : a < 2 ^ w
      · rw [if_neg (by omega), if_pos h, Nat.mod_eq_of_lt h]
      · rw [if_pos (by omega), if_neg h]
    refine ⟨h1, fun hlt => ?_⟩
    rw [h1, Nat.mod_eq_of_lt hlt]

/-- C13, from primitives (up to `u128`) to a wide type, and from `i32` to `u128`. -/
theorem C13_from_primitive {n v : Nat} (hn : 2 ≤ n) (hv : v < 2 ^ 128) :
    Words.WF n (castPrim n v) ∧ value (castPrim n v) = v ∧
    (∀ z : Int, -2 ^ 31 ≤ z → z < 2 ^ 31 →
      (0 ≤ z → castI32 z = .ok z.toNat) ∧ (z < 0 → castI32 z = .error .panic)) := by
  refine ⟨⟨?_, ?_⟩, ?_, ?_⟩
  · simp [castPrim]; omega
  · intro w h
    simp only [castPrim, List.mem_append, List.mem_cons, List.not_mem_nil, or_false,
      List.mem_replicate] at h
    rcases h with (h | h) | h
    · rw [h]; exact Nat.mod_lt _ (by positivity)
    · rw [h, Nat.shiftRight_eq_div_pow]; norm_num at hv ⊢; omega
    · rw [h.2]; positivity
  · unfold castPrim
    rw [value_append, value_replicate, value_cons, value_cons, value_nil, Nat.shiftRight_eq_div_pow]
    norm_num
    omega
  · intro z h1 h2
    unfold castI32
    constructor
    · intro h
      rw [if_neg (by omega), Nat.mod_eq_of_lt (by norm_num at h2 ⊢; omega)]
    · intro h; rw [if_pos h]

/-- C13, the dedicated 256/320-bit conversions. -/
theorem C13_u320 {l : Words} (_hl : Words.WF 5 l) :
    (value l < 2 ^ 256 → ∃ r, checkedU320ToU256 l = some r ∧ Words.WF 4 r ∧ value r = value l) ∧
    (2 ^ 256 ≤ value l → checkedU320ToU256 l = none) ∧
    (∀ l', Words.WF 4 l' → Words.WF 5 (u256ToU320 l') ∧ value (u256ToU320 l') = value l') ∧
    (∀ n, n < 2 ^ 128 → Words.WF 4 (toU256 n) ∧ value (toU256 n) = n) := by
  have hmod : ∀ x : Nat, x % 2 ^ 64 < 2 ^ 64 := fun x => Nat.mod_lt _ (by positivity)
  refine ⟨?_, ?_, ?_, ?_⟩
  · intro h
    unfold checkedU320ToU256
    simp only [wordsVal_eq]
    rw [if_neg (by rw [Nat.shiftRight_eq_div_pow, Nat.div_eq_of_lt h]; simp)]
    refine ⟨_, rfl, ⟨rfl, ?_⟩, value_four _ h⟩
    intro w hw
    simp only [List.mem_cons, List.not_mem_nil, or_false] at hw
    rcases hw with h | h | h | h <;> rw [h] <;> exact hmod _
  · intro h
    unfold checkedU320ToU256
    simp only [wordsVal_eq]
    rw [if_pos]
    rw [Nat.shiftRight_eq_div_pow]
    exact (Nat.div_pos h (by positivity)).ne'
  · rintro l' ⟨hl1, hl2⟩
    have hlt := value_lt hl2
    rw [hl1] at hlt
    unfold u256ToU320
    simp only [wordsVal_eq]
    refine ⟨⟨rfl, ?_⟩, ?_⟩
    · intro w hw
      simp only [List.mem_cons, List.not_mem_nil, or_false] at hw
      rcases hw with h | h | h | h | h <;> rw [h] <;> first | exact hmod _ | positivity
    · have := value_four (value l') hlt
      simp only [value_cons, value_nil] at this ⊢
      omega
  · intro n hn
    unfold toU256
    refine ⟨⟨rfl, ?_⟩, ?_⟩
    · intro w hw
      simp only [List.mem_cons, List.not_mem_nil, or_false] at hw
      rcases hw with h | h | h | h <;> rw [h] <;> first | exact hmod _ | positivity
    · simp only [value_cons, value_nil, Nat.shiftRight_eq_div_pow]
      norm_num at hn ⊢
      omega

/-- a value that fits in two of four words, one that does not, and a well-formed word list -/
example : castDown 2 [1, 2, 0, 0] = .ok [1, 2] ∧ castDown 2 [1, 2, 0, 1] = .error .track ∧
    castU128 [5, 1, 0] = .ok (2 ^ 64 + 5) ∧ Words.WF 4 [1, 2, 0, 2 ^ 64 - 1] ∧
    castNarrow 8 [300, 0] = .error .track ∧ checkedU320ToU256 [0, 0, 0, 9, 0] = some [0, 0, 0, 9] :=
  ⟨by decide +kernel, by decide +kernel, by decide +kernel, ⟨rfl, by decide +kernel⟩,
    by decide +kernel, by decide +kernel⟩

end Verif
