import Verif.Proofs.Scale

/-!
# Property C63: how the answers of token contracts are read

The decoders of `Model/Scale` against an independent description of the encodings.
-/

namespace Verif
open Scale

namespace Spec

/-- a Unicode scalar value -/
def Scalar (c : Nat) : Prop := c < 0xD800 ∨ 0xE000 ≤ c ∧ c < 0x110000

/-- the UTF-8 encoding of a code point -/
def utf8Bytes (c : Nat) : Bytes :=
  if c < 0x80 then [c]
  else if c < 0x800 then [0xC0 + c / 64, 0x80 + c % 64]
  else if c < 0x10000 then [0xE0 + c / 4096, 0x80 + c / 64 % 64, 0x80 + c % 64]
  else [0xF0 + c / 262144, 0x80 + c / 4096 % 64, 0x80 + c / 64 % 64, 0x80 + c % 64]

/-- the bytes are the encoding of a text -/
def IsText (l : Bytes) : Prop := ∃ cs : List Nat, (∀ c ∈ cs, Scalar c) ∧ l = cs.flatMap utf8Bytes

/-- the SCALE encoding of a number below 2^32 as a compact integer -/
def compactBytes (n : Nat) : Bytes :=
  if n < 2 ^ 6 then [4 * n]
  else if n < 2 ^ 14 then [(4 * n + 1) % 256, (4 * n + 1) / 256]
  else if n < 2 ^ 30 then
    [(4 * n + 2) % 256, (4 * n + 2) / 256 % 256, (4 * n + 2) / 65536 % 256, (4 * n + 2) / 16777216]
  else [3, n % 256, n / 256 % 256, n / 65536 % 256, n / 16777216]

/-- the SCALE encoding of a text -/
def textBytes (t : Bytes) : Bytes := compactBytes t.length ++ t

end Spec

open Spec

private theorem utf8_enc {c : Nat} (h : Scalar c) (l : Bytes) : utf8 (utf8Bytes c ++ l) = utf8 l := by
  unfold Scalar at h
  unfold utf8Bytes
  split
  · next h1 =>
    rw [List.singleton_append, utf8.eq_def]
    dsimp only
    rw [if_pos h1]
  · split
    · rw [List.cons_append, List.cons_append, List.nil_append, utf8.eq_def]
      have : cont (128 + c % 64) = true := by unfold cont; simp; omega
      simp only [this, Bool.true_and]
      rw [if_neg (by omega), if_pos (by omega)]
    · split
      · have e : utf8 ([224 + c / 4096, 128 + c / 64 % 64, 128 + c % 64] ++ l) = utf8 l := by
          rw [List.cons_append, List.cons_append, List.cons_append, List.nil_append, utf8.eq_def]
          have h1 : cont (128 + c % 64) = true := by unfold cont; simp; omega
          have h2 : cont (128 + c / 64 % 64) = true := by unfold cont; simp; omega
          simp only [h1, h2, Bool.true_and]
          rw [if_neg (by omega), if_neg (by omega), if_pos (by omega), decide_eq_true (by omega)]
          rfl
        exact e
      · have e : utf8 ([240 + c / 262144, 128 + c / 4096 % 64, 128 + c / 64 % 64, 128 + c % 64] ++ l) = utf8 l := by
          rw [List.cons_append, List.cons_append, List.cons_append, List.cons_append, List.nil_append, utf8.eq_def]
          have h1 : cont (128 + c % 64) = true := by unfold cont; simp; omega
          have h2 : cont (128 + c / 64 % 64) = true := by unfold cont; simp; omega
          have h3 : cont (128 + c / 4096 % 64) = true := by unfold cont; simp; omega
          simp only [h1, h2, h3, Bool.true_and]
          rw [if_neg (by omega), if_neg (by omega), if_neg (by omega), if_pos (by omega), decide_eq_true (by omega)]
          rfl
        exact e

private theorem cons_text {c : Nat} {l m : Bytes} (hc : Scalar c) (h : IsText l) (e : m = utf8Bytes c ++ l) :
    IsText m := by
  obtain ⟨cs, h1, rfl⟩ := h
  refine ⟨c :: cs, ?_, by rw [e, List.flatMap_cons]⟩
  intro d hd
  rcases List.mem_cons.1 hd with rfl | hd
  · exact hc
  · exact h1 d hd

/-- C63, UTF-8: the test accepts exactly the encodings of texts. -/
theorem C63_utf8 (l : Bytes) : utf8 l = true ↔ IsText l := by
  constructor
  · intro h
    induction l using utf8.induct with
    | case1 => exact ⟨[], by simp, rfl⟩
    | case2 a l h1 ih =>
      rw [utf8.eq_def] at h
      dsimp only at h
      rw [if_pos h1] at h
      exact cons_text (c := a) (.inl (by omega)) (ih h) (by unfold utf8Bytes; rw [if_pos (by omega)]; rfl)
    | case3 a h1 =>
      rw [utf8.eq_def] at h
      dsimp only at h
      rw [if_neg h1] at h
      cases h
    | case4 a h1 b l h2 ih =>
      rw [utf8.eq_def] at h
      dsimp only at h
      rw [if_neg h1, if_pos h2, Bool.and_eq_true] at h
      have hb := of_decide_eq_true h.1
      refine cons_text (c := (a - 192) * 64 + (b - 128)) (.inl (by omega)) (ih h.2) ?_
      unfold utf8Bytes
      rw [if_neg (by omega), if_pos (by omega)]
      simp only [List.cons_append, List.nil_append, List.cons.injEq, and_true]
      omega
    | case5 a h1 b h2 =>
      rw [utf8.eq_def] at h
      dsimp only at h
      rw [if_neg h1, if_neg h2] at h
      cases h
    | case6 a h1 b h2 c l h3 ih =>
      rw [utf8.eq_def] at h
      dsimp only at h
      rw [if_neg h1, if_neg h2, if_pos h3] at h
      simp only [Bool.and_eq_true] at h
      obtain ⟨⟨⟨k1, k2⟩, k3⟩, k4⟩ := h
      have k1 := of_decide_eq_true k1
      have k2 := of_decide_eq_true k2
      have k3 := of_decide_eq_true k3
      refine cons_text (c := (a - 224) * 4096 + (b - 128) * 64 + (c - 128)) ?_ (ih k4) ?_
      · unfold Scalar
        omega
      · unfold utf8Bytes
        rw [if_neg (by omega), if_neg (by omega), if_pos (by omega)]
        simp only [List.cons_append, List.nil_append, List.cons.injEq, and_true]
        omega
    | case7 a h1 b h2 c h3 =>
      rw [utf8.eq_def] at h
      dsimp only at h
      rw [if_neg h1, if_neg h2, if_neg h3] at h
      cases h
    | case8 a h1 b h2 c h3 d l h4 ih =>
      rw [utf8.eq_def] at h
      dsimp only at h
      rw [if_neg h1, if_neg h2, if_neg h3, if_pos h4] at h
      simp only [Bool.and_eq_true] at h
      obtain ⟨⟨⟨⟨k1, k2⟩, k3⟩, k4⟩, k5⟩ := h
      have k1 := of_decide_eq_true k1
      have k2 := of_decide_eq_true k2
      have k3 := of_decide_eq_true k3
      have k4 := of_decide_eq_true k4
      refine cons_text (c := (a - 240) * 262144 + (b - 128) * 4096 + (c - 128) * 64 + (d - 128)) ?_ (ih k5) ?_
      · unfold Scalar
        omega
      · unfold utf8Bytes
        rw [if_neg (by omega), if_neg (by omega), if_neg (by omega)]
        simp only [List.cons_append, List.nil_append, List.cons.injEq, and_true]
        omega
    | case9 a h1 b h2 c h3 d l h4 =>
      rw [utf8.eq_def] at h
      dsimp only at h
      rw [if_neg h1, if_neg h2, if_neg h3, if_neg h4] at h
      cases h
  · rintro ⟨cs, h1, rfl⟩
    induction cs with
    | nil => rfl
    | cons c cs ih =>
      rw [List.flatMap_cons, utf8_enc (h1 c (by simp))]
      exact ih (fun d hd => h1 d (by simp [hd]))

/-- "ł€" and a surrogate -/
example : utf8 [0xC5, 0x82, 0xE2, 0x82, 0xAC] = true ∧ [0x142, 0x20AC].flatMap utf8Bytes = [0xC5, 0x82, 0xE2, 0x82, 0xAC] ∧
    utf8 [0xED, 0xA0, 0x80] = false := by decide

/-- C63, lengths: of a sequence of bytes, exactly the canonical encodings are read. -/
theorem C63_compact {l r : Bytes} {n : Nat} (hl : ∀ b ∈ l, b < 256) :
    compact l = some (n, r) ↔ n < 2 ^ 32 ∧ l = compactBytes n ++ r := by
  constructor
  · intro h
    unfold compact at h
    split at h
    · cases h
    next a l =>
    have ha := hl a (by simp)
    split at h
    · simp only [Option.some.injEq, Prod.mk.injEq] at h
      obtain ⟨rfl, rfl⟩ := h
      refine ⟨by omega, ?_⟩
      unfold compactBytes
      rw [if_pos (by omega)]
      simp only [List.cons_append, List.nil_append, List.cons.injEq, and_true]
      omega
    · split at h
      · next b l =>
        have hb := hl b (by simp)
        dsimp only at h
        split at h
        · simp only [Option.some.injEq, Prod.mk.injEq] at h
          obtain ⟨rfl, rfl⟩ := h
          refine ⟨by omega, ?_⟩
          unfold compactBytes
          rw [if_neg (by omega), if_pos (by omega)]
          simp only [List.cons_append, List.nil_append, List.cons.injEq, and_true]
          omega
        · cases h
      · cases h
    · split at h
      · next b c d l =>
        have hb := hl b (by simp)
        have hc := hl c (by simp)
        have hd := hl d (by simp)
        dsimp only at h
        split at h
        · simp only [Option.some.injEq, Prod.mk.injEq] at h
          obtain ⟨rfl, rfl⟩ := h
          refine ⟨by omega, ?_⟩
          unfold compactBytes
          rw [if_neg (by omega), if_neg (by omega), if_pos (by omega)]
          simp only [List.cons_append, List.nil_append, List.cons.injEq, and_true]
          omega
        · cases h
      · cases h
    · split at h
      · next b c d e l =>
        have hb := hl b (by simp)
        have hc := hl c (by simp)
        have hd := hl d (by simp)
        have he := hl e (by simp)
        dsimp only at h
        split at h
        · next h3 =>
          simp only [Option.some.injEq, Prod.mk.injEq] at h
          obtain ⟨rfl, rfl⟩ := h
          refine ⟨by omega, ?_⟩
          unfold compactBytes
          rw [if_neg (by omega), if_neg (by omega), if_neg (by omega)]
          simp only [List.cons_append, List.nil_append, List.cons.injEq, and_true]
          omega
        · cases h
      · cases h
  · rintro ⟨hn, rfl⟩
    unfold compactBytes
    split
    · simp only [List.cons_append, List.nil_append]
      unfold compact
      dsimp only
      rw [show 4 * n % 4 = 0 by omega]
      simp only [Option.some.injEq, Prod.mk.injEq, and_true]
      omega
    · split
      · simp only [List.cons_append, List.nil_append]
        unfold compact
        dsimp only
        rw [show (4 * n + 1) % 256 % 4 = 1 by omega]
        rw [if_pos (by omega)]
        simp only [Option.some.injEq, Prod.mk.injEq, and_true]
        omega
      · split
        · simp only [List.cons_append, List.nil_append]
          unfold compact
          dsimp only
          rw [show (4 * n + 2) % 256 % 4 = 2 by omega]
          change (if 16384 ≤ ((4 * n + 2) % 256 + 256 * ((4 * n + 2) / 256 % 256) + 65536 * ((4 * n + 2) / 65536 % 256) +
            16777216 * ((4 * n + 2) / 16777216)) / 4 then some (((4 * n + 2) % 256 + 256 * ((4 * n + 2) / 256 % 256) +
            65536 * ((4 * n + 2) / 65536 % 256) + 16777216 * ((4 * n + 2) / 16777216)) / 4, r) else none) = _
          rw [if_pos (by omega)]
          simp only [Option.some.injEq, Prod.mk.injEq, and_true]
          omega
        · simp only [List.cons_append, List.nil_append]
          unfold compact
          dsimp only
          change (if 3 = 3 ∧ 1073741824 ≤ n % 256 + 256 * (n / 256 % 256) + 65536 * (n / 65536 % 256) +
            16777216 * (n / 16777216) then some (n % 256 + 256 * (n / 256 % 256) + 65536 * (n / 65536 % 256) +
            16777216 * (n / 16777216), r) else none) = _
          rw [if_pos (by omega)]
          simp only [Option.some.injEq, Prod.mk.injEq, and_true]
          omega

/-- two-byte form, and the same number in the four-byte form -/
example : compact (compactBytes 69 ++ [7]) = some (69, [7]) ∧ compact [22, 1, 0, 0] = none := by decide

/-- C63, texts: a text is read exactly from its length followed by its bytes; what follows is left. -/
theorem C63_string {l t r : Bytes} (hl : ∀ b ∈ l, b < 256) :
    string l = some (t, r) ↔ IsText t ∧ t.length < 2 ^ 32 ∧ l = textBytes t ++ r := by
  unfold string
  constructor
  · intro h
    split at h
    · cases h
    next n l' hc =>
    split at h
    · next h1 =>
      simp only [Option.some.injEq, Prod.mk.injEq] at h
      obtain ⟨rfl, rfl⟩ := h
      obtain ⟨k1, k2⟩ := (C63_compact hl).1 hc
      have hlen : (l'.take n).length = n := by rw [List.length_take]; omega
      refine ⟨(C63_utf8 _).1 h1.2, by rw [hlen]; exact k1, ?_⟩
      unfold textBytes
      rw [hlen, List.append_assoc, List.take_append_drop]
      exact k2
    · cases h
  · rintro ⟨h1, h2, h3⟩
    have : compact l = some (t.length, t ++ r) := (C63_compact hl).2 ⟨h2, by rw [h3, textBytes, List.append_assoc]⟩
    rw [this]
    dsimp only
    rw [List.take_left, List.drop_left, if_pos ⟨by simp, (C63_utf8 t).2 h1⟩]

example : string (textBytes [0xC5, 0x82] ++ [1]) = some ([0xC5, 0x82], [1]) := by decide

/-- C63, answers: an answer is the encoding of two texts and a truth value, with anything behind it. -/
theorem C63_response {l a b : Bytes} {c : Bool} (hl : ∀ x ∈ l, x < 256) :
    Scale.response l = some (a, b, c) ↔ IsText a ∧ IsText b ∧ a.length < 2 ^ 32 ∧ b.length < 2 ^ 32 ∧
      textBytes a ++ textBytes b ++ [c.toNat] <+: l := by
  unfold Scale.response
  constructor
  · intro h
    split at h
    · cases h
    next a' l1 h1 =>
    obtain ⟨k1, k2, rfl⟩ := (C63_string hl).1 h1
    have hl1 : ∀ x ∈ l1, x < 256 := fun x hx => hl x (by simp [hx])
    split at h
    · cases h
    next b' l2 h2 =>
    obtain ⟨k3, k4, rfl⟩ := (C63_string hl1).1 h2
    split at h
    · cases h
    next c' l3 h3 =>
    simp only [Option.some.injEq, Prod.mk.injEq] at h
    obtain ⟨rfl, rfl, rfl⟩ := h
    refine ⟨k1, k3, k2, k4, ⟨l3, ?_⟩⟩
    have : l2 = [c'.toNat] ++ l3 := by
      unfold Scale.bool at h3
      split at h3
      · cases h3; rfl
      · cases h3; rfl
      · cases h3
    rw [this]
    simp only [List.append_assoc]
  · rintro ⟨k1, k2, k3, k4, l3, rfl⟩
    have e1 : string (textBytes a ++ textBytes b ++ [c.toNat] ++ l3) =
        some (a, textBytes b ++ ([c.toNat] ++ l3)) :=
      (C63_string hl).2 ⟨k1, k3, by simp only [List.append_assoc]⟩
    have e2 : string (textBytes b ++ ([c.toNat] ++ l3)) = some (b, [c.toNat] ++ l3) :=
      (C63_string (fun x hx => hl x (by
        simp only [List.append_assoc, List.mem_append] at hx ⊢
        right; exact hx))).2 ⟨k2, k4, rfl⟩
    rw [e1]
    dsimp only
    rw [e2]
    cases c <;> rfl

/-- a positive answer of the token contract -/
example : Scale.response (textBytes vft ++ textBytes transferFrom ++ [1]) = some (vft, transferFrom, true) := by decide

/-- C63, errors: what is taken for an error message starts with a text that is not part of such an answer. -/
theorem C63_panic {l : Bytes} (hl : ∀ x ∈ l, x < 256) :
    Panic l ↔ (∃ t, IsText t ∧ t.length < 2 ^ 32 ∧ textBytes t <+: l) ∧
      ¬ ∃ a b c, IsText a ∧ IsText b ∧ a.length < 2 ^ 32 ∧ b.length < 2 ^ 32 ∧
        textBytes a ++ textBytes b ++ [Bool.toNat c] <+: l := by
  unfold Panic
  have h1 : (Scale.string l).isSome ↔ ∃ t, IsText t ∧ t.length < 2 ^ 32 ∧ textBytes t <+: l := by
    rw [Option.isSome_iff_exists]
    constructor
    · rintro ⟨⟨t, r⟩, h⟩
      obtain ⟨k1, k2, k3⟩ := (C63_string hl).1 h
      exact ⟨t, k1, k2, r, k3.symm⟩
    · rintro ⟨t, k1, k2, r, k3⟩
      exact ⟨(t, r), (C63_string hl).2 ⟨k1, k2, k3.symm⟩⟩
  have h2 : Scale.response l = none ↔ ¬ ∃ a b c, IsText a ∧ IsText b ∧ a.length < 2 ^ 32 ∧ b.length < 2 ^ 32 ∧
      textBytes a ++ textBytes b ++ [Bool.toNat c] <+: l := by
    rw [← Option.not_isSome_iff_eq_none, Option.isSome_iff_exists]
    refine not_congr ⟨?_, ?_⟩
    · rintro ⟨⟨a, b, c⟩, h⟩
      exact ⟨a, b, c, (C63_response hl).1 h⟩
    · rintro ⟨a, b, c, h⟩
      exact ⟨(a, b, c), (C63_response hl).2 h⟩
  rw [h1, h2]
  exact and_comm

/-- an error text alone, and a text that is not UTF-8 -/
example : Panic (textBytes [78, 111]) ∧ ¬ Panic [8, 0xFF, 0x41] := by
  constructor
  · exact ⟨by decide, by decide⟩
  · rintro ⟨_, h⟩
    revert h
    decide

end Verif
