import Verif.Model.SdkUtils
import Verif.Spec.Names
import Mathlib.Tactic.Linarith
import Mathlib.Tactic.Ring

/-! # C68, C69: names of tokens and fee tiers made by the SDK -/

namespace Verif
open Spec

private theorem hexDigit_lt {b d : Nat} (h : hexDigit b = some d) : d < 16 := by
  unfold hexDigit at h
  split at h
  · cases h; omega
  · split at h
    · cases h; omega
    · split at h
      · cases h; omega
      · cases h

private theorem readHex_cons {b : Nat} {l : Bytes} {n : Nat} (h : readHex (b :: l) = some n) :
    ∃ d k, hexDigit b = some d ∧ readHex l = some k ∧ n = d * 16 ^ l.length + k := by
  simp only [readHex] at h
  cases hd : hexDigit b with
  | none => rw [hd] at h; cases h
  | some d =>
    cases hk : readHex l with
    | none => rw [hd, hk] at h; cases h
    | some k =>
      rw [hd, hk] at h
      exact ⟨d, k, rfl, rfl, (Option.some.inj h).symm⟩

private theorem readHex_lt : ∀ {l : Bytes} {n : Nat}, readHex l = some n → n < 16 ^ l.length
  | [], n, h => by cases h; simp
  | b :: l, n, h => by
    obtain ⟨d, k, hd, hk, rfl⟩ := readHex_cons h
    have h1 := hexDigit_lt hd
    have h2 := readHex_lt hk
    rw [List.length_cons, pow_succ]
    have : (d + 1) * 16 ^ l.length ≤ 16 * 16 ^ l.length := Nat.mul_le_mul_right _ h1
    rw [Nat.add_mul, Nat.one_mul] at this
    omega

private theorem hexDigit_order {a b d e : Nat} (ha : hexDigit a = some d) (hb : hexDigit b = some e)
    (sa : ¬ (65 ≤ a ∧ a ≤ 90)) (sb : ¬ (65 ≤ b ∧ b ≤ 90)) : (a < b ↔ d < e) ∧ (a = b ↔ d = e) := by
  unfold hexDigit at ha hb
  split at ha
  all_goals (try (split at ha)) <;> (try (split at ha)) <;> (try cases ha)
  all_goals (split at hb)
  all_goals (try (split at hb)) <;> (try (split at hb)) <;> (try cases hb)
  all_goals omega

/-- the order of digit strings of one length is the order of the numbers -/
private theorem lt_iff : ∀ {l m : Bytes} {a b : Nat}, l.length = m.length → Small l → Small m →
    readHex l = some a → readHex m = some b → ((Sdk.bytesLt l m = true ↔ a < b) ∧ (l = m ↔ a = b))
  | [], [], a, b, _, _, _, ha, hb => by cases ha; cases hb; simp [Sdk.bytesLt]
  | [], _ :: _, _, _, h, _, _, _, _ => by simp at h
  | _ :: _, [], _, _, h, _, _, _, _ => by simp at h
  | x :: l, y :: m, a, b, h, hl, hm, ha, hb => by
    obtain ⟨d, k, hd, hk, rfl⟩ := readHex_cons ha
    obtain ⟨e, j, he, hj, rfl⟩ := readHex_cons hb
    have hlen : l.length = m.length := by simpa using h
    obtain ⟨o1, o2⟩ := hexDigit_order hd he (hl x (by simp)) (hm y (by simp))
    obtain ⟨i1, i2⟩ := lt_iff hlen (fun z hz => hl z (by simp [hz])) (fun z hz => hm z (by simp [hz])) hk hj
    have kl := readHex_lt hk
    have jl := readHex_lt hj
    rw [hlen] at kl ⊢
    simp only [Sdk.bytesLt, Bool.or_eq_true, Bool.and_eq_true, decide_eq_true_eq, List.cons.injEq]
    rw [o1, o2, i1, i2]
    rcases Nat.lt_trichotomy d e with hde | hde | hde
    · have : (d + 1) * 16 ^ m.length ≤ e * 16 ^ m.length := Nat.mul_le_mul_right _ hde
      rw [Nat.add_mul, Nat.one_mul] at this
      constructor <;> constructor <;> intro _ <;> omega
    · subst hde
      constructor <;> constructor <;> intro _ <;> omega
    · have : (e + 1) * 16 ^ m.length ≤ d * 16 ^ m.length := Nat.mul_le_mul_right _ hde
      rw [Nat.add_mul, Nat.one_mul] at this
      constructor <;> constructor <;> intro _ <;> omega

private theorem readAddress_some {t : Bytes} {a : Nat} (h : readAddress t = some a) :
    ∃ l, t = 48 :: 120 :: l ∧ l.length = 64 ∧ readHex l = some a := by
  unfold readAddress at h
  split at h
  · next l =>
    split at h
    · next hl => exact ⟨l, rfl, hl, h⟩
    · cases h
  · cases h

/-- C68. The full statement has no condition on capital letters: for all texts `t`, `u` of addresses `a`, `b`,
`isTokenX t u = true ↔ a < b`. That is false (`C68_negation`). Proved for texts in small letters, as the
SDK itself and the node produce them: the SDK's order of the texts is the contract's order of the addresses,
and equal addresses have equal texts. -/
theorem C68_order_partial (t u : Bytes) (a b : Nat) (ht : readAddress t = some a)
    (hu : readAddress u = some b) (st : Small t) (su : Small u) :
    (Sdk.isTokenX t u = true ↔ a < b) ∧ (t = u ↔ a = b) ∧ a < 2 ^ 256 := by
  obtain ⟨l, rfl, hl, ha⟩ := readAddress_some ht
  obtain ⟨m, rfl, hm, hb⟩ := readAddress_some hu
  have h := lt_iff (hl.trans hm.symm) (fun z hz => st z (by simp [hz])) (fun z hz => su z (by simp [hz])) ha hb
  have hlt := readHex_lt ha
  rw [hl] at hlt
  refine ⟨?_, by simpa using h.2, hlt⟩
  rw [← h.1]
  simp [Sdk.isTokenX, Sdk.bytesLt]

/-- C68: the SDK's pool key names the two tokens of the contract's pool key in the same order, and the SDK
refuses a pair exactly when the contract does. (The full statement is without `Small`; see above.) -/
theorem C68_key_partial (t u : Bytes) (a b : Nat) (tier : FeeTier) (ht : readAddress t = some a)
    (hu : readAddress u = some b) (st : Small t) (su : Small u) :
    (∀ k, PoolKey.new a b tier = .ok k ↔ k.feeTier = tier ∧ ∃ x y, Sdk.newPoolKey t u = .ok (x, y) ∧
      readAddress x = some k.tokenX ∧ readAddress y = some k.tokenY) ∧
    (PoolKey.new a b tier = .error (.inv .TokensAreSame) ↔
      Sdk.newPoolKey t u = .error (.inv .TokensAreSame)) := by
  obtain ⟨h1, h2, _⟩ := C68_order_partial t u a b ht hu st su
  unfold PoolKey.new Sdk.newPoolKey
  by_cases e : a = b
  · rw [if_pos e, if_pos (h2.2 e)]
    refine ⟨fun k => ⟨fun h => (by cases h), ?_⟩, by simp⟩
    rintro ⟨_, x, y, h, _⟩
    cases h
  · rw [if_neg e, if_neg (fun h => e (h2.1 h))]
    by_cases hlt : a < b
    · rw [if_pos hlt, if_pos (h1.2 hlt)]
      refine ⟨fun k => ⟨?_, ?_⟩, by simp⟩
      · intro h
        cases h
        exact ⟨rfl, t, u, rfl, ht, hu⟩
      · rintro ⟨rfl, x, y, h, hx, hy⟩
        cases h
        rw [ht] at hx
        rw [hu] at hy
        cases hx
        cases hy
        rfl
    · rw [if_neg hlt, if_neg (fun h => hlt (h1.1 h))]
      refine ⟨fun k => ⟨?_, ?_⟩, by simp⟩
      · intro h
        cases h
        exact ⟨rfl, u, t, rfl, hu, ht⟩
      · rintro ⟨rfl, x, y, h, hx, hy⟩
        cases h
        rw [hu] at hx
        rw [ht] at hy
        cases hx
        cases hy
        rfl

private theorem bytesLt_total : ∀ (t u : Bytes), t ≠ u → Sdk.bytesLt t u = !Sdk.bytesLt u t
  | [], [], h => absurd rfl h
  | [], _ :: _, _ => by simp [Sdk.bytesLt]
  | _ :: _, [], _ => by simp [Sdk.bytesLt]
  | a :: l, b :: m, h => by
    by_cases e : a = b
    · subst e
      have := bytesLt_total l m (fun e => h (by rw [e]))
      simp [Sdk.bytesLt, this]
    · have e' : ¬ b = a := fun x => e x.symm
      have : decide (a < b) = !decide (b < a) := by rw [← decide_not]; exact decide_eq_decide.2 (by omega)
      simp only [Sdk.bytesLt, e, e', decide_false, Bool.false_and, Bool.or_false]
      exact this

/-- C68, for all texts, addresses or not, of any lengths: the SDK's pool key does not depend on the order in which the
tokens are given, and exactly one of two different texts is token X. -/
theorem C68_symmetric (t u : Bytes) :
    Sdk.newPoolKey t u = Sdk.newPoolKey u t ∧ (t ≠ u → Sdk.isTokenX t u = !Sdk.isTokenX u t) := by
  refine ⟨?_, bytesLt_total t u⟩
  unfold Sdk.newPoolKey
  by_cases e : t = u
  · rw [if_pos e, if_pos e.symm]
  · rw [if_neg e, if_neg (Ne.symm e)]
    unfold Sdk.isTokenX
    rw [bytesLt_total t u e]
    cases Sdk.bytesLt u t <;> rfl

example : (Sdk.newPoolKey [48, 120] [48]).toOption = some ([48], [48, 120]) ∧
    (Sdk.newPoolKey [48] [48, 120]).toOption = some ([48], [48, 120]) := by decide

/-- `0x`, 63 zeros and one more digit -/
private def short (b : Nat) : Bytes := 48 :: 120 :: (List.replicate 63 48 ++ [b])

/-- C68 fails with capital letters: of the addresses 11, written with a capital `B`, and 10, written with a
small `a`, the SDK takes the larger for the first token; and it makes a pool key of the address 10 with
itself, once written with `A` and once with `a`, which the contract refuses. -/
theorem C68_negation :
    ¬ (∀ (t u : Bytes) (a b : Nat), readAddress t = some a → readAddress u = some b →
      (Sdk.isTokenX t u = true ↔ a < b)) ∧
    ¬ (∀ (t u : Bytes) (a b : Nat) (tier : FeeTier), readAddress t = some a → readAddress u = some b →
      PoolKey.new a b tier = .error (.inv .TokensAreSame) →
        Sdk.newPoolKey t u = .error (.inv .TokensAreSame)) := by
  constructor <;> intro h
  · exact absurd (h (short 66) (short 97) 11 10 (by decide +kernel) (by decide +kernel)) (by decide +kernel)
  · have := h (short 65) (short 97) 10 10 ⟨0, 1⟩ (by decide +kernel) (by decide +kernel) (by decide +kernel)
    revert this
    decide +kernel

/-- the addresses 9 and 10 in small letters -/
example : readAddress (short 57) = some 9 ∧ readAddress (short 97) = some 10 ∧
    Sdk.isTokenX (short 57) (short 97) = true ∧
    (Sdk.newPoolKey (short 97) (short 57)).toOption = some (short 57, short 97) ∧
    (PoolKey.new 10 9 ⟨0, 1⟩).toOption = some ⟨9, 10, ⟨0, 1⟩⟩ := by
  decide +kernel

/-! ## Fee tiers -/

private theorem feeTierNew {fee spacing : Nat} {t : FeeTier} :
    FeeTier.new fee spacing = .ok t ↔ (1 ≤ spacing ∧ spacing ≤ 100) ∧ fee ≤ pctOne ∧ t = ⟨fee, spacing⟩ := by
  simp only [FeeTier.new, bind_ok_iff, failIf_ok_iff, pure_ok_iff]
  constructor
  · rintro ⟨_, h1, _, h2, rfl⟩
    exact ⟨by omega, by omega, rfl⟩
  · rintro ⟨h1, h2, rfl⟩
    exact ⟨(), by omega, (), by omega, rfl⟩

/-- C69. The full statement is the one below without `hs`, for all 64-bit spacings; it is false
(`C69_negation`). Proved for spacings of 16 bits: the SDK makes a fee tier exactly of a spacing from 1 to 100
and a fee of at most 100%, with that fee and that spacing. -/
theorem C69_new_partial (fee spacing : Nat) (hs : spacing < 2 ^ 16) (t : FeeTier) :
    Sdk.newFeeTier fee spacing = .ok t ↔
      (1 ≤ spacing ∧ spacing ≤ 100) ∧ fee ≤ 10 ^ 12 ∧ t = ⟨fee, spacing⟩ := by
  unfold Sdk.newFeeTier
  rw [Nat.mod_eq_of_lt hs, feeTierNew]
  rfl

/-- C69, the reasons of a refusal, in this order: the spacing is not one of 1 to 100, or the fee is above 100%. (Full
statement: without `hs`; see `C69_negation`.) -/
theorem C69_reason_partial (fee spacing : Nat) (hs : spacing < 2 ^ 16) :
    (Sdk.newFeeTier fee spacing = .error (.inv .InvalidTickSpacing) ↔ ¬ (1 ≤ spacing ∧ spacing ≤ 100)) ∧
    (Sdk.newFeeTier fee spacing = .error (.inv .InvalidFee) ↔ (1 ≤ spacing ∧ spacing ≤ 100) ∧ 10 ^ 12 < fee) := by
  unfold Sdk.newFeeTier FeeTier.new
  rw [Nat.mod_eq_of_lt hs]
  have hp : pctOne = 10 ^ 12 := rfl
  by_cases h1 : spacing = 0 ∨ spacing > 100
  · have : ¬ (1 ≤ spacing ∧ spacing ≤ 100) := by omega
    simp [failIf, h1, this, bind, Except.bind]
  · have : 1 ≤ spacing ∧ spacing ≤ 100 := by omega
    by_cases h2 : fee > pctOne
    · have h3 : 10 ^ 12 < fee := h2
      simp [failIf, h1, h2, this, bind, Except.bind]
      omega
    · have h3 : ¬ 10 ^ 12 < fee := h2
      simp [failIf, h1, h2, this, bind, Except.bind, pure, Except.pure]
      omega

/-- a spacing of 101 with a fee of 200%, the same fee with a spacing of 100, and a fee of 100% -/
example : Sdk.newFeeTier (2 * 10 ^ 12) 101 = .error (.inv .InvalidTickSpacing) ∧
    Sdk.newFeeTier (2 * 10 ^ 12) 100 = .error (.inv .InvalidFee) ∧
    Sdk.newFeeTier (10 ^ 12) 100 = .ok ⟨10 ^ 12, 100⟩ := by decide +kernel

/-- C69 fails for larger spacings: 65537 is cut to 16 bits and accepted as 1. -/
theorem C69_negation :
    ¬ (∀ (fee spacing : Nat) (t : FeeTier), spacing < 2 ^ 64 → Sdk.newFeeTier fee spacing = .ok t →
      spacing ≤ 100 ∧ t.tickSpacing = spacing) := by
  intro h
  have := h 100000000 65537 ⟨100000000, 1⟩ (by norm_num)
    (by rw [Sdk.newFeeTier, feeTierNew]; decide)
  revert this
  decide

/-- C69: whatever spacing is given, what the SDK returns is a fee tier the administrator can add to the
contract while it is not listed, unless the fee is exactly 100%; that tier the contract refuses. -/
theorem C69_accepted (fee spacing : Nat) (t : FeeTier) (h : Sdk.newFeeTier fee spacing = .ok t) (env : Env)
    (s : Inv) (ha : env.caller = s.admin) (hn : t ∉ s.feeTiers) :
    (t.fee ≠ 10 ^ 12 → Service.addFeeTier env s t = .ok ({ s with feeTiers := s.feeTiers ++ [t] }, t)) ∧
    (t.fee = 10 ^ 12 → Service.addFeeTier env s t = .error (.inv .InvalidFee)) := by
  unfold Sdk.newFeeTier at h
  rw [feeTierNew] at h
  obtain ⟨h1, h2, rfl⟩ := h
  have h1' : ¬ (spacing % 65536 = 0 ∨ 100 < spacing % 65536) := by omega
  have hp : pctOne = 10 ^ 12 := rfl
  rw [hp] at h2
  constructor <;> intro hf <;> simp only at hf
  · have h3 : ¬ (10 ^ 12 ≤ fee) := by omega
    have : Service.addFeeTier env s ⟨fee, spacing % 2 ^ 16⟩ =
        .ok ({ s with feeTiers := s.feeTiers ++ [⟨fee, spacing % 2 ^ 16⟩] }, ⟨fee, spacing % 2 ^ 16⟩) ↔ True := by
      simp only [Service.addFeeTier, bind_ok_iff, failIf_ok_iff, pure_ok_iff, iff_true, feeTiersAdd]
      exact ⟨(), by omega, (), by rw [hp]; omega, (), by simp [ha], _, if_neg hn, rfl⟩
    exact this.2 trivial
  · subst hf
    simp only [Service.addFeeTier, failIf, hp]
    simp [h1', bind, Except.bind]

/-- C69: the tier with the linear ratio exists exactly for 1 to 100 ticks and has 0.01% of fee per tick. -/
theorem C69_linear (n : Nat) (t : FeeTier) :
    Sdk.calculateFeeTierWithLinearRatio n = .ok t ↔ (1 ≤ n ∧ n ≤ 100) ∧ t = ⟨n * 10 ^ 8, n⟩ := by
  unfold Sdk.calculateFeeTierWithLinearRatio Sdk.newFeeTier
  rw [feeTierNew]
  have hp : pctOne = 10 ^ 12 := rfl
  rw [hp]
  constructor
  · rintro ⟨h1, h2, rfl⟩
    have : n < 2 ^ 16 := by omega
    rw [Nat.mod_eq_of_lt this] at h1 ⊢
    exact ⟨h1, rfl⟩
  · rintro ⟨h1, rfl⟩
    have : n < 2 ^ 16 := by omega
    rw [Nat.mod_eq_of_lt this]
    exact ⟨h1, by omega, rfl⟩

/-- spacings 10 and 101; the tier with the linear ratio for 10 ticks -/
example : (Sdk.newFeeTier 1000000000 10).toOption = some ⟨1000000000, 10⟩ ∧
    (Sdk.newFeeTier 1000000000 101).toOption = none ∧
    (Sdk.calculateFeeTierWithLinearRatio 10).toOption = some ⟨1000000000, 10⟩ ∧
    (Sdk.newFeeTier 1000000000 65546).toOption = some ⟨1000000000, 10⟩ := by
  decide +kernel

end Verif
