import Verif.Spec.World

/-! # Reading replies -/

namespace Verif
open Spec Async

theorem compact_small {l : Bytes} {n : Nat} {r : Bytes} (hn : n < 64) :
    Scale.compact l = some (n, r) ↔ l = 4 * n :: r := by
  constructor
  · intro h
    cases l with
    | nil => cases h
    | cons a l =>
      simp only [Scale.compact] at h
      split at h
      · next h0 =>
        simp only [Option.some.injEq, Prod.mk.injEq] at h
        obtain ⟨rfl, rfl⟩ := h
        congr 1
        omega
      · split at h
        · split at h
          · simp only [Option.some.injEq, Prod.mk.injEq] at h; omega
          · cases h
        · cases h
      · split at h
        · split at h
          · simp only [Option.some.injEq, Prod.mk.injEq] at h; omega
          · cases h
        · cases h
      · split at h
        · split at h
          · simp only [Option.some.injEq, Prod.mk.injEq] at h; omega
          · cases h
        · cases h
  · rintro rfl
    have h0 : 4 * n % 4 = 0 := by omega
    simp only [Scale.compact, h0]
    congr 2
    omega

theorem string_small {l s r : Bytes} (hs : s.length < 64) (hu : Scale.utf8 s = true) :
    Scale.string l = some (s, r) ↔ l = 4 * s.length :: (s ++ r) := by
  unfold Scale.string
  constructor
  · intro h
    split at h
    · cases h
    · next n l' hc =>
      split at h
      · next hn =>
        simp only [Option.some.injEq, Prod.mk.injEq] at h
        obtain ⟨rfl, rfl⟩ := h
        have hl : (l'.take n).length = n := by rw [List.length_take]; omega
        rw [hl] at hs
        rw [hl, List.take_append_drop]
        exact (compact_small hs).1 hc
      · cases h
  · rintro rfl
    rw [(compact_small hs).2 rfl]
    simp [hu]

theorem response_iff {p : Bytes} {b : Bool} :
    Scale.response p = some (Scale.vft, Scale.transferFrom, b) ↔
      Spec.response b.toNat <+: p := by
  have h1 : (Scale.vft).length < 64 := by decide
  have h2 : Scale.utf8 (Scale.vft) = true := by decide
  have h3 : (Scale.transferFrom).length < 64 := by decide
  have h4 : Scale.utf8 (Scale.transferFrom) = true := by decide
  have e1 : Scale.vft = [86, 102, 116] := rfl
  have e2 : Scale.transferFrom = [84, 114, 97, 110, 115, 102, 101, 114, 70, 114, 111, 109] := rfl
  unfold Scale.response
  constructor
  · intro h
    split at h
    · cases h
    · next a l1 ha =>
      split at h
      · cases h
      · next c l2 hc =>
        split at h
        · cases h
        · next d l3 hd =>
          simp only [Option.some.injEq, Prod.mk.injEq] at h
          obtain ⟨rfl, rfl, rfl⟩ := h
          rw [string_small h1 h2] at ha
          rw [string_small h3 h4] at hc
          subst ha hc
          rw [e1, e2]
          have : l2 = d.toNat :: l3 := by
            unfold Scale.bool at hd
            split at hd
            · simp only [Option.some.injEq, Prod.mk.injEq] at hd; obtain ⟨rfl, rfl⟩ := hd; rfl
            · simp only [Option.some.injEq, Prod.mk.injEq] at hd; obtain ⟨rfl, rfl⟩ := hd; rfl
            · cases hd
          subst this
          exact ⟨l3, by simp [Spec.response]⟩
  · rintro ⟨r, rfl⟩
    have ha : Scale.string (Spec.response b.toNat ++ r) = some (Scale.vft,
        4 * (Scale.transferFrom).length :: (Scale.transferFrom ++ b.toNat :: r)) := by
      rw [string_small h1 h2, e1, e2]
      simp [Spec.response]
    rw [ha]
    simp only [(string_small h3 h4).2 rfl]
    cases b <;> simp [Scale.bool]

theorem not_pos_neg {p : Bytes} (h : Positive p) : ¬ Negative p := by
  intro h2
  have a := response_iff (p := p) (b := true) |>.2 h
  have b := response_iff (p := p) (b := false) |>.2 h2
  rw [a] at b
  simp at b

theorem not_pos_panic {p : Bytes} (h : Positive p) : ¬ Panic p := by
  intro h2
  have a := response_iff (p := p) (b := true) |>.2 h
  rw [h2.1] at a
  cases a

theorem not_neg_panic {p : Bytes} (h : Negative p) : ¬ Panic p := by
  intro h2
  have a := response_iff (p := p) (b := false) |>.2 h
  rw [h2.1] at a
  cases a

/-- the reply handler in terms of the meaning of the answer -/
theorem replyHandler_eq (s : Inv) (t : ActorId) (id : Nat) (p : Bytes) :
    (Positive p ∧ replyHandler s t id p = handleValidReply s t id true) ∨
    (Negative p ∧ replyHandler s t id p = handleValidReply s t id false) ∨
    (Panic p ∧ replyHandler s t id p = handlePanic s t id) ∨
    (¬ Readable p ∧ replyHandler s t id p = s) := by
  unfold replyHandler
  cases hr : Scale.response p with
  | none =>
    simp only
    cases hs : Scale.string p with
    | none =>
      refine .inr (.inr (.inr ⟨?_, rfl⟩))
      rintro (h | h | h)
      · have := response_iff (b := true) |>.2 h; rw [hr] at this; cases this
      · have := response_iff (b := false) |>.2 h; rw [hr] at this; cases this
      · have := h.2; rw [hs] at this; cases this
    | some q => exact .inr (.inr (.inl ⟨⟨hr, by rw [hs]; rfl⟩, rfl⟩))
  | some q =>
    obtain ⟨a, c, b⟩ := q
    simp only
    by_cases hc : a = Scale.vft ∧ c = Scale.transferFrom
    · rw [if_pos hc]
      rw [hc.1, hc.2] at hr
      have := response_iff.1 hr
      cases b
      · exact .inr (.inl ⟨this, rfl⟩)
      · exact .inl ⟨this, rfl⟩
    · rw [if_neg hc]
      refine .inr (.inr (.inr ⟨?_, rfl⟩))
      rintro (h | h | h)
      · have := response_iff (b := true) |>.2 h
        rw [hr] at this
        simp only [Option.some.injEq, Prod.mk.injEq] at this
        exact hc ⟨this.1, this.2.1⟩
      · have := response_iff (b := false) |>.2 h
        rw [hr] at this
        simp only [Option.some.injEq, Prod.mk.injEq] at this
        exact hc ⟨this.1, this.2.1⟩
      · rw [h.1] at hr; cases hr

/-- what a delivered answer does to a pending transfer -/
theorem replyHandler_some {s : Inv} {t : ActorId} {id : Nat} {p : Bytes} {a : AwaitingTransfer}
    (ha : s.awaiting.get (id, t) = some a) :
    (Readable p ∧ Credits a.transferType p ∧ replyHandler s t id p =
      { creditOrLog s t a.account a.amount with awaiting := s.awaiting.erase (id, t) }) ∨
    (Readable p ∧ ¬ Credits a.transferType p ∧
      replyHandler s t id p = { s with awaiting := s.awaiting.erase (id, t) }) ∨
    (¬ Readable p ∧ replyHandler s t id p = s) := by
  obtain ⟨acc, amt, kind⟩ := a
  have hcl : ∀ n, (creditOrLog s t acc n).awaiting = s.awaiting := by
    intro n; unfold creditOrLog; split <;> rfl
  rcases replyHandler_eq s t id p with ⟨h, e⟩ | ⟨h, e⟩ | ⟨h, e⟩ | ⟨h, e⟩
  · rw [e]
    unfold handleValidReply
    rw [ha]
    cases kind
    · exact .inl ⟨.inl h, h, by simp only [hcl]⟩
    · exact .inr (.inl ⟨.inl h, fun c => c.elim (not_pos_neg h) (not_pos_panic h), rfl⟩)
  · rw [e]
    unfold handleValidReply
    rw [ha]
    cases kind
    · exact .inr (.inl ⟨.inr (.inl h), fun c => not_pos_neg c h, rfl⟩)
    · exact .inl ⟨.inr (.inl h), .inl h, by simp only [hcl]⟩
  · rw [e]
    unfold handlePanic
    rw [ha]
    cases kind
    · exact .inr (.inl ⟨.inr (.inr h), fun c => not_pos_panic c h, rfl⟩)
    · exact .inl ⟨.inr (.inr h), .inr h, by simp only [hcl]⟩
  · exact .inr (.inr ⟨h, e⟩)

theorem replyHandler_none {s : Inv} {t : ActorId} {id : Nat} {p : Bytes}
    (ha : s.awaiting.get (id, t) = none) : replyHandler s t id p = s := by
  rcases replyHandler_eq s t id p with ⟨h, e⟩ | ⟨h, e⟩ | ⟨h, e⟩ | ⟨h, e⟩
  · rw [e]; unfold handleValidReply; rw [ha]
  · rw [e]; unfold handleValidReply; rw [ha]
  · rw [e]; unfold handlePanic; rw [ha]
  · exact e

/-! ## After the `await` -/

theorem handleTransferResult_fst (s : Inv) (m : Option Bool) (l : Leg) :
    (handleTransferResult s m l).1 = { s with awaiting := s.awaiting.erase (l.id, l.token) } := by
  unfold handleTransferResult
  split
  · rfl
  · next h => rw [Map.erase_eq_self h]

theorem handleTransferResult_snd (s : Inv) (m : Option Bool) (l : Leg) :
    (handleTransferResult s m l).2 = .error .ReplyHandlingFailed ↔
      (s.awaiting.get (l.id, l.token)).isSome := by
  unfold handleTransferResult
  cases h : s.awaiting.get (l.id, l.token) with
  | some a => simp
  | none =>
    simp only [Option.isSome_none, Bool.false_eq_true, iff_false]
    split
    · simp
    · cases l.kind <;> simp

/-- the second part of a command drops its own transfers from the table and does nothing else -/
theorem resume_one (s : Inv) (l : Leg) (m : Option Bool) :
    resume s [l] [m] = { s with awaiting := s.awaiting.erase (l.id, l.token) } := by
  simp only [resume, resumeSingle, settle]
  have h1 := handleTransferResult_fst s m l
  have h2 := handleTransferResult_snd s m l
  cases hr : (handleTransferResult s m l).2 with
  | ok u => exact h1
  | error e =>
    by_cases he : e = .ReplyHandlingFailed
    · subst he; exact h1
    · have : s.awaiting.get (l.id, l.token) = none := by
        rw [hr] at h2
        rw [← Option.not_isSome_iff_eq_none]
        intro h
        have := h2.2 h
        simp only [Except.error.injEq] at this
        exact he this
      rw [Map.erase_eq_self this]
      cases e <;> first | rfl | exact absurd rfl he

theorem resume_two (s : Inv) (x y : Leg) (mx my : Option Bool) :
    resume s [x, y] [mx, my] =
      { s with awaiting := (s.awaiting.erase (x.id, x.token)).erase (y.id, y.token) } := by
  simp only [resume, resumePair, settle]
  have h1 := handleTransferResult_fst s mx x
  have h2 := handleTransferResult_snd s mx x
  have h3 := handleTransferResult_fst (handleTransferResult s mx x).1 my y
  have h4 := handleTransferResult_snd (handleTransferResult s mx x).1 my y
  rw [h1] at h3 h4 ⊢
  by_cases hc : (handleTransferResult s mx x).2 = .error .ReplyHandlingFailed ∨
      (handleTransferResult { s with awaiting := s.awaiting.erase (x.id, x.token) } my y).2 =
        .error .ReplyHandlingFailed
  · rw [if_pos hc]; exact h3
  · rw [if_neg hc]
    rw [not_or, h2, h4] at hc
    have e1 : s.awaiting.get (x.id, x.token) = none := Option.not_isSome_iff_eq_none.1 hc.1
    have e2 := Option.not_isSome_iff_eq_none.1 hc.2
    simp only at e2
    have e3 : s = { s with awaiting := (s.awaiting.erase (x.id, x.token)).erase (y.id, y.token) } := by
      rw [Map.erase_eq_self e2, Map.erase_eq_self e1]
    split
    · exact e3
    · exact h3

end Verif
