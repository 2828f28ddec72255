import Verif.Proofs.WorldInv
import Verif.Spec.Told

/-! # Waiting commands: every transfer is pending or answered legibly -/

namespace Verif
open Service Spec Async

/-- the shape of the list of transfers a command waits for -/
def Waits (k : Nat) (legs : List Leg) : Prop :=
  (∃ l, legs = [l] ∧ l.id = k) ∨ ∃ x y, legs = [x, y] ∧ x.id = k ∧ y.id = k + 1 ∧ x.kind = y.kind

structure TInv (w : World) : Prop where
  even : w.next % 2 = 0
  tasks : ∀ k legs, w.tasks.get k = some legs → k % 2 = 0 ∧ Waits k legs
  read : ∀ k legs, w.tasks.get k = some legs → ∀ l ∈ legs,
    w.inv.awaiting.get (l.id, l.token) = none → ∃ p, w.msgs.get l.id = some ⟨l, some p⟩ ∧ Readable p

theorem Waits.ids {k : Nat} {legs : List Leg} (h : Waits k legs) {l : Leg} (hl : l ∈ legs) :
    l.id = k ∨ l.id = k + 1 := by
  rcases h with ⟨x, rfl, e⟩ | ⟨x, y, rfl, e, e', -⟩
  · simp only [List.mem_singleton] at hl
    subst hl
    exact .inl e
  · simp only [List.mem_cons, List.not_mem_nil, or_false] at hl
    rcases hl with rfl | rfl
    · exact .inl e
    · exact .inr e'

theorem TInv.init (program admin : ActorId) (fee : Nat) (held : ActorId → Nat) :
    TInv (World.init program admin fee held) := by
  refine ⟨rfl, ?_, ?_⟩
  · intro k l h; simp [World.init] at h
  · intro k l h; simp [World.init] at h

theorem TInv.step {w : World} (hw : WInv w) (ht : TInv w) (e : Event) : TInv (w.step e) := by
  -- an answer stays
  have mono : ∀ (l : Leg) p, w.msgs.get l.id = some ⟨l, some p⟩ → (w.step e).msgs.get l.id = some ⟨l, some p⟩ := by
    intro l p h
    obtain ⟨ans, h, h'⟩ := step_msgs hw e h
    rw [h, h' p rfl]
  have old : ∀ {k legs}, w.tasks.get k = some legs → ∀ l ∈ legs,
      w.inv.awaiting.get (l.id, l.token) = none →
      ∃ p, (w.step e).msgs.get l.id = some ⟨l, some p⟩ ∧ Readable p := by
    intro k legs hk l hl hn
    obtain ⟨p, h1, h2⟩ := ht.read k legs hk l hl hn
    exact ⟨p, mono l p h1, h2⟩
  cases e with
  | call env c =>
    refine ⟨ht.even, ht.tasks, ?_⟩
    intro k legs hk l hl hn
    simp only [World.step] at hn
    rw [(run_frame env w.inv c hw.reach).2] at hn
    exact old hk l hl hn
  | drift t h => exact ⟨ht.even, ht.tasks, fun k legs hk l hl hn => old hk l hl hn⟩
  | start env gas b1 b2 c =>
    simp only [World.step] at old ⊢
    cases hs : start env ⟨w.program, gas, w.next, b1, b2⟩ w.inv c with
    | error e => exact ht
    | ok r =>
      rw [hs] at old
      obtain ⟨s', legs⟩ := r
      have h := start_ok hs
      have hd := h.sent.distinct
      have hr := h.sent.range
      have hev := ht.even
      simp only at h hd hr old ⊢
      have hwait : legs ≠ [] → Waits w.next legs := by
        intro hne
        rcases h.sent.shape with rfl | ⟨l, rfl, hi⟩ | ⟨x, y, rfl, hx, hy⟩
        · exact absurd rfl hne
        · exact .inl ⟨l, rfl, hi⟩
        · refine .inr ⟨x, y, rfl, hx, hy, ?_⟩
          rw [(h.sent.each x (by simp)).1, (h.sent.each y (by simp)).1]
      refine ⟨by simp only; omega, ?_, ?_⟩
      · intro k ls hk
        simp only at hk
        split at hk
        · exact ht.tasks k ls hk
        · next hne =>
          rw [Map.get_insert] at hk
          split at hk
          · next e => cases hk; subst e; exact ⟨hev, hwait hne⟩
          · exact ht.tasks k ls hk
      · intro k ls hk l hl hn
        simp only at hk hn ⊢
        rw [h.eq] at hn
        simp only at hn
        have new : ∀ l ∈ legs, (addAwait w.inv.awaiting legs).get (l.id, l.token) ≠ none := by
          intro l hl h0
          rw [addAwait_mem hd hl] at h0
          cases h0
        have was : w.tasks.get k = some ls → ∃ p, (addMsgs w.msgs legs).get l.id = some ⟨l, some p⟩ ∧ Readable p := by
          intro hk
          refine old hk l hl ?_
          rw [addAwait_not] at hn
          · exact hn
          · intro x hx e
            obtain ⟨a, h1⟩ := hw.tasks k ls hk l hl
            have h2 := (hw.ids _ _ h1).1
            have h3 := (hr x hx).1
            simp only [Prod.mk.injEq] at e
            omega
        split at hk
        · exact was hk
        · rw [Map.get_insert] at hk
          split at hk
          · cases hk; exact absurd hn (new l hl)
          · exact was hk
  | answer id' p h =>
    have hinv : (w.step (.answer id' p h)).inv = w.inv ∧ (w.step (.answer id' p h)).tasks = w.tasks ∧
        (w.step (.answer id' p h)).next = w.next := by
      simp only [World.step]; split <;> exact ⟨rfl, rfl, rfl⟩
    refine ⟨by rw [hinv.2.2]; exact ht.even, by rw [hinv.2.1]; exact ht.tasks, ?_⟩
    intro k legs hk l hl hn
    rw [hinv.1] at hn
    rw [hinv.2.1] at hk
    exact old hk l hl hn
  | deliver id' runs =>
    have hinv : (w.step (.deliver id' runs)).tasks = w.tasks ∧ (w.step (.deliver id' runs)).next = w.next ∧
        (w.step (.deliver id' runs)).msgs = w.msgs := by
      simp only [World.step]
      split
      · split <;> exact ⟨rfl, rfl, rfl⟩
      · exact ⟨rfl, rfl, rfl⟩
    refine ⟨by rw [hinv.2.1]; exact ht.even, by rw [hinv.1]; exact ht.tasks, ?_⟩
    intro k legs hk l hl hn
    rw [hinv.1] at hk
    cases ha : w.inv.awaiting.get (l.id, l.token) with
    | none => exact old hk l hl ha
    | some a =>
      rw [hinv.2.2]
      obtain ⟨ans, hm⟩ := hw.tasks k legs hk l hl
      simp only [World.step] at hn
      split at hn
      · next l' p hl' =>
        split at hn
        · by_cases hid : (l.id, l.token) = (id', l'.token)
          · simp only [Prod.mk.injEq] at hid
            rw [← hid.1, hm] at hl'
            simp only [Option.some.injEq, Msg.mk.injEq] at hl'
            obtain ⟨rfl, rfl⟩ := hl'
            refine ⟨p, hm, ?_⟩
            rw [← hid.1] at hn
            simp only at hn
            rcases replyHandler_some (p := p) ha with ⟨hr, -, -⟩ | ⟨hr, -, -⟩ | ⟨-, e⟩
            · exact hr
            · exact hr
            · rw [e, ha] at hn; cases hn
          · obtain ⟨b, aw, who, he, -, haw⟩ := replyHandler_frame w.inv l'.token id' p
            simp only [he] at hn
            rcases haw (l.id, l.token) with h | ⟨-, h⟩
            · rw [h, ha] at hn; cases hn
            · exact absurd h hid
        · rw [ha] at hn; cases hn
      · rw [ha] at hn; cases hn
  | resume k' ms =>
    simp only [World.step] at old ⊢
    split
    · next legs' hl' =>
      rw [hl'] at old
      obtain ⟨aw, he, haw⟩ := resume_frame w.inv legs' ms
      refine ⟨ht.even, ?_, ?_⟩
      · intro k ls hk
        simp only at hk
        rw [Map.get_erase] at hk
        split at hk
        · cases hk
        · exact ht.tasks k ls hk
      · intro k ls hk l hl hn
        simp only [he] at hk hn ⊢
        rw [Map.get_erase] at hk
        split at hk
        · cases hk
        · next hne =>
          rcases haw (l.id, l.token) with h | ⟨-, x, hx, h⟩
          · rw [h] at hn
            exact old hk l hl hn
          · exfalso
            obtain ⟨e1, w1⟩ := ht.tasks k ls hk
            obtain ⟨e2, w2⟩ := ht.tasks k' legs' hl'
            have i1 := w1.ids hl
            have i2 := w2.ids hx
            have e := congrArg Prod.fst h
            simp only at e
            rw [e] at i1
            omega
    · exact ht

theorem hist_told {w : World} (h : Hist w) : TInv w := by
  induction h with
  | init => exact .init _ _ _ _
  | step e h ih => exact ih.step (hist_inv h) e

end Verif
