import Verif.Proofs.WorldInv

/-! # Holdings cover the internal balances -/

namespace Verif
open Service Spec Async

/-- what one request owes in a token -/
def dueAt (aw : Map (MessageId × ActorId) AwaitingTransfer) (t : ActorId) (id : Nat) (m : Msg) : Nat :=
  if m.leg.token = t then due m (aw.get (id, t)).isSome else 0

theorem owed_eq (w : World) (t : ActorId) : owed w t = w.msgs.sum (dueAt w.inv.awaiting t) := rfl

theorem due_false_le (m : Msg) (b : Bool) : due m false ≤ due m b := by
  unfold due
  split
  · exact le_refl _
  · simp
  · exact le_refl _
  · simp

theorem dueAt_congr {a b : Map (MessageId × ActorId) AwaitingTransfer} {t : ActorId} {id : Nat}
    {m : Msg} (h : a.get (id, t) = b.get (id, t)) : dueAt a t id m = dueAt b t id m := by
  unfold dueAt; rw [h]

theorem creditOrLog_total (s : Inv) (t who : ActorId) (n : Nat) (u : ActorId) :
    total (creditOrLog s t who n).balances u ≤ total s.balances u + if u = t then n else 0 := by
  unfold creditOrLog
  split
  · next h => exact le_of_eq (total_inc h u)
  · exact Nat.le_add_right _ _

theorem start_conserve {w : World} (hw : WInv w) (t : ActorId) (env : Env) (gas : Nat) (b1 b2 : Bool)
    (c : ACall) : total (w.step (.start env gas b1 b2 c)).inv.balances t +
      owed (w.step (.start env gas b1 b2 c)) t = total w.inv.balances t + owed w t := by
  simp only [World.step]
  cases hs : start env ⟨w.program, gas, w.next, b1, b2⟩ w.inv c with
  | error e => rfl
  | ok r =>
    obtain ⟨s', legs⟩ := r
    have h := start_ok hs
    have hr := h.sent.range
    simp only at h hr ⊢
    rw [owed_eq, owed_eq]
    simp only
    rw [addMsgs_sum h.sent.distinct]
    · have hold : w.msgs.sum (dueAt s'.awaiting t) = w.msgs.sum (dueAt w.inv.awaiting t) := by
        apply Map.sum_congr
        intro id m hm
        apply dueAt_congr
        rw [h.eq]
        simp only
        rw [addAwait_not]
        intro l hl e
        simp only [Prod.mk.injEq] at e
        have := (hr l hl).1
        have := (hw.ids id m hm).1
        omega
      rw [hold]
      have hnew : (legs.map fun l => dueAt s'.awaiting t l.id ⟨l, none⟩) =
          legs.map fun l => if l.token = t then (if ACall.kind c = .withdrawal then l.amount else 0)
            else 0 := by
        apply List.map_congr_left
        intro l hl
        unfold dueAt due
        have := (h.sent.each l hl).1
        simp only [this]
        cases ACall.kind c <;> rfl
      rw [hnew]
      cases hk : ACall.kind c with
      | deposit =>
        rw [h.dep hk]
        have : (legs.map fun l => if l.token = t then
            (if TransferType.deposit = TransferType.withdrawal then l.amount else 0) else 0).sum = 0 := by
          apply List.sum_eq_zero
          intro x hx
          simp only [List.mem_map] at hx
          obtain ⟨l, _, rfl⟩ := hx
          simp
        rw [this]
        omega
      | withdrawal =>
        have := h.tot hk t
        simp only [if_true]
        unfold legSum at this
        omega
    · intro l hl
      cases hg : w.msgs.get l.id with
      | none => rfl
      | some m =>
        have := (hw.ids _ m hg).1
        have := (hr l hl).1
        omega

theorem deliver_conserve {w : World} (hw : WInv w) (t : ActorId) (id : Nat) (runs : Bool) :
    total (w.step (.deliver id runs)).inv.balances t + owed (w.step (.deliver id runs)) t ≤
      total w.inv.balances t + owed w t := by
  simp only [World.step]
  split
  · next l p hm =>
    split
    · cases ha : w.inv.awaiting.get (id, l.token) with
      | none =>
        rw [replyHandler_none ha]
      | some a =>
        obtain ⟨m, hm2, _, ha2⟩ := hw.aw id l.token a ha
        rw [hm] at hm2
        cases hm2
        simp only at ha2
        have key : ∀ s' : Inv, (∀ k, k ≠ (id, l.token) → s'.awaiting.get k = w.inv.awaiting.get k) →
            (∀ d, total s'.balances t ≤ total w.inv.balances t + d →
              (t = l.token → d + due ⟨l, some p⟩ (s'.awaiting.get (id, l.token)).isSome ≤
                due ⟨l, some p⟩ true) → (t ≠ l.token → d = 0) →
              total s'.balances t + owed { w with inv := s' } t ≤ total w.inv.balances t + owed w t) := by
          intro s' haw d htot hd hd0
          rw [owed_eq, owed_eq, Map.sum_erase_some hm, Map.sum_erase_some hm]
          have : (w.msgs.erase id).sum (dueAt s'.awaiting t) =
              (w.msgs.erase id).sum (dueAt w.inv.awaiting t) := by
            apply Map.sum_congr
            intro k m hk
            apply dueAt_congr
            rw [haw]
            rw [Map.get_erase] at hk
            split at hk
            · cases hk
            · next hne => intro e; simp only [Prod.mk.injEq] at e; exact hne e.1
          rw [this]
          unfold dueAt
          simp only
          by_cases ht : l.token = t
          · rw [if_pos ht, if_pos ht]
            have h1 := hd ht.symm
            rw [← ht, ha]
            simp only [Option.isSome_some]
            rw [ht] at h1 ⊢
            omega
          · rw [if_neg ht, if_neg ht]
            have := hd0 (Ne.symm ht)
            omega
        have herase : ∀ k, k ≠ (id, l.token) →
            (w.inv.awaiting.erase (id, l.token)).get k = w.inv.awaiting.get k :=
          fun k hk => Map.get_erase_ne _ hk
        rcases replyHandler_some (p := p) ha with ⟨_, hc, e⟩ | ⟨_, hc, e⟩ | ⟨_, e⟩
        · rw [e]
          refine key _ herase (if t = l.token then a.amount else 0)
            (creditOrLog_total w.inv l.token a.account a.amount t) ?_ (fun h => if_neg h)
          intro ht
          rw [if_pos ht]
          simp only [Map.get_erase_self, Option.isSome_none]
          subst ha2
          simp only at hc ⊢
          unfold due
          cases hk : l.kind with
          | deposit =>
            rw [hk] at hc
            have hc : Positive p := hc
            simp [hk, hc]
          | withdrawal =>
            rw [hk] at hc
            have hc : ¬ Positive p := fun h => hc.elim (not_pos_neg h) (not_pos_panic h)
            simp [hk, hc]
        · rw [e]
          refine key _ herase 0 (by simp) ?_ (fun h => rfl)
          intro _
          simp only [Map.get_erase_self, Option.isSome_none, zero_add]
          exact due_false_le _ _
        · rw [e]
    · exact le_refl _
  · exact le_refl _

theorem resume_conserve {w : World} (t : ActorId) (k : Nat) (ms : List (Option Bool)) :
    total (w.step (.resume k ms)).inv.balances t + owed (w.step (.resume k ms)) t ≤
      total w.inv.balances t + owed w t := by
  simp only [World.step]
  split
  · next legs hl =>
    obtain ⟨aw, he, haw⟩ := resume_frame w.inv legs ms
    simp only [he]
    apply Nat.add_le_add_left
    rw [owed_eq, owed_eq]
    apply Map.sum_le_sum
    intro id m hm
    rcases haw (id, t) with h | ⟨h, _⟩
    · exact le_of_eq (dueAt_congr h)
    · unfold dueAt
      simp only
      split
      · rw [h]; exact due_false_le _ _
      · exact le_refl _
  · exact le_refl _

theorem answer_conserve {w : World} (hw : WInv w) (t : ActorId) (id : Nat) (p : Bytes) (h : Nat)
    (hh : Honest t w (.answer id p h)) :
    (owed (w.step (.answer id p h)) t : Int) - (w.step (.answer id p h)).held t ≤
      (owed w t : Int) - w.held t ∧ (w.step (.answer id p h)).inv = w.inv ∧
      (w.step (.answer id p h)).booked = w.booked := by
  simp only [World.step]
  simp only [Honest] at hh
  split
  · next l hm =>
    refine ⟨?_, rfl, rfl⟩
    rw [owed_eq, owed_eq, Map.sum_erase_some hm]
    simp only
    rw [Map.sum_insert]
    unfold dueAt
    simp only
    by_cases ht : l.token = t
    · have h1 := hh l hm ht
      simp only [if_pos ht, setHeld, ht, if_true]
      unfold due
      split at h1
      · next hp =>
        cases hk : l.kind with
        | deposit =>
          rw [hk] at h1
          simp only [hk, hp, true_and] at h1 ⊢
          split <;> omega
        | withdrawal =>
          rw [hk] at h1
          simp only [hk, hp, true_or, if_true] at h1 ⊢
          omega
      · next hp =>
        cases hk : l.kind with
        | deposit => simp only [hk, hp, false_and, if_false]; omega
        | withdrawal =>
          simp only [hk, hp, false_or]
          split <;> omega
    · simp only [if_neg ht, setHeld, if_neg (Ne.symm ht)]
      omega
  · exact ⟨le_refl _, rfl, rfl⟩

/-- one event -/
theorem step_conserve {w : World} (hw : WInv w) (t : ActorId) (e : Event) (hh : Honest t w e) :
    (total (w.step e).inv.balances t : Int) + owed (w.step e) t - (w.step e).held t -
      (w.step e).booked t ≤ (total w.inv.balances t : Int) + owed w t - w.held t - w.booked t := by
  cases e with
  | call env c =>
    have h := (run_frame env w.inv c hw.reach).2
    have : owed (w.step (.call env c)) t = owed w t := by
      rw [owed_eq, owed_eq]
      apply Map.sum_congr
      intro id m _
      apply dueAt_congr
      simp only [World.step]
      rw [h]
    rw [this]
    simp only [World.step]
    omega
  | start env gas b1 b2 c =>
    have h := start_conserve hw t env gas b1 b2 c
    have h2 : (w.step (.start env gas b1 b2 c)).held = w.held ∧
        (w.step (.start env gas b1 b2 c)).booked = w.booked := by
      simp only [World.step]; split <;> exact ⟨rfl, rfl⟩
    rw [h2.1, h2.2]
    omega
  | answer id p h =>
    obtain ⟨h1, h2, h3⟩ := answer_conserve hw t id p h hh
    rw [h2, h3]
    omega
  | deliver id runs =>
    have h := deliver_conserve hw t id runs
    have h2 : (w.step (.deliver id runs)).held = w.held ∧
        (w.step (.deliver id runs)).booked = w.booked := by
      simp only [World.step]; split
      · split <;> exact ⟨rfl, rfl⟩
      · exact ⟨rfl, rfl⟩
    rw [h2.1, h2.2]
    omega
  | resume k ms =>
    have h := resume_conserve (w := w) t k ms
    have h2 : (w.step (.resume k ms)).held = w.held ∧
        (w.step (.resume k ms)).booked = w.booked := by
      simp only [World.step]; split <;> exact ⟨rfl, rfl⟩
    rw [h2.1, h2.2]
    omega
  | drift u h =>
    simp only [Honest] at hh
    have : owed (w.step (.drift u h)) t = owed w t := rfl
    rw [this]
    simp only [World.step, setHeld]
    by_cases hu : t = u
    · have := hh hu.symm
      rw [if_pos hu]
      omega
    · rw [if_neg hu]

theorem honest_conserve {w : World} {t : ActorId} (h : HonestHist t w) :
    (total w.inv.balances t : Int) + owed w t ≤ w.held t + w.booked t := by
  induction h with
  | init program admin fee held =>
    have h1 : total (World.init program admin fee held).inv.balances t = 0 := rfl
    have h2 : owed (World.init program admin fee held) t = 0 := rfl
    have h3 : (World.init program admin fee held).booked t = 0 := rfl
    rw [h1, h2, h3]
    simp
  | step e hw hh ih =>
    have := step_conserve (hist_inv (honest_hist hw)) t e hh
    omega

end Verif
