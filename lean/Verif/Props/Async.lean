import Verif.Proofs.Conserve
import Verif.Props.Collections
import Verif.Spec.WorldDemo

/-!
# C43-C46: token transfers under every interleaving

All theorems hold in every world reachable by any sequence of calls, answers, deliveries, wake-ups and
timeouts (`Hist`, see `Spec/World`).
-/

namespace Verif
open Service Spec Async

private theorem bal_eq (b : Balances) (w t : ActorId) : Spec.bal b w t = balOf b w t := by
  unfold Spec.bal balOf
  cases b.get (w, t) <;> rfl

variable {w : World}

/-- Whatever happens around the token transfers, the program's state is one of those covered by the
theorems about synchronous calls. -/
theorem world_reach (h : Hist w) : Reach w.inv := (hist_inv h).reach

private theorem msg_id (h : WInv w) {id : Nat} {l : Leg} {a : Option Bytes}
    (hm : w.msgs.get id = some ⟨l, a⟩) : l.id = id := (h.ids id _ hm).2.1

private theorem pend_or (h : WInv w) {l : Leg} {a : Option Bytes}
    (hm : w.msgs.get l.id = some ⟨l, a⟩) :
    w.inv.awaiting.get (l.id, l.token) = none ∨ Pending w l := by
  cases hg : w.inv.awaiting.get (l.id, l.token) with
  | none => exact .inl rfl
  | some x =>
    obtain ⟨m, h1, _, h3⟩ := h.aw _ _ _ hg
    rw [hm] at h1
    cases h1
    right
    unfold Pending
    rw [hg, h3]

private theorem deliver_eq {l : Leg} {p : Bytes} (hm : w.msgs.get l.id = some ⟨l, some p⟩) :
    (w.step (.deliver l.id true)).inv = replyHandler w.inv l.token l.id p := by
  simp only [World.step, hm, if_true]

private theorem credit_exact {s : Inv} {t who : ActorId} {n : Nat}
    (hfit : bal s.balances who t + n < 2 ^ 256) :
    bal (creditOrLog s t who n).balances who t = bal s.balances who t + n ∧
    ∀ a u, (a, u) ≠ (who, t) → (creditOrLog s t who n).balances.get (a, u) = s.balances.get (a, u) := by
  rw [bal_eq] at hfit
  unfold creditOrLog
  cases hi : increaseTokenBalance s.balances t who n with
  | ok b =>
    refine ⟨?_, fun a u hne => increase_other hi hne⟩
    simp only
    rw [bal_eq, bal_eq, increase_bal hi]
    simp
  | error e =>
    exfalso
    have : ∃ b, increaseTokenBalance s.balances t who n = .ok b := by
      by_cases hn : n = 0
      · exact ⟨s.balances, increase_ok.2 (.inl ⟨hn, rfl⟩)⟩
      · exact ⟨_, increase_ok.2 (.inr ⟨hn, hfit, rfl⟩)⟩
    rw [hi] at this
    obtain ⟨b, h⟩ := this
    cases h

private theorem credit_le {s : Inv} {t who : ActorId} {n : Nat} (a u : ActorId) :
    (creditOrLog s t who n).balances.get (a, u) = s.balances.get (a, u) ∨
    ((a, u) = (who, t) ∧ bal (creditOrLog s t who n).balances a u = bal s.balances a u + n) := by
  unfold creditOrLog
  split
  · next b hi =>
    by_cases hk : (a, u) = (who, t)
    · right
      refine ⟨hk, ?_⟩
      simp only [Prod.mk.injEq] at hk
      rw [bal_eq, bal_eq, increase_bal hi, if_pos hk]
    · exact .inl (increase_other hi hk)
  · exact .inl rfl

/-! ## C43 -/

/-- C43: besides synchronous calls, the only event that raises a balance is the delivery of an answer
to a pending transfer of that user and token which entitles them to it; it raises the balance by
exactly the amount of the transfer and the transfer is no longer pending afterwards. -/
theorem C43_cause (h : Hist w) (e : Event) (he : ∀ env c, e ≠ .call env c) (who t : ActorId)
    (hr : bal w.inv.balances who t < bal (w.step e).inv.balances who t) :
    ∃ l p, e = .deliver l.id true ∧ w.msgs.get l.id = some ⟨l, some p⟩ ∧ user l = who ∧
      l.token = t ∧ Credits l.kind p ∧ Pending w l ∧ ¬ Pending (w.step e) l ∧
      bal (w.step e).inv.balances who t = bal w.inv.balances who t + l.amount := by
  have hw := hist_inv h
  cases e with
  | call env c => exact absurd rfl (he env c)
  | drift u n => exact absurd hr (lt_irrefl _)
  | start env gas b1 b2 c =>
    exfalso
    simp only [World.step] at hr
    split at hr
    · exact absurd hr (lt_irrefl _)
    · next s legs hs =>
      have hs := start_ok hs
      simp only at hs hr
      cases hk : ACall.kind c with
      | deposit => rw [hs.dep hk] at hr; exact absurd hr (lt_irrefl _)
      | withdrawal =>
        have := hs.bal hk who t
        rw [bal_eq, bal_eq] at hr
        omega
  | answer id p n =>
    exfalso
    simp only [World.step] at hr
    split at hr <;> exact absurd hr (lt_irrefl _)
  | resume k ms =>
    exfalso
    simp only [World.step] at hr
    split at hr
    · next legs _ =>
      obtain ⟨aw, he, _⟩ := resume_frame w.inv legs ms
      simp only [he] at hr
      exact absurd hr (lt_irrefl _)
    · exact absurd hr (lt_irrefl _)
  | deliver id runs =>
    cases hm : w.msgs.get id with
    | none => simp only [World.step, hm] at hr; exact absurd hr (lt_irrefl _)
    | some m =>
      obtain ⟨l, a⟩ := m
      have hid := msg_id hw hm
      subst hid
      cases a with
      | none => simp only [World.step, hm] at hr; exact absurd hr (lt_irrefl _)
      | some p =>
        cases runs with
        | false => simp [World.step, hm] at hr
        | true =>
          have hd := deliver_eq hm
          rw [hd] at hr
          rcases pend_or hw hm with hn | hp
          · rw [replyHandler_none hn] at hr; exact absurd hr (lt_irrefl _)
          · have hp' := hp
            unfold Pending at hp'
            rcases replyHandler_some (p := p) hp' with ⟨_, hc, e⟩ | ⟨_, _, e⟩ | ⟨_, e⟩
            · simp only at hc e
              rw [e] at hr
              simp only at hr
              rcases credit_le (s := w.inv) (t := l.token) (who := user l) (n := l.amount) who t with h1 | ⟨h1, h2⟩
              · exfalso
                unfold bal at hr
                rw [h1] at hr
                exact absurd hr (lt_irrefl _)
              · simp only [Prod.mk.injEq] at h1
                refine ⟨l, p, rfl, hm, h1.1.symm, h1.2.symm, hc, hp, ?_, ?_⟩
                · unfold Pending
                  rw [hd, e]
                  simp
                · rw [hd, e]; exact h2
            · rw [e] at hr; exact absurd hr (lt_irrefl _)
            · rw [e] at hr; exact absurd hr (lt_irrefl _)

/-- C43: the confirmation of a pending deposit credits the depositor with exactly the deposited amount
and nobody else. -/
theorem C43_credit (h : Hist w) {l : Leg} {p : Bytes} (hm : w.msgs.get l.id = some ⟨l, some p⟩)
    (hk : l.kind = .deposit) (hp : Pending w l) (hpos : Positive p)
    (hfit : bal w.inv.balances l.src l.token + l.amount < 2 ^ 256) :
    bal (w.step (.deliver l.id true)).inv.balances l.src l.token =
      bal w.inv.balances l.src l.token + l.amount ∧
    (∀ a u, (a, u) ≠ (l.src, l.token) →
      (w.step (.deliver l.id true)).inv.balances.get (a, u) = w.inv.balances.get (a, u)) ∧
    ¬ Pending (w.step (.deliver l.id true)) l := by
  have hu : user l = l.src := by unfold user; rw [hk]
  unfold Pending at hp ⊢
  rw [deliver_eq hm]
  rcases replyHandler_some (p := p) hp with ⟨_, hc, e⟩ | ⟨_, hc, e⟩ | ⟨hc, e⟩
  · rw [e, hu]
    have := credit_exact hfit
    exact ⟨this.1, this.2, by simp⟩
  · exact absurd (show Credits l.kind p by rw [hk]; exact hpos) hc
  · exact absurd (.inl hpos) hc

/-- C43: any other answer to a deposit (negative, error text, unreadable) credits nothing. -/
theorem C43_no_credit (h : Hist w) {l : Leg} {p : Bytes} (hm : w.msgs.get l.id = some ⟨l, some p⟩)
    (hk : l.kind = .deposit) (hpos : ¬ Positive p) (runs : Bool) :
    (w.step (.deliver l.id runs)).inv.balances = w.inv.balances := by
  cases runs with
  | false => simp [World.step, hm]
  | true =>
    rw [deliver_eq hm]
    rcases pend_or (hist_inv h) hm with hn | hp
    · rw [replyHandler_none hn]
    · unfold Pending at hp
      rcases replyHandler_some (p := p) hp with ⟨_, hc, e⟩ | ⟨_, hc, e⟩ | ⟨hc, e⟩
      · exfalso
        simp only [hk] at hc
        exact hpos hc
      · rw [e]
      · rw [e]

/-- C43: asking for a deposit changes no balance. -/
theorem C43_start (env : Env) (r : SendEnv) (s s' : Inv) (c : ACall) (legs : List Leg)
    (hc : (∃ t n, c = .depositSingle t n) ∨ ∃ t n u m, c = .depositPair t n u m)
    (hs : start env r s c = .ok (s', legs)) : s'.balances = s.balances := by
  have := (start_ok hs).dep
  rcases hc with ⟨t, n, rfl⟩ | ⟨t, n, u, m, rfl⟩ <;> exact this rfl

/-- a deposit of 100: credited once by the confirmation (also if it is delivered twice), not by a
refusal, an error text or an unreadable answer -/
example : bal asking.inv.balances 2 5 = 0 ∧ bal deposited.inv.balances 2 5 = 100 ∧
    bal (asking.steps [.answer 0 yes 100, .deliver 0 true, .deliver 0 true]).inv.balances 2 5 = 100 ∧
    bal (asking.steps [.answer 0 yes 100, .deliver 0 false]).inv.balances 2 5 = 0 ∧
    bal (asking.steps [.answer 0 no 0, .deliver 0 true]).inv.balances 2 5 = 0 ∧
    bal (asking.steps [.answer 0 [8, 65, 66] 0, .deliver 0 true]).inv.balances 2 5 = 0 ∧
    bal (asking.steps [.answer 0 [99] 0, .deliver 0 true]).inv.balances 2 5 = 0 := by decide +kernel

/-! ## C46 -/

private theorem steps_settled (es : List Event) : ∀ {w : World}, WInv w → ∀ {l : Leg} {a : Option Bytes},
    w.msgs.get l.id = some ⟨l, a⟩ → ¬ Pending w l →
    WInv (w.steps es) ∧ (∃ a, (w.steps es).msgs.get l.id = some ⟨l, a⟩) ∧ ¬ Pending (w.steps es) l := by
  induction es with
  | nil => exact fun hw _ a hm hp => ⟨hw, ⟨a, hm⟩, hp⟩
  | cons e es ih =>
    intro w hw l a hm hp
    obtain ⟨a2, hm2, _⟩ := step_msgs hw e hm
    refine ih (hw.step e) hm2 ?_
    -- no event adds an entry for an old request
    have hn : w.inv.awaiting.get (l.id, l.token) = none := by
      rcases pend_or hw hm with h | h
      · exact h
      · exact absurd h hp
    unfold Pending
    suffices hs : (w.step e).inv.awaiting.get (l.id, l.token) = none by rw [hs]; simp
    cases e with
    | call env c =>
      simp only [World.step]
      rw [(run_frame env w.inv c hw.reach).2, hn]
    | drift u n => exact hn
    | start env gas b1 b2 c =>
      simp only [World.step]
      split
      · exact hn
      · next s legs hs =>
        have hs := start_ok hs
        simp only at hs ⊢
        rw [hs.eq]
        simp only
        rw [addAwait_not, hn]
        intro x hx e
        simp only [Prod.mk.injEq] at e
        have h1 : w.next ≤ x.id := (hs.sent.range x hx).1
        have h2 := (hw.ids _ _ hm).1
        omega
    | answer id p n => simp only [World.step]; split <;> exact hn
    | deliver id runs =>
      simp only [World.step]
      split
      · next l2 p _ =>
        split
        · obtain ⟨b, aw, who, he, _, haw⟩ := replyHandler_frame w.inv l2.token id p
          simp only [he]
          rcases haw (l.id, l.token) with h | ⟨h, _⟩
          · rw [h, hn]
          · exact h
        · exact hn
      · exact hn
    | resume k ms =>
      simp only [World.step]
      split
      · next legs _ =>
        obtain ⟨aw, he, haw⟩ := resume_frame w.inv legs ms
        simp only [he]
        rcases haw (l.id, l.token) with h | ⟨h, _⟩
        · rw [h, hn]
        · exact h
      · exact hn

/-- C46 (and "at most once" of C43, C44): once a transfer is no longer pending it never becomes pending
again, and whatever happens in between, no delivery of its answer changes anything in the program. -/
theorem C46_settled_forever (h : Hist w) {l : Leg} {a : Option Bytes}
    (hm : w.msgs.get l.id = some ⟨l, a⟩) (hp : ¬ Pending w l) (es : List Event) (runs : Bool) :
    ¬ Pending (w.steps es) l ∧
    ((w.steps es).step (.deliver l.id runs)).inv = (w.steps es).inv := by
  obtain ⟨hw, ⟨a, hm⟩, hp⟩ := steps_settled es (hist_inv h) hm hp
  refine ⟨hp, ?_⟩
  have hn : (w.steps es).inv.awaiting.get (l.id, l.token) = none := by
    rcases pend_or hw hm with h | h
    · exact h
    · exact absurd h hp
  simp only [World.step, hm]
  cases a with
  | none => rfl
  | some p =>
    cases runs with
    | false => rfl
    | true => simp only [if_true]; exact replyHandler_none hn

/-- C46: delivering an answer touches only the entry of that transfer and the balance of that user in
that token; in particular nothing of the other token of a two-token transfer. -/
theorem C46_independent (h : Hist w) {l : Leg} {a : Option Bytes}
    (hm : w.msgs.get l.id = some ⟨l, a⟩) (runs : Bool) :
    (∀ k, k ≠ (user l, l.token) →
      (w.step (.deliver l.id runs)).inv.balances.get k = w.inv.balances.get k) ∧
    (∀ k, k ≠ (l.id, l.token) →
      (w.step (.deliver l.id runs)).inv.awaiting.get k = w.inv.awaiting.get k) := by
  cases a with
  | none => simp [World.step, hm]
  | some p =>
    cases runs with
    | false => simp [World.step, hm]
    | true =>
      rw [deliver_eq hm]
      rcases pend_or (hist_inv h) hm with hn | hp
      · rw [replyHandler_none hn]; exact ⟨fun _ _ => rfl, fun _ _ => rfl⟩
      · unfold Pending at hp
        have he : ∀ k, k ≠ (l.id, l.token) →
          (w.inv.awaiting.erase (l.id, l.token)).get k = w.inv.awaiting.get k :=
          fun k hk => Map.get_erase_ne _ hk
        rcases replyHandler_some (p := p) hp with ⟨_, hc, e⟩ | ⟨_, hc, e⟩ | ⟨hc, e⟩
        · rw [e]
          refine ⟨?_, he⟩
          intro k hk
          rcases credit_le (s := w.inv) (t := l.token) (who := user l) (n := l.amount) k.1 k.2 with h | ⟨h, _⟩
          · exact h
          · exact absurd h hk
        · rw [e]; exact ⟨fun _ _ => rfl, he⟩
        · rw [e]; exact ⟨fun _ _ => rfl, fun _ _ => rfl⟩

/-- C46: the second part of a command (after the replies or a timeout) changes no balance and no entry
but those of its own transfers, and afterwards these are settled. -/
theorem C46_resume (k : Nat) (ms : List (Option Bool)) :
    (w.step (.resume k ms)).inv.balances = w.inv.balances ∧
    (∀ i t, (∀ legs, w.tasks.get k = some legs → ∀ l ∈ legs, (i, t) ≠ (l.id, l.token)) →
      (w.step (.resume k ms)).inv.awaiting.get (i, t) = w.inv.awaiting.get (i, t)) ∧
    (∀ legs, w.tasks.get k = some legs → legs.length = ms.length → legs.length ≤ 2 →
      ∀ l ∈ legs, ¬ Pending (w.step (.resume k ms)) l) := by
  simp only [World.step]
  cases ht : w.tasks.get k with
  | none => exact ⟨rfl, fun _ _ _ => rfl, fun _ h => by cases h⟩
  | some legs =>
    simp only
    obtain ⟨aw, he, haw⟩ := resume_frame w.inv legs ms
    refine ⟨by rw [he], ?_, ?_⟩
    · intro i t hi
      rw [he]
      rcases haw (i, t) with h | ⟨_, l, hl, h⟩
      · exact h
      · exact absurd h (hi legs rfl l hl)
    · rintro legs' hl hlen h2 l hmem
      cases hl
      unfold Pending
      simp only
      match legs, ms, hlen with
      | [x], [m], _ =>
        simp only [List.mem_singleton] at hmem
        subst hmem
        rw [resume_one]; simp
      | [x, y], [mx, my], _ =>
        rw [resume_two]
        simp only [List.mem_cons, List.not_mem_nil, or_false] at hmem
        simp only [Map.get_erase]
        rcases hmem with rfl | rfl
        · split <;> simp
        · simp
      | [], [], _ => cases hmem
      | _ :: _ :: _ :: _, _, _ => simp at h2

/-- C46: a pending transfer is settled only by the delivery of its own answer or by the second part of
the command that requested it. -/
theorem C46_settled_by (h : Hist w) {l : Leg} {a : Option Bytes} (e : Event)
    (hm : w.msgs.get l.id = some ⟨l, a⟩) (hp : Pending w l) (hn : ¬ Pending (w.step e) l) :
    e = .deliver l.id true ∨ ∃ k ms legs, e = .resume k ms ∧ w.tasks.get k = some legs ∧ l ∈ legs := by
  have hw := hist_inv h
  have hp' := hp
  unfold Pending at hp hn
  cases e with
  | call env c =>
    simp only [World.step] at hn
    rw [(run_frame env w.inv c hw.reach).2] at hn
    exact absurd hp hn
  | drift u n => exact absurd hp hn
  | start env gas b1 b2 c =>
    simp only [World.step] at hn
    split at hn
    · exact absurd hp hn
    · next s legs hs =>
      have hs := start_ok hs
      simp only at hs hn
      rw [hs.eq] at hn
      simp only at hn
      rw [addAwait_not, hp] at hn
      · exact absurd rfl hn
      · intro x hx e
        simp only [Prod.mk.injEq] at e
        have h1 : w.next ≤ x.id := (hs.sent.range x hx).1
        have h2 := (hw.ids _ _ hm).1
        omega
  | answer id p n =>
    simp only [World.step] at hn
    split at hn <;> exact absurd hp hn
  | deliver id runs =>
    simp only [World.step] at hn
    split at hn
    · next l2 p hm2 =>
      split at hn
      · next hruns =>
        obtain ⟨b, aw, who, he, _, haw⟩ := replyHandler_frame w.inv l2.token id p
        simp only [he] at hn
        rcases haw (l.id, l.token) with h | ⟨_, h⟩
        · rw [h] at hn; exact absurd hp hn
        · simp only [Prod.mk.injEq] at h
          left
          rw [h.1]
          cases runs
          · cases hruns
          · rfl
      · exact absurd hp hn
    · exact absurd hp hn
  | resume k ms =>
    right
    simp only [World.step] at hn
    split at hn
    · next legs hl =>
      obtain ⟨aw, he, haw⟩ := resume_frame w.inv legs ms
      simp only [he] at hn
      rcases haw (l.id, l.token) with h | ⟨_, l2, hl2, h⟩
      · rw [h] at hn; exact absurd hp hn
      · obtain ⟨a2, hm2⟩ := hw.tasks k legs hl l2 hl2
        simp only [Prod.mk.injEq] at h
        rw [← h.1, hm] at hm2
        cases hm2
        exact ⟨k, ms, legs, rfl, hl, hl2⟩
    · exact absurd hp hn

/-- two tokens, one confirmed and one refused: only the first is credited; the timeout of the command
settles what is still open, and a late confirmation has no effect -/
example : bal (both.steps [.answer 3 no 0, .answer 2 yes 103, .deliver 3 true, .deliver 2 true]).inv.balances 2 5
      = 103 ∧
    bal (both.steps [.answer 3 no 0, .answer 2 yes 103, .deliver 3 true, .deliver 2 true]).inv.balances 2 6
      = 0 ∧
    (both.inv.awaiting.get (2, 5)).isSome ∧ (both.inv.awaiting.get (3, 6)).isSome ∧
    ((both.step (.resume 2 [none, none])).inv.awaiting.get (2, 5)).isNone ∧
    bal (both.steps [.resume 2 [none, none], .answer 2 yes 103, .deliver 2 true]).inv.balances 2 5 = 100 := by
  decide +kernel

end Verif
