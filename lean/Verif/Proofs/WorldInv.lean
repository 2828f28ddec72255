import Verif.Proofs.World
import Verif.Proofs.Scale

/-! # Invariants of the token transfers -/

namespace Verif
open Service Spec Async

/-! ## Tables of messages -/

theorem addMsgs_not {legs : List Leg} {id : Nat} (h : ∀ l ∈ legs, l.id ≠ id)
    (m : Map Nat Msg) : (addMsgs m legs).get id = m.get id := by
  induction legs generalizing m with
  | nil => rfl
  | cons a t ih =>
    simp only [addMsgs]
    rw [ih (fun l hl => h l (List.mem_cons_of_mem _ hl)),
      Map.get_insert_ne _ _ (Ne.symm (h a (List.mem_cons_self ..)))]

theorem addMsgs_mem {legs : List Leg} (hp : legs.Pairwise (·.id ≠ ·.id)) {l : Leg} (hl : l ∈ legs)
    (m : Map Nat Msg) : (addMsgs m legs).get l.id = some ⟨l, none⟩ := by
  induction legs generalizing m with
  | nil => cases hl
  | cons a t ih =>
    simp only [addMsgs]
    rw [List.pairwise_cons] at hp
    rcases List.mem_cons.1 hl with rfl | hl
    · rw [addMsgs_not (fun x hx => (hp.1 x hx).symm), Map.get_insert_self]
    · exact ih hp.2 hl _

theorem addMsgs_sum {legs : List Leg} (hp : legs.Pairwise (·.id ≠ ·.id)) {m : Map Nat Msg}
    (hm : ∀ l ∈ legs, m.get l.id = none) (f : MessageId → Msg → Nat) :
    (addMsgs m legs).sum f = (legs.map fun l => f l.id ⟨l, none⟩).sum + m.sum f := by
  induction legs generalizing m with
  | nil => simp [addMsgs]
  | cons a t ih =>
    simp only [addMsgs]
    rw [List.pairwise_cons] at hp
    rw [ih hp.2, Map.sum_insert_none _ (hm a (List.mem_cons_self ..))]
    · simp only [List.map_cons, List.sum_cons]; omega
    · intro l hl
      rw [Map.get_insert_ne _ _ (hp.1 l hl).symm]
      exact hm l (List.mem_cons_of_mem _ hl)

theorem addAwait_not {legs : List Leg} {k : MessageId × ActorId}
    (h : ∀ l ∈ legs, (l.id, l.token) ≠ k) (m : Map (MessageId × ActorId) AwaitingTransfer) :
    (addAwait m legs).get k = m.get k := by
  induction legs generalizing m with
  | nil => rfl
  | cons a t ih =>
    simp only [addAwait]
    rw [ih (fun l hl => h l (List.mem_cons_of_mem _ hl)),
      Map.get_insert_ne _ _ (Ne.symm (h a (List.mem_cons_self ..)))]

theorem addAwait_mem {legs : List Leg} (hp : legs.Pairwise (·.id ≠ ·.id)) {l : Leg} (hl : l ∈ legs)
    (m : Map (MessageId × ActorId) AwaitingTransfer) :
    (addAwait m legs).get (l.id, l.token) = some ⟨user l, l.amount, l.kind⟩ := by
  induction legs generalizing m with
  | nil => cases hl
  | cons a t ih =>
    simp only [addAwait]
    rw [List.pairwise_cons] at hp
    rcases List.mem_cons.1 hl with rfl | hl
    · rw [addAwait_not (fun x hx e => (hp.1 x hx).symm (by simp only [Prod.mk.injEq] at e; exact e.1)),
        Map.get_insert_self]
    · exact ih hp.2 hl _

section legs
variable {caller program : ActorId} {next : Nat} {kind : TransferType} {legs : List Leg}

theorem Legs.distinct (h : Legs caller program next kind legs) : legs.Pairwise (·.id ≠ ·.id) := by
  rcases h.shape with rfl | ⟨l, rfl, _⟩ | ⟨x, y, rfl, hx, hy⟩
  · exact .nil
  · exact List.pairwise_singleton _ _
  · simp [hx, hy]

theorem Legs.range (h : Legs caller program next kind legs) :
    ∀ l ∈ legs, next ≤ l.id ∧ l.id < next + 2 := by
  intro l hl
  rcases h.shape with rfl | ⟨l, rfl, hi⟩ | ⟨x, y, rfl, hx, hy⟩
  · cases hl
  · simp only [List.mem_singleton] at hl; subst hl; omega
  · simp only [List.mem_cons, List.not_mem_nil, or_false] at hl
    rcases hl with rfl | rfl <;> omega

end legs

/-! ## The invariant -/

structure WInv (w : World) : Prop where
  ids : ∀ id m, w.msgs.get id = some m →
    id < w.next ∧ m.leg.id = id ∧ m.leg.token ≠ VARA ∧ m.leg.amount ≠ 0
  aw : ∀ id t a, w.inv.awaiting.get (id, t) = some a → ∃ m, w.msgs.get id = some m ∧
    m.leg.token = t ∧ a = ⟨user m.leg, m.leg.amount, m.leg.kind⟩
  tasks : ∀ k legs, w.tasks.get k = some legs → ∀ l ∈ legs, ∃ ans, w.msgs.get l.id = some ⟨l, ans⟩
  reach : Reach w.inv

theorem run_frame (env : Env) (s : Inv) (c : Call) :
    Reach s → Reach (run env s c) ∧ (run env s c).awaiting = s.awaiting := by
  intro h
  unfold run
  cases hs : step env s c with
  | ok s' => exact ⟨.call h hs, (step_settings hs).awaiting⟩
  | error e => exact ⟨h, rfl⟩

theorem creditOrLog_balOps (s : Inv) (t who : ActorId) (n : Nat) :
    BalOps who s.balances (creditOrLog s t who n).balances := by
  unfold creditOrLog
  split
  · next h => exact .inc (.refl _) h
  · exact .refl _

theorem creditOrLog_eq (s : Inv) (t who : ActorId) (n : Nat) :
    creditOrLog s t who n = { s with balances := (creditOrLog s t who n).balances } := by
  unfold creditOrLog
  split <;> rfl

/-- what a delivered reply may do -/
theorem replyHandler_frame (s : Inv) (t : ActorId) (id : Nat) (p : Bytes) :
    ∃ b aw who, replyHandler s t id p = { s with balances := b, awaiting := aw } ∧
      BalOps who s.balances b ∧ ∀ k, aw.get k = s.awaiting.get k ∨ (aw.get k = none ∧ k = (id, t)) := by
  have herase : ∀ k, (s.awaiting.erase (id, t)).get k = s.awaiting.get k ∨
      ((s.awaiting.erase (id, t)).get k = none ∧ k = (id, t)) := by
    intro k
    rw [Map.get_erase]
    by_cases hk : k = (id, t)
    · exact .inr ⟨if_pos hk, hk⟩
    · exact .inl (if_neg hk)
  cases ha : s.awaiting.get (id, t) with
  | none => exact ⟨s.balances, s.awaiting, 0, replyHandler_none ha, .refl _, fun k => .inl rfl⟩
  | some a =>
    rcases replyHandler_some (p := p) ha with ⟨_, _, e⟩ | ⟨_, _, e⟩ | ⟨_, e⟩
    · refine ⟨_, _, a.account, e.trans ?_, creditOrLog_balOps s t a.account a.amount, herase⟩
      rw [creditOrLog_eq]
    · exact ⟨_, _, 0, e, .refl _, herase⟩
    · exact ⟨s.balances, s.awaiting, 0, e, .refl _, fun k => .inl rfl⟩

theorem resume_frame (s : Inv) (legs : List Leg) (ms : List (Option Bool)) :
    ∃ aw, resume s legs ms = { s with awaiting := aw } ∧
      ∀ k, aw.get k = s.awaiting.get k ∨ (aw.get k = none ∧ ∃ l ∈ legs, k = (l.id, l.token)) := by
  unfold resume
  split
  · next l m =>
    refine ⟨_, resume_one s l m, fun k => ?_⟩
    rw [Map.get_erase]
    by_cases hk : k = (l.id, l.token)
    · exact .inr ⟨if_pos hk, l, by simp, hk⟩
    · exact .inl (if_neg hk)
  · next x y mx my =>
    refine ⟨_, resume_two s x y mx my, fun k => ?_⟩
    rw [Map.get_erase, Map.get_erase]
    by_cases hk : k = (y.id, y.token)
    · exact .inr ⟨if_pos hk, y, by simp, hk⟩
    · rw [if_neg hk]
      by_cases hk : k = (x.id, x.token)
      · exact .inr ⟨if_pos hk, x, by simp, hk⟩
      · exact .inl (if_neg hk)
  · exact ⟨s.awaiting, rfl, fun k => .inl rfl⟩

theorem WInv.init (program admin : ActorId) (fee : Nat) (held : ActorId → Nat) :
    WInv (World.init program admin fee held) := by
  refine ⟨?_, ?_, ?_, .init _ _⟩
  · intro id m h; simp [World.init] at h
  · intro id t a h; simp [World.init, Inv.init] at h
  · intro k l h; simp [World.init] at h

/-- requests are never forgotten or changed, except for getting an answer -/
theorem step_msgs {w : World} (hw : WInv w) (e : Event) {id : Nat} {m : Msg}
    (hm : w.msgs.get id = some m) : ∃ ans, (w.step e).msgs.get id = some ⟨m.leg, ans⟩ ∧
      (∀ p, m.answer = some p → ans = some p) := by
  have same : ∃ ans, w.msgs.get id = some ⟨m.leg, ans⟩ ∧ (∀ p, m.answer = some p → ans = some p) :=
    ⟨m.answer, hm, fun p h => h⟩
  cases e with
  | call env c => exact same
  | drift t h => exact same
  | start env gas b1 b2 c =>
    simp only [World.step]
    cases hs : start env ⟨w.program, gas, w.next, b1, b2⟩ w.inv c with
    | error e => exact same
    | ok r =>
      have h := start_ok hs
      refine ⟨m.answer, ?_, fun p h => h⟩
      simp only
      rw [addMsgs_not _ _]
      · exact hm
      · intro l hl
        have h1 : w.next ≤ l.id := (h.sent.range l hl).1
        have h2 := (hw.ids id m hm).1
        omega
  | answer id' p h =>
    simp only [World.step]
    split
    · next l hl =>
      by_cases hid : id = id'
      · subst hid
        rw [hm] at hl
        simp only [Option.some.injEq] at hl
        subst hl
        exact ⟨some p, by simp, by simp⟩
      · refine ⟨m.answer, ?_, fun p h => h⟩
        simp only
        rw [Map.get_insert_ne _ _ hid]
        exact hm
    · exact same
  | deliver id' runs =>
    simp only [World.step]
    split
    · split <;> exact same
    · exact same
  | resume k ms =>
    simp only [World.step]
    split <;> exact same

theorem WInv.step {w : World} (hw : WInv w) (e : Event) : WInv (w.step e) := by
  have hbal := reach_balWF hw.reach
  -- transfer the clauses that depend on the requests only
  have mono : ∀ l ans, w.msgs.get l.id = some ⟨l, ans⟩ →
      ∃ ans, (w.step e).msgs.get l.id = some ⟨l, ans⟩ := by
    intro l ans h
    obtain ⟨ans, h, _⟩ := step_msgs hw e h
    exact ⟨ans, h⟩
  cases e with
  | call env c =>
    have h := run_frame env w.inv c hw.reach
    refine ⟨hw.ids, ?_, hw.tasks, h.1⟩
    intro id t a ha
    simp only [World.step] at ha
    rw [h.2] at ha
    exact hw.aw id t a ha
  | drift t h => exact ⟨hw.ids, hw.aw, hw.tasks, hw.reach⟩
  | start env gas b1 b2 c =>
    simp only [World.step] at mono ⊢
    cases hs : start env ⟨w.program, gas, w.next, b1, b2⟩ w.inv c with
    | error e => exact hw
    | ok r =>
      rw [hs] at mono
      obtain ⟨s', legs⟩ := r
      have h := start_ok hs
      have hd := h.sent.distinct
      have hr := h.sent.range
      simp only at h hd hr mono ⊢
      have hnew : ∀ id, id < w.next → ∀ l ∈ legs, l.id ≠ id := by
        intro id hid l hl
        have := (hr l hl).1
        omega
      refine ⟨?_, ?_, ?_, ?_⟩
      · intro id m hm
        by_cases hex : ∃ l ∈ legs, l.id = id
        · obtain ⟨l, hl, rfl⟩ := hex
          simp only at hm
          rw [addMsgs_mem hd hl] at hm
          cases hm
          obtain ⟨_, h2, h3, _⟩ := h.sent.each l hl
          have := (hr l hl).2
          exact ⟨this, rfl, h2, h3⟩
        · simp only at hm
          rw [addMsgs_not (fun l hl e => hex ⟨l, hl, e⟩)] at hm
          obtain ⟨h1, h2⟩ := hw.ids id m hm
          exact ⟨Nat.lt_add_right 2 h1, h2⟩
      · intro id t a ha
        rw [h.eq] at ha
        simp only at ha ⊢
        by_cases hex : ∃ l ∈ legs, (l.id, l.token) = (id, t)
        · obtain ⟨l, hl, he⟩ := hex
          rw [← he, addAwait_mem hd hl] at ha
          simp only [Prod.mk.injEq] at he
          cases ha
          exact ⟨⟨l, none⟩, by rw [← he.1]; exact addMsgs_mem hd hl _, he.2, rfl⟩
        · rw [addAwait_not (fun l hl e => hex ⟨l, hl, e⟩)] at ha
          obtain ⟨m, h1, h2, h3⟩ := hw.aw id t a ha
          exact ⟨m, by rw [addMsgs_not (hnew id (hw.ids id m h1).1)]; exact h1, h2, h3⟩
      · intro k ls hk l hl
        simp only at hk ⊢
        have old : w.tasks.get k = some ls → ∃ ans, (addMsgs w.msgs legs).get l.id = some ⟨l, ans⟩ := by
          intro hk
          obtain ⟨ans, h1⟩ := hw.tasks k ls hk l hl
          exact mono l ans h1
        split at hk
        · exact old hk
        · rw [Map.get_insert] at hk
          split at hk
          · cases hk; exact ⟨none, addMsgs_mem hd hl _⟩
          · exact old hk
      · rw [h.eq]
        exact .transfers hw.reach (h.ops.wf hbal)
  | answer id' p h =>
    have hm : ∀ id m, w.msgs.get id = some m → ∃ ans, (w.step (.answer id' p h)).msgs.get id =
        some ⟨m.leg, ans⟩ := by
      intro id m hm
      obtain ⟨ans, h, _⟩ := step_msgs hw (.answer id' p h) hm
      exact ⟨ans, h⟩
    have hinv : (w.step (.answer id' p h)).inv = w.inv ∧ (w.step (.answer id' p h)).tasks = w.tasks ∧
        (w.step (.answer id' p h)).next = w.next := by
      simp only [World.step]; split <;> exact ⟨rfl, rfl, rfl⟩
    refine ⟨?_, ?_, ?_, ?_⟩
    · intro id m hm'
      rw [hinv.2.2]
      simp only [World.step] at hm'
      split at hm'
      · next l hl =>
        simp only at hm'
        rw [Map.get_insert] at hm'
        split at hm'
        · next e => subst e; cases hm'; exact hw.ids _ ⟨l, none⟩ hl
        · exact hw.ids id m hm'
      · exact hw.ids id m hm'
    · intro id t a ha
      rw [hinv.1] at ha
      obtain ⟨m, h1, h2, h3⟩ := hw.aw id t a ha
      obtain ⟨ans, h4⟩ := hm id m h1
      exact ⟨_, h4, h2, h3⟩
    · intro k ls hk l hl
      rw [hinv.2.1] at hk
      obtain ⟨ans, h1⟩ := hw.tasks k ls hk l hl
      exact mono l ans h1
    · rw [hinv.1]; exact hw.reach
  | deliver id' runs =>
    simp only [World.step]
    split
    · next l p hl =>
      split
      · obtain ⟨b, aw, who, he, hops, haw⟩ := replyHandler_frame w.inv l.token id' p
        refine ⟨hw.ids, ?_, hw.tasks, ?_⟩
        · intro id t a ha
          simp only [he] at ha
          rcases haw (id, t) with h | ⟨h, _⟩
          · rw [h] at ha; exact hw.aw id t a ha
          · rw [h] at ha; cases ha
        · simp only [he]; exact .transfers hw.reach (hops.wf hbal)
      · exact hw
    · exact hw
  | resume k ms =>
    simp only [World.step]
    split
    · next legs hl =>
      obtain ⟨aw, he, haw⟩ := resume_frame w.inv legs ms
      refine ⟨hw.ids, ?_, ?_, ?_⟩
      · intro id t a ha
        simp only [he] at ha
        rcases haw (id, t) with h | ⟨h, _⟩
        · rw [h] at ha; exact hw.aw id t a ha
        · rw [h] at ha; cases ha
      · intro k' ls hk
        simp only at hk
        rw [Map.get_erase] at hk
        split at hk
        · cases hk
        · exact hw.tasks k' ls hk
      · simp only [he]; exact .transfers (b := w.inv.balances) hw.reach hbal
    · exact hw

theorem hist_inv {w : World} (h : Hist w) : WInv w := by
  induction h with
  | init => exact .init _ _ _ _
  | step e _ ih => exact ih.step e

theorem honest_hist {t : ActorId} {w : World} (h : HonestHist t w) : Hist w := by
  induction h with
  | init => exact .init _ _ _ _
  | step e _ _ ih => exact .step e ih

end Verif
