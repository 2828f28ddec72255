import Verif.Proofs.Attempt
import Verif.Props.Home
import Verif.Props.Told

/-!
# Property C114: a transfer happens or leaves no trace

What the user of the program wants to know about a deposit or a withdrawal with which nothing interferes,
whatever has happened before.
-/

set_option exponentiation.threshold 1000

namespace Verif
open Service Spec Async

variable {w : World} {env : Env} {gas n : Nat} {t : ActorId} {p : Bytes} {m : Option Bool}

/-- C114: a confirmed deposit arrives. The account has exactly the deposited amount more, and nothing else in the
program has changed. -/
theorem C114_deposit (hw : Hist w) (ht : t ≠ 0) (h0 : n ≠ 0) (hg : gasPerTransfer ≤ gas) (hp : env.caller ≠ w.program)
    (hb : bal w.inv.balances env.caller t + n < 2 ^ 256) (hpos : Positive p) :
    Booked w (w.steps (attempt w env gas (.depositSingle t n) p (w.held t + n) m)) env.caller t
      (bal w.inv.balances env.caller t + n) (w.held t + n) :=
  attempt_booked hw rfl rfl (start_deposit h0 ht hg hp rfl hb)
    (handled_credit (Map.get_insert_self _ _ _) (.inl hpos) hpos h0 hb) (fun _ _ => bal_insert ..)

/-- C114: a deposit that the token contract refuses, or during which it fails, leaves no trace. -/
theorem C114_refused_deposit (hw : Hist w) (ht : t ≠ 0) (h0 : n ≠ 0) (hg : gasPerTransfer ≤ gas)
    (hp : env.caller ≠ w.program) (hb : bal w.inv.balances env.caller t + n < 2 ^ 256) (hneg : Negative p ∨ Panic p) :
    Booked w (w.steps (attempt w env gas (.depositSingle t n) p (w.held t) m)) env.caller t
      (bal w.inv.balances env.caller t) (w.held t) := by
  refine attempt_booked hw rfl rfl (start_deposit h0 ht hg hp rfl hb)
    (handled_keep (Map.get_insert_self _ _ _) (.inr hneg) ?_) (fun a u => ?_)
  · intro h
    exact hneg.elim (not_pos_neg h) (not_pos_panic h)
  · split
    next h => obtain ⟨rfl, rfl⟩ := Prod.mk.inj h; rfl
    next => rfl

private theorem held_some {b : Balances} {a u : ActorId} (h0 : n ≠ 0) (h : n ≤ bal b a u) :
    b.get (a, u) = some (bal b a u) := by
  unfold bal at h ⊢
  cases hg : b.get (a, u) with
  | none => rw [hg] at h; exact absurd (Nat.le_zero.1 h) h0
  | some v => rfl

private theorem bal_less {b : Balances} {a u c v : ActorId} (h : n ≤ bal b a u) :
    bal (if n = bal b a u then b.erase (a, u) else b.insert (a, u) (bal b a u - n)) c v =
      if (c, v) = (a, u) then bal b a u - n else bal b c v := by
  split
  next e => rw [bal_erase, ← e, Nat.sub_self]
  next => exact bal_insert ..

/-- C114: a confirmed withdrawal of any part of a balance takes away exactly that part, and nothing else changes. -/
theorem C114_withdrawal (hw : Hist w) (ht : t ≠ 0) (h0 : n ≠ 0) (hg : gasPerTransfer ≤ gas) (hp : env.caller ≠ w.program)
    (hb : n ≤ bal w.inv.balances env.caller t) (hpos : Positive p) :
    Booked w (w.steps (attempt w env gas (.withdrawSingle t (some n)) p (w.held t - n) m)) env.caller t
      (bal w.inv.balances env.caller t - n) (w.held t - n) := by
  refine attempt_booked hw rfl rfl (start_some (held_some h0 hb) hb h0 ht hg hp rfl)
    (handled_keep (Map.get_insert_self _ _ _) (.inl hpos) ?_) (fun a u => bal_less hb)
  rintro (h | h)
  · exact not_pos_neg hpos h
  · exact not_pos_panic hpos h

/-- C114: a withdrawal that the token contract refuses, or during which it fails, leaves no trace: the account has its
balance back. -/
theorem C114_refused_withdrawal (hw : Hist w) (ht : t ≠ 0) (h0 : n ≠ 0) (hg : gasPerTransfer ≤ gas)
    (hp : env.caller ≠ w.program) (hb : n ≤ bal w.inv.balances env.caller t) (hneg : Negative p ∨ Panic p) :
    Booked w (w.steps (attempt w env gas (.withdrawSingle t (some n)) p (w.held t) m)) env.caller t
      (bal w.inv.balances env.caller t) (w.held t) := by
  have hlt := bal_lt hw env.caller t
  have hme : bal (if n = bal w.inv.balances env.caller t then w.inv.balances.erase (env.caller, t)
      else w.inv.balances.insert (env.caller, t) (bal w.inv.balances env.caller t - n)) env.caller t + n =
      bal w.inv.balances env.caller t := by
    rw [bal_less hb, if_pos rfl]; omega
  refine attempt_booked hw rfl rfl (start_some (held_some h0 hb) hb h0 ht hg hp rfl)
    (handled_credit (Map.get_insert_self _ _ _) (.inr hneg) hneg h0 (by dsimp only; rw [hme]; exact hlt)) (fun a u => ?_)
  dsimp only
  rw [bal_insert, hme]
  split
  next => rfl
  next hne => rw [bal_less hb, if_neg hne]

/-- C114: a deposit can be undone. Whoever deposits and withdraws the same amount again, both with the help of the token
contract, leaves the program, and its holdings, exactly as they were. No solvency is needed for this. -/
theorem C114_undo {env' : Env} {gas' : Nat} {p' : Bytes} {m' : Option Bool} (hw : Hist w) (ht : t ≠ 0) (h0 : n ≠ 0)
    (hg : gasPerTransfer ≤ gas) (hg' : gasPerTransfer ≤ gas') (hp : env.caller ≠ w.program) (he : env'.caller = env.caller)
    (hb : bal w.inv.balances env.caller t + n < 2 ^ 256) (hpos : Positive p) (hpos' : Positive p') :
    ∀ v, v = w.steps (attempt w env gas (.depositSingle t n) p (w.held t + n) m) →
      Booked w (v.steps (attempt v env' gas' (.withdrawSingle t (some n)) p' (v.held t - n) m')) env.caller t
        (bal w.inv.balances env.caller t) (w.held t) := by
  rintro v rfl
  have h1 := C114_deposit (m := m) hw ht h0 hg hp hb hpos
  have hv := hist_steps (attempt w env gas (.depositSingle t n) p (w.held t + n) m) hw
  generalize w.steps (attempt w env gas (.depositSingle t n) p (w.held t + n) m) = v at h1 hv
  have h2 := C114_withdrawal (w := v) (env := env') (gas := gas') (m := m') hv ht h0 hg'
    (by rw [he, h1.program]; exact hp) (by rw [he, h1.own]; omega) hpos'
  rw [he, h1.own, h1.holds, Nat.add_sub_cancel, Nat.add_sub_cancel] at h2
  rw [h1.holds, Nat.add_sub_cancel]
  refine ⟨h2.own, h2.holds, fun a u h => (h2.balances a u h).trans (h1.balances a u h),
    fun u h => (h2.held u h).trans (h1.held u h), fun k => (h2.awaiting k).trans (h1.awaiting k),
    fun k => (h2.tasks k).trans (h1.tasks k), ?_, h2.program.trans h1.program, h2.booked.trans h1.booked⟩
  have e1 := h1.rest
  have e2 := h2.rest
  generalize (v.steps _).inv = c at e2
  rw [← e1, ← e2]

/-- C114: and the user is told. Once any intelligible reply has been handled, the waiting command is there, for the right
token and amount, and ends well exactly if it is shown a success; it never reports a reply that was not handled. -/
theorem C114_told {c : ACall} {h : Nat} (hw : Hist w) (ht : t ≠ 0) (h0 : n ≠ 0) (hg : gasPerTransfer ≤ gas)
    (hp : env.caller ≠ w.program) (hr : Readable p)
    (hc : c = .depositSingle t n ∧ bal w.inv.balances env.caller t + n < 2 ^ 256 ∨
      c = .withdrawSingle t (some n) ∧ n ≤ bal w.inv.balances env.caller t) :
    ∀ v, v = w.steps ((attempt w env gas c p h m).take 3) → ∃ l, v.tasks.get w.next = some [l] ∧ l.token = t ∧
      l.amount = n ∧ user l = env.caller ∧
      ∀ r, (resumeSingle v.inv l r).2 = if r = some true then .done else .panicked (failErr l.kind) := by
  have key : ∀ (l : Leg) (b' : Balances) (a : AwaitingTransfer), l.id = w.next → l.token = t →
      start env ⟨w.program, gas, w.next, true, true⟩ w.inv c = .ok
        ({ w.inv with balances := b', awaiting := w.inv.awaiting.insert (w.next, t) a }, [l]) →
      ∀ v, v = w.steps ((attempt w env gas c p h m).take 3) → v.tasks.get w.next = some [l] ∧
        ∀ r, (resumeSingle v.inv l r).2 = if r = some true then .done else .panicked (failErr l.kind) := by
    rintro l b' a hl rfl hs v rfl
    have hn : (replyHandler { w.inv with balances := b', awaiting := w.inv.awaiting.insert (w.next, l.token) a } l.token
        w.next p).awaiting.get (w.next, l.token) = none := by
      rcases replyHandler_some (s := { w.inv with balances := b', awaiting := w.inv.awaiting.insert (w.next, l.token) a })
        (p := p) (Map.get_insert_self _ _ _) with ⟨-, -, e⟩ | ⟨-, -, e⟩ | ⟨hn, -⟩
      · rw [e]; exact Map.get_erase_self _ _
      · rw [e]; exact Map.get_erase_self _ _
      · exact absurd hr hn
    simp only [attempt, List.take, World.steps, World.step, hs, addMsgs, hl, Map.get_insert_self, if_true,
      List.cons_ne_nil, if_false, reduceCtorEq, true_and]
    intro r
    unfold resumeSingle handleTransferResult
    rw [hl, hn]
    by_cases hm : r = some true
    · simp [hm]
    · simp only [hm, if_false]
      cases l.kind <;> rfl
  rintro v hv
  rcases hc with ⟨rfl, hb⟩ | ⟨rfl, hb⟩
  · obtain ⟨h1, h2⟩ := key _ _ _ rfl rfl (start_deposit h0 ht hg hp rfl hb) v hv
    exact ⟨_, h1, rfl, rfl, rfl, h2⟩
  · obtain ⟨h1, h2⟩ := key _ _ _ rfl rfl (start_some (held_some h0 hb) hb h0 ht hg hp rfl) v hv
    exact ⟨_, h1, rfl, rfl, rfl, h2⟩

/-! ## Two tokens at once -/

section
variable {tx ty : ActorId} {nx ny : Nat} {px py : Bytes} {mx my : Option Bool} {first : Bool}

private theorem credit_deposit (b : Nat) : b + credit .deposit n p = after .deposit n p b := by
  unfold credit after
  by_cases h : Positive p
  · rw [if_pos (show Credits .deposit p from h)]; simp only [h, if_true]
  · rw [if_neg (show ¬ Credits .deposit p from h)]; simp only [h, if_false]; rfl

private theorem credit_withdrawal {b : Nat} (hr : Readable p) (h : n ≤ b) :
    b - n + credit .withdrawal n p = after .withdrawal n p b := by
  unfold credit after
  by_cases hp : Positive p
  · rw [if_neg (show ¬ Credits .withdrawal p from fun e => e.elim (not_pos_neg hp) (not_pos_panic hp))]
    simp only [hp, if_true]; rfl
  · rw [if_pos (show Credits .withdrawal p from hr.resolve_left hp)]
    simp only [hp, if_false]; omega

private theorem credit_le : credit .deposit n p ≤ n := by
  unfold credit; split
  · exact le_rfl
  · exact Nat.zero_le _

/-- C114: a deposit of two tokens. Each of the two arrives exactly if its own contract confirms it, whatever becomes of the
other and whichever reply is first. -/
theorem C114_deposit_pair (hw : Hist w) (hne : tx ≠ ty) (htx : tx ≠ 0) (hty : ty ≠ 0) (h0x : nx ≠ 0) (h0y : ny ≠ 0)
    (hg : 2 * gasPerTransfer ≤ gas) (hp : env.caller ≠ w.program) (hbx : bal w.inv.balances env.caller tx + nx < 2 ^ 256)
    (hby : bal w.inv.balances env.caller ty + ny < 2 ^ 256) (hrx : Readable px) (hry : Readable py) :
    BookedPair w (w.steps (attemptPair w env gas (.depositPair tx nx ty ny) first px py
        (after .deposit nx px (w.held tx)) (after .deposit ny py (w.held ty)) mx my)) env.caller tx ty
      (after .deposit nx px (bal w.inv.balances env.caller tx)) (after .deposit ny py (bal w.inv.balances env.caller ty))
      (after .deposit nx px (w.held tx)) (after .deposit ny py (w.held ty)) := by
  have lx := credit_le (n := nx) (p := px)
  have ly := credit_le (n := ny) (p := py)
  rw [← credit_deposit (bal w.inv.balances env.caller tx), ← credit_deposit (bal w.inv.balances env.caller ty)]
  refine pair_booked (b0 := w.inv.balances) (x := ⟨w.next, tx, env.caller, w.program, nx, .deposit⟩)
    (y := ⟨w.next + 1, ty, env.caller, w.program, ny, .deposit⟩) hw hne rfl rfl rfl rfl ?_ (fun _ _ _ _ => rfl) h0x h0y hrx hry
    (by omega) (by omega)
  simp only [start, depositPair]
  rw [failIf_neg hne, ok_bind, failIf_neg (by rw [can_increase hbx, can_increase hby]; simp), ok_bind]
  exact transferBoth_both h0x h0y htx hty hg hp rfl rfl

private theorem bal_take {b : Balances} {a u : ActorId} (h0 : n ≠ 0) (h : n ≤ bal b a u) :
    ∃ b', takeLeg b u a (some n) = (b', .ok n) ∧
      ∀ c v, bal b' c v = if (c, v) = (a, u) then bal b a u - n else bal b c v := by
  have hd := decrease_some_ok.2 (.inr ⟨h0, _, held_some h0 h, h, rfl⟩)
  unfold takeLeg
  rw [hd]
  exact ⟨_, rfl, fun c v => bal_less h⟩

/-- C114: and a withdrawal of two tokens. Each of the two is taken from the account exactly if its own contract confirms
the transfer; otherwise the account has it back. -/
theorem C114_withdraw_pair (hw : Hist w) (hne : tx ≠ ty) (htx : tx ≠ 0) (hty : ty ≠ 0) (h0x : nx ≠ 0) (h0y : ny ≠ 0)
    (hg : 2 * gasPerTransfer ≤ gas) (hp : env.caller ≠ w.program) (hbx : nx ≤ bal w.inv.balances env.caller tx)
    (hby : ny ≤ bal w.inv.balances env.caller ty) (hrx : Readable px) (hry : Readable py) :
    BookedPair w (w.steps (attemptPair w env gas (.withdrawPair tx (some nx) ty (some ny)) first px py
        (after .withdrawal nx px (w.held tx)) (after .withdrawal ny py (w.held ty)) mx my)) env.caller tx ty
      (after .withdrawal nx px (bal w.inv.balances env.caller tx))
      (after .withdrawal ny py (bal w.inv.balances env.caller ty))
      (after .withdrawal nx px (w.held tx)) (after .withdrawal ny py (w.held ty)) := by
  have hxy : ((env.caller, tx) : ActorId × ActorId) ≠ (env.caller, ty) := fun e => hne (congrArg Prod.snd e)
  obtain ⟨b1, e1, q1⟩ := bal_take h0x hbx
  have hby1 : bal b1 env.caller ty = bal w.inv.balances env.caller ty := by rw [q1, if_neg hxy.symm]
  obtain ⟨b2, e2, q2⟩ := bal_take (b := b1) (a := env.caller) (u := ty) h0y (by rw [hby1]; exact hby)
  have ex : bal b2 env.caller tx = bal w.inv.balances env.caller tx - nx := by
    rw [q2, if_neg hxy, q1, if_pos rfl]
  have ey : bal b2 env.caller ty = bal w.inv.balances env.caller ty - ny := by rw [q2, if_pos rfl, hby1]
  have lx := bal_lt hw env.caller tx
  have ly := bal_lt hw env.caller ty
  have cx := credit_withdrawal hrx hbx
  have cy := credit_withdrawal hry hby
  have ax : after .withdrawal nx px (bal w.inv.balances env.caller tx) ≤ bal w.inv.balances env.caller tx := by
    unfold after; dsimp only; split <;> omega
  have ay : after .withdrawal ny py (bal w.inv.balances env.caller ty) ≤ bal w.inv.balances env.caller ty := by
    unfold after; dsimp only; split <;> omega
  rw [← cx, ← cy, ← ex, ← ey]
  refine pair_booked (b0 := b2) (x := ⟨w.next, tx, w.program, env.caller, nx, .withdrawal⟩)
    (y := ⟨w.next + 1, ty, w.program, env.caller, ny, .withdrawal⟩) hw hne rfl rfl rfl rfl ?_ (fun a u h1 h2 => ?_) h0x h0y hrx hry
    (by rw [ex, cx]; omega) (by rw [ey, cy]; omega)
  · simp only [start, withdrawPair]
    rw [failIf_neg hne, ok_bind, e1, e2]
    exact transferBoth_both h0x h0y htx hty hg hp rfl rfl
  · rw [q2, if_neg h2, q1, if_neg h1]

end

/-- Account 3 of `HomeDemo` deposits 250 more of token 6 and takes 250 out again: the balance is 10^9 + 250 in between and
10^9 afterwards. -/
example : ∃ v, v = (HomeDemo.fresh.steps HomeDemo.well).world.steps (attempt (HomeDemo.fresh.steps HomeDemo.well).world
      (HomeDemo.by_ 3) (10 ^ 12) (.depositSingle 6 250) (response 1)
      ((HomeDemo.fresh.steps HomeDemo.well).world.held 6 + 250) (some true)) ∧
    bal v.inv.balances 3 6 = 10 ^ 9 + 250 ∧
    bal (v.steps (attempt v (HomeDemo.by_ 3) (10 ^ 12) (.withdrawSingle 6 (some 250)) (response 1)
      (v.held 6 - 250) (some true))).inv.balances 3 6 = 10 ^ 9 := by
  refine ⟨_, rfl, ?_⟩
  decide +kernel

/-- A withdrawal of the whole billion, answered by a text: the balance is 0 while waiting and back afterwards. -/
example : bal ((HomeDemo.fresh.steps HomeDemo.well).world.step
      (.start (HomeDemo.by_ 3) (10 ^ 12) true true (.withdrawSingle 6 (some (10 ^ 9))))).inv.balances 3 6 = 0 ∧
    bal ((HomeDemo.fresh.steps HomeDemo.well).world.steps (attempt (HomeDemo.fresh.steps HomeDemo.well).world
      (HomeDemo.by_ 3) (10 ^ 12) (.withdrawSingle 6 (some (10 ^ 9))) [20, 112, 97, 110, 105, 99]
      ((HomeDemo.fresh.steps HomeDemo.well).world.held 6) none)).inv.balances 3 6 = 10 ^ 9 := by
  decide +kernel

/-- A refused deposit of 250: the balance stays, and the user is told of an unrecoverable failure. -/
example : ∃ v, v = (HomeDemo.fresh.steps HomeDemo.well).world.steps ((attempt (HomeDemo.fresh.steps HomeDemo.well).world
      (HomeDemo.by_ 3) (10 ^ 12) (.depositSingle 6 250) (response 0)
      ((HomeDemo.fresh.steps HomeDemo.well).world.held 6) (some false)).take 3) ∧
    bal v.inv.balances 3 6 = 10 ^ 9 ∧
    ((v.tasks.get (HomeDemo.fresh.steps HomeDemo.well).world.next).map fun l =>
      l.map fun l => (resumeSingle v.inv l (some false)).2) = some [.panicked .UnrecoverableTransferError] := by
  refine ⟨_, rfl, ?_⟩
  decide +kernel

/-- A deposit of 250 of token 6 and 70 of token 7, whose contract refuses: the first arrives, the second does not. The
reply of token 7 comes first. -/
example : ∃ v, v = (HomeDemo.fresh.steps HomeDemo.well).world.steps (attemptPair
      (HomeDemo.fresh.steps HomeDemo.well).world (HomeDemo.by_ 3) (10 ^ 12) (.depositPair 6 250 7 70) false (response 1)
      (response 0) ((HomeDemo.fresh.steps HomeDemo.well).world.held 6 + 250)
      ((HomeDemo.fresh.steps HomeDemo.well).world.held 7) (some true) (some false)) ∧
    bal v.inv.balances 3 6 = 10 ^ 9 + 250 ∧
    bal v.inv.balances 3 7 = bal (HomeDemo.fresh.steps HomeDemo.well).world.inv.balances 3 7 := by
  refine ⟨_, rfl, ?_⟩
  decide +kernel

end Verif
