import Verif.Proofs.Home
import Verif.Spec.Attempt

/-! # A token transfer from request to end -/

set_option exponentiation.threshold 1000

namespace Verif
open Service Spec Async

variable {w : World} {env : Env} {gas n h : Nat} {t : ActorId} {p : Bytes} {m : Option Bool}

theorem bal_insert (b : Balances) (who t a u : ActorId) (v : Nat) :
    bal (b.insert (who, t) v) a u = if (a, u) = (who, t) then v else bal b a u := by
  unfold bal
  rw [Map.get_insert]
  by_cases h : (a, u) = (who, t)
  · rw [if_pos h, if_pos h]
  · rw [if_neg h, if_neg h]

theorem bal_lt (hw : Hist w) (a u : ActorId) : bal w.inv.balances a u < 2 ^ 256 := by
  unfold bal
  cases hg : w.inv.balances.get (a, u) with
  | none => exact Nat.two_pow_pos _
  | some v => exact (reach_balWF (hist_inv hw).reach _ _ hg).2

theorem start_deposit {r : SendEnv} {s : Inv} (h0 : n ≠ 0) (ht : t ≠ VARA) (hg : TRANSFER_COST ≤ r.gas)
    (hp : env.caller ≠ r.program) (hs : r.sent1 = true) (hb : bal s.balances env.caller t + n < 2 ^ 256) :
    start env r s (.depositSingle t n) = .ok
      ({ s with balances := s.balances, awaiting := s.awaiting.insert (r.next, t) ⟨env.caller, n, .deposit⟩ },
        [⟨r.next, t, env.caller, r.program, n, .deposit⟩]) := by
  have hc : ¬ canIncreaseTokenBalance s.balances t env.caller n = false := by
    unfold canIncreaseTokenBalance
    unfold bal at hb
    cases hget : s.balances.get (env.caller, t) with
    | none => simp
    | some v => rw [hget] at hb; simpa using hb
  simp only [start, depositSingle]
  rw [failIf_neg hc, ok_bind]
  unfold transferSingle
  rw [failIf_neg ht, ok_bind, failIf_neg (Nat.not_lt.2 hg), ok_bind]
  simp only [ends, sendTransfer]
  simp only [failIf, h0, hp, hs, if_false, ok_bind, Bool.true_eq_false, reduceIte]
  rfl

theorem start_some {r : SendEnv} {s : Inv} {v : Nat} (hv : s.balances.get (env.caller, t) = some v) (hn : n ≤ v)
    (h0 : n ≠ 0) (ht : t ≠ VARA) (hg : TRANSFER_COST ≤ r.gas) (hp : env.caller ≠ r.program) (hs : r.sent1 = true) :
    start env r s (.withdrawSingle t (some n)) = .ok
      ({ s with balances := if n = v then s.balances.erase (env.caller, t) else s.balances.insert (env.caller, t) (v - n),
                awaiting := s.awaiting.insert (r.next, t) ⟨env.caller, n, .withdrawal⟩ },
        [⟨r.next, t, r.program, env.caller, n, .withdrawal⟩]) := by
  have hd := decrease_some_ok.2 (.inr ⟨h0, v, hv, hn, rfl⟩)
  simp only [start, withdrawSingle, takeSingle]
  rw [failIf_neg h0, ok_bind, hd, ok_bind]
  rw [if_pos h0]
  unfold transferSingle
  rw [failIf_neg ht, ok_bind, failIf_neg (Nat.not_lt.2 hg), ok_bind]
  simp only [ends, sendTransfer]
  have hp' : ¬ r.program = env.caller := Ne.symm hp
  simp only [failIf, h0, hp', hs, if_false, ok_bind, Bool.true_eq_false, reduceIte]
  rfl

/-- the whole course of a transfer -/
theorem attempt_eq {c : ACall} {b' b'' : Balances} {l : Leg} {a : AwaitingTransfer} (hl : l.id = w.next)
    (hs : start env ⟨w.program, gas, w.next, true, true⟩ w.inv c = .ok
      ({ w.inv with balances := b', awaiting := w.inv.awaiting.insert (w.next, l.token) a }, [l]))
    (hr : replyHandler { w.inv with balances := b', awaiting := w.inv.awaiting.insert (w.next, l.token) a } l.token w.next p =
      { w.inv with balances := b'', awaiting := (w.inv.awaiting.insert (w.next, l.token) a).erase (w.next, l.token) }) :
    w.steps (attempt w env gas c p h m) =
      { w with
        inv := { w.inv with balances := b'',
                            awaiting := ((w.inv.awaiting.insert (w.next, l.token) a).erase (w.next, l.token)).erase
                              (w.next, l.token) }
        next := w.next + 2
        msgs := (w.msgs.insert w.next ⟨l, none⟩).insert w.next ⟨l, some p⟩
        tasks := (w.tasks.insert w.next [l]).erase w.next
        held := setHeld w.held l.token h } := by
  simp only [attempt, World.steps, World.step, hs, addMsgs, hl, Map.get_insert_self, if_true, hr, resume_one,
    List.cons_ne_nil, if_false, reduceCtorEq]

theorem attempt_booked {c : ACall} {b' b'' : Balances} {l : Leg} {a : AwaitingTransfer} {v : Nat} (hw : Hist w)
    (hl : l.id = w.next) (ht : l.token = t)
    (hs : start env ⟨w.program, gas, w.next, true, true⟩ w.inv c = .ok
      ({ w.inv with balances := b', awaiting := w.inv.awaiting.insert (w.next, t) a }, [l]))
    (hr : replyHandler { w.inv with balances := b', awaiting := w.inv.awaiting.insert (w.next, t) a } t w.next p =
      { w.inv with balances := b'', awaiting := (w.inv.awaiting.insert (w.next, t) a).erase (w.next, t) })
    (hb : ∀ a u, bal b'' a u = if (a, u) = (env.caller, t) then v else bal w.inv.balances a u) :
    Booked w (w.steps (attempt w env gas c p h m)) env.caller t v h := by
  subst ht
  obtain ⟨-, htk, haw⟩ := fresh_ids hw
  rw [attempt_eq hl hs hr]
  refine ⟨(hb _ _).trans (if_pos rfl), if_pos rfl, fun a u hne => (hb _ _).trans (if_neg hne), fun u hne => if_neg hne,
    fun k => ?_, fun k => ?_, rfl, rfl, rfl⟩
  · show (((w.inv.awaiting.insert (w.next, l.token) a).erase (w.next, l.token)).erase (w.next, l.token)).get k = _
    by_cases hk : k = (w.next, l.token)
    · rw [hk, Map.get_erase_self, haw]
    · rw [Map.get_erase_ne _ hk, Map.get_erase_ne _ hk, Map.get_insert_ne _ _ hk]
  · show ((w.tasks.insert w.next [l]).erase w.next).get k = _
    by_cases hk : k = w.next
    · rw [hk, Map.get_erase_self, htk]
    · rw [Map.get_erase_ne _ hk, Map.get_insert_ne _ _ hk]

/-- an answer that entitles the user to nothing -/
theorem handled_keep {s : Inv} {id : Nat} {a : AwaitingTransfer} (ha : s.awaiting.get (id, t) = some a)
    (hr : Readable p) (hc : ¬ Credits a.transferType p) :
    replyHandler s t id p = { s with awaiting := s.awaiting.erase (id, t) } := by
  rcases replyHandler_some (p := p) ha with ⟨-, h, -⟩ | ⟨-, -, e⟩ | ⟨h, -⟩
  · exact absurd h hc
  · exact e
  · exact absurd hr h

/-- an answer that entitles the user to be credited -/
theorem handled_credit {s : Inv} {id : Nat} {a : AwaitingTransfer} (ha : s.awaiting.get (id, t) = some a)
    (hr : Readable p) (hc : Credits a.transferType p) (h0 : a.amount ≠ 0)
    (hb : bal s.balances a.account t + a.amount < 2 ^ 256) :
    replyHandler s t id p = { s with balances := s.balances.insert (a.account, t) (bal s.balances a.account t + a.amount),
                                     awaiting := s.awaiting.erase (id, t) } := by
  have hbal : balOf s.balances a.account t = bal s.balances a.account t := by
    unfold balOf bal
    cases s.balances.get (a.account, t) <;> rfl
  have hi : increaseTokenBalance s.balances t a.account a.amount =
      .ok (s.balances.insert (a.account, t) (bal s.balances a.account t + a.amount)) :=
    increase_ok.2 (.inr ⟨h0, by rw [hbal]; exact hb, by rw [hbal]⟩)
  rcases replyHandler_some (p := p) ha with ⟨-, -, e⟩ | ⟨-, h, -⟩ | ⟨h, -⟩
  · rw [e]
    unfold creditOrLog
    rw [hi]
  · exact absurd hc h
  · exact absurd hr h

/-! ## Two tokens -/

/-- what a user is credited when a reply is handled -/
noncomputable def credit (kind : TransferType) (n : Nat) (p : Bytes) : Nat :=
  open Classical in if Credits kind p then n else 0

/-- a token contract replies and the reply is handled -/
theorem leg_step {v : World} {id : Nat} {l : Leg} {who : ActorId} {kind : TransferType} (hl : l.token = t)
    (hm : v.msgs.get id = some ⟨l, none⟩) (ha : v.inv.awaiting.get (id, t) = some ⟨who, n, kind⟩) (hr : Readable p)
    (h0 : n ≠ 0) (hb : bal v.inv.balances who t + credit kind n p < 2 ^ 256) :
    ∃ b'', (v.step (.answer id p h)).step (.deliver id true) =
      { v with msgs := v.msgs.insert id ⟨l, some p⟩, held := setHeld v.held t h,
               inv := { v.inv with balances := b'', awaiting := v.inv.awaiting.erase (id, t) } } ∧
      ∀ a u, bal b'' a u = if (a, u) = (who, t) then bal v.inv.balances who t + credit kind n p
        else bal v.inv.balances a u := by
  subst hl
  by_cases hc : Credits kind p
  · have e : credit kind n p = n := if_pos hc
    rw [e] at hb ⊢
    refine ⟨_, ?_, fun a u => bal_insert ..⟩
    simp only [World.step, hm, Map.get_insert_self, if_true]
    rw [handled_credit ha hr hc h0 hb]
  · have e : credit kind n p = 0 := if_neg hc
    rw [e] at hb ⊢
    refine ⟨v.inv.balances, ?_, fun a u => ?_⟩
    · simp only [World.step, hm, Map.get_insert_self, if_true]
      rw [handled_keep ha hr hc]
    · split
      next h => obtain ⟨rfl, rfl⟩ := Prod.mk.inj h; rfl
      next => rfl

variable {tx ty : ActorId} {nx ny hx hy : Nat} {px py : Bytes} {mx my : Option Bool} {kind : TransferType} {first : Bool}

theorem fresh_next {w : World} (h : Hist w) (t : ActorId) : w.inv.awaiting.get (w.next + 1, t) = none := by
  have hw := hist_inv h
  cases hg : w.inv.awaiting.get (w.next + 1, t) with
  | none => rfl
  | some a =>
    obtain ⟨m, h1, -⟩ := hw.aw _ _ _ hg
    have := (hw.ids _ _ h1).1
    omega

theorem pair_booked {c : ACall} {b0 : Balances} {x y : Leg} (hw : Hist w) (hne : tx ≠ ty)
    (hxi : x.id = w.next) (hyi : y.id = w.next + 1) (hxt : x.token = tx) (hyt : y.token = ty)
    (hs : start env ⟨w.program, gas, w.next, true, true⟩ w.inv c = .ok
      ({ w.inv with balances := b0, awaiting := ((w.inv.awaiting.insert (w.next, tx) ⟨env.caller, nx, kind⟩).insert
          (w.next + 1, ty) ⟨env.caller, ny, kind⟩) }, [x, y]))
    (hb0 : ∀ a u, (a, u) ≠ (env.caller, tx) → (a, u) ≠ (env.caller, ty) → bal b0 a u = bal w.inv.balances a u)
    (h0x : nx ≠ 0) (h0y : ny ≠ 0) (hrx : Readable px) (hry : Readable py)
    (hbx : bal b0 env.caller tx + credit kind nx px < 2 ^ 256) (hby : bal b0 env.caller ty + credit kind ny py < 2 ^ 256) :
    BookedPair w (w.steps (attemptPair w env gas c first px py hx hy mx my)) env.caller tx ty
      (bal b0 env.caller tx + credit kind nx px) (bal b0 env.caller ty + credit kind ny py) hx hy := by
  obtain ⟨-, htk, haw⟩ := fresh_ids hw
  have haw' := fresh_next hw
  have hk : ((w.next, tx) : Nat × ActorId) ≠ (w.next + 1, ty) := fun e => by have := congrArg Prod.fst e; simp at this
  have hid : w.next ≠ w.next + 1 := by omega
  have hxy : ((env.caller, tx) : ActorId × ActorId) ≠ (env.caller, ty) := fun e => hne (congrArg Prod.snd e)
  set aw := (w.inv.awaiting.insert (w.next, tx) ⟨env.caller, nx, kind⟩).insert
          (w.next + 1, ty) ⟨env.caller, ny, kind⟩ with hawd
  have hax : aw.get (w.next, tx) = some ⟨env.caller, nx, kind⟩ := by
    rw [hawd, Map.get_insert_ne _ _ hk, Map.get_insert_self]
  have hay : aw.get (w.next + 1, ty) = some ⟨env.caller, ny, kind⟩ := Map.get_insert_self _ _ _
  set v : World := { w with
    inv := { w.inv with balances := b0, awaiting := aw }
    next := w.next + 2
    msgs := (w.msgs.insert w.next ⟨x, none⟩).insert (w.next + 1) ⟨y, none⟩
    tasks := w.tasks.insert w.next [x, y] } with hv
  have e0 : w.step (.start env gas true true c) = v := by
    simp only [World.step, hs, addMsgs, hxi, hyi, List.cons_ne_nil, if_false]
    rfl
  have hmx : v.msgs.get w.next = some ⟨x, none⟩ := by
    show ((w.msgs.insert w.next _).insert (w.next + 1) _).get w.next = _
    rw [Map.get_insert_ne _ _ hid, Map.get_insert_self]
  have hmy : v.msgs.get (w.next + 1) = some ⟨y, none⟩ := Map.get_insert_self _ _ _
  have fin : ∀ (b : Balances) (a : Map (Nat × ActorId) AwaitingTransfer) (M : Map Nat Msg) (H : ActorId → Nat) (z : World),
      z = { v with msgs := M, held := H, inv := { v.inv with balances := b, awaiting := a } } →
      (∀ k, k ≠ (w.next, tx) → k ≠ (w.next + 1, ty) → a.get k = w.inv.awaiting.get k) →
      H tx = hx → H ty = hy → (∀ u, u ≠ tx → u ≠ ty → H u = w.held u) →
      bal b env.caller tx = bal b0 env.caller tx + credit kind nx px →
      bal b env.caller ty = bal b0 env.caller ty + credit kind ny py →
      (∀ c u, (c, u) ≠ (env.caller, tx) → (c, u) ≠ (env.caller, ty) → bal b c u = bal b0 c u) →
      BookedPair w (z.step (.resume w.next [mx, my])) env.caller tx ty
        (bal b0 env.caller tx + credit kind nx px) (bal b0 env.caller ty + credit kind ny py) hx hy := by
    rintro b a M H z rfl ha1 hH1 hH2 hH3 hb1 hb2 hb3
    have htv : v.tasks.get w.next = some [x, y] := Map.get_insert_self _ _ _
    simp only [World.step, htv, resume_two, hxi, hyi, hxt, hyt]
    refine ⟨hb1, hb2, hH1, hH2, fun c u q1 q2 => (hb3 c u q1 q2).trans (hb0 c u q1 q2), hH3, fun k => ?_, fun k => ?_,
      rfl, rfl, rfl⟩
    · show ((a.erase (w.next, tx)).erase (w.next + 1, ty)).get k = _
      by_cases k1 : k = (w.next + 1, ty)
      · rw [k1, Map.get_erase_self, haw']
      · rw [Map.get_erase_ne _ k1]
        by_cases k2 : k = (w.next, tx)
        · rw [k2, Map.get_erase_self, haw]
        · rw [Map.get_erase_ne _ k2, ha1 k k2 k1]
    · show ((w.tasks.insert w.next [x, y]).erase w.next).get k = _
      by_cases k1 : k = w.next
      · rw [k1, Map.get_erase_self, htk]
      · rw [Map.get_erase_ne _ k1, Map.get_insert_ne _ _ k1]
  have awk : ∀ k, k ≠ (w.next, tx) → k ≠ (w.next + 1, ty) → aw.get k = w.inv.awaiting.get k := by
    intro k k1 k2
    rw [hawd, Map.get_insert_ne _ _ k2, Map.get_insert_ne _ _ k1]
  cases first with
  | true =>
    obtain ⟨b1, e1, q1⟩ := leg_step (v := v) (h := hx) hxt hmx hax hrx h0x hbx
    obtain ⟨b2, e2, q2⟩ := leg_step (v := (v.step (.answer w.next px hx)).step (.deliver w.next true)) (h := hy) (id := w.next + 1)
      (l := y) (who := env.caller) (kind := kind) (n := ny) (p := py) hyt
      (by rw [e1]; show (v.msgs.insert w.next _).get (w.next + 1) = _; rw [Map.get_insert_ne _ _ hid.symm, hmy])
      (by rw [e1]; show (aw.erase (w.next, tx)).get (w.next + 1, ty) = _; rw [Map.get_erase_ne _ hk.symm, hay]) hry h0y
      (by rw [e1]; show bal b1 env.caller ty + _ < _; rw [q1, if_neg hxy.symm]; exact hby)
    rw [e1] at e2 q2
    simp only [attemptPair, if_true, List.cons_append, List.nil_append, World.steps, e0]
    rw [e1]
    refine fin b2 _ _ _ _ e2 (fun k k1 k2 => ?_) ?_ ?_ (fun u u1 u2 => ?_) ?_ ?_ (fun c u c1 c2 => ?_)
    · show ((aw.erase (w.next, tx)).erase (w.next + 1, ty)).get k = _
      rw [Map.get_erase_ne _ k2, Map.get_erase_ne _ k1, awk k k1 k2]
    · show setHeld (setHeld w.held tx hx) ty hy tx = hx
      simp [setHeld, hne]
    · show setHeld (setHeld w.held tx hx) ty hy ty = hy
      simp [setHeld]
    · show setHeld (setHeld w.held tx hx) ty hy u = _
      simp [setHeld, u1, u2]
    · rw [q2, if_neg hxy]
      exact (q1 _ _).trans (if_pos rfl)
    · rw [q2, if_pos rfl]
      show bal b1 env.caller ty + _ = _
      rw [q1, if_neg hxy.symm]
    · rw [q2, if_neg c2]
      exact (q1 _ _).trans (if_neg c1)
  | false =>
    obtain ⟨b1, e1, q1⟩ := leg_step (v := v) (h := hy) hyt hmy hay hry h0y hby
    obtain ⟨b2, e2, q2⟩ := leg_step (v := (v.step (.answer (w.next + 1) py hy)).step (.deliver (w.next + 1) true)) (h := hx)
      (id := w.next) (l := x) (who := env.caller) (kind := kind) (n := nx) (p := px) hxt
      (by rw [e1]; show (v.msgs.insert (w.next + 1) _).get w.next = _; rw [Map.get_insert_ne _ _ hid, hmx])
      (by rw [e1]; show (aw.erase (w.next + 1, ty)).get (w.next, tx) = _; rw [Map.get_erase_ne _ hk, hax]) hrx h0x
      (by rw [e1]; show bal b1 env.caller tx + _ < _; rw [q1, if_neg hxy]; exact hbx)
    rw [e1] at e2 q2
    simp only [attemptPair, if_false, List.cons_append, List.nil_append, World.steps, e0, Bool.false_eq_true]
    rw [e1]
    refine fin b2 _ _ _ _ e2 (fun k k1 k2 => ?_) ?_ ?_ (fun u u1 u2 => ?_) ?_ ?_ (fun c u c1 c2 => ?_)
    · show ((aw.erase (w.next + 1, ty)).erase (w.next, tx)).get k = _
      rw [Map.get_erase_ne _ k1, Map.get_erase_ne _ k2, awk k k1 k2]
    · show setHeld (setHeld w.held ty hy) tx hx tx = hx
      simp [setHeld]
    · show setHeld (setHeld w.held ty hy) tx hx ty = hy
      simp [setHeld, hne.symm]
    · show setHeld (setHeld w.held ty hy) tx hx u = _
      simp [setHeld, u1, u2]
    · rw [q2, if_pos rfl]
      show bal b1 env.caller tx + _ = _
      rw [q1, if_neg hxy]
    · rw [q2, if_neg hxy.symm]
      exact (q1 _ _).trans (if_pos rfl)
    · rw [q2, if_neg c1]
      exact (q1 _ _).trans (if_neg c2)

theorem can_increase {b : Balances} {who : ActorId} (hb : bal b who t + n < 2 ^ 256) :
    canIncreaseTokenBalance b t who n = true := by
  unfold canIncreaseTokenBalance
  unfold bal at hb
  cases hget : b.get (who, t) with
  | none => rfl
  | some v => rw [hget] at hb; simpa using hb

theorem transferBoth_both {r : SendEnv} {s : Inv} {caller : ActorId} (h0x : nx ≠ 0) (h0y : ny ≠ 0) (hx : tx ≠ VARA)
    (hy : ty ≠ VARA) (hg : 2 * TRANSFER_COST ≤ r.gas) (hp : caller ≠ r.program) (h1 : r.sent1 = true) (h2 : r.sent2 = true) :
    transferBoth r s caller tx nx ty ny kind = .ok
      ({ s with awaiting := (s.awaiting.insert (r.next, tx) ⟨caller, nx, kind⟩).insert (r.next + 1, ty) ⟨caller, ny, kind⟩ },
        [⟨r.next, tx, (ends kind caller r.program).1, (ends kind caller r.program).2, nx, kind⟩,
         ⟨r.next + 1, ty, (ends kind caller r.program).1, (ends kind caller r.program).2, ny, kind⟩]) := by
  unfold transferBoth
  rw [if_pos ⟨h0x, h0y⟩]
  unfold transferPair
  rw [failIf_neg (by simp [hx, hy]), ok_bind, failIf_neg (Nat.not_lt.2 hg), ok_bind]
  have hp' : ¬ r.program = caller := Ne.symm hp
  cases kind <;>
  · simp only [ends, sendTransfer, account]
    simp only [failIf, h0x, h0y, hp, hp', h1, h2, if_false, ok_bind, Bool.true_eq_false, reduceIte]
    rfl

end Verif
