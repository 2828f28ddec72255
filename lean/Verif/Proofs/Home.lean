import Verif.Proofs.Whole
import Verif.Proofs.Told
import Verif.Proofs.Ledger
import Verif.Spec.Home

/-! # Taking tokens out of the system -/

set_option exponentiation.threshold 1000

namespace Verif
open Service Spec Async

variable {x : Coins} {env : Env} {gas : Nat} {t : ActorId}

theorem start_all {r : SendEnv} {s : Inv} {b : Nat} (hb : s.balances.get (env.caller, t) = some b) (h0 : b ≠ 0)
    (ht : t ≠ VARA) (hg : TRANSFER_COST ≤ r.gas) (hp : env.caller ≠ r.program) (hs : r.sent1 = true) :
    start env r s (.withdrawSingle t none) = .ok
      ({ s with balances := s.balances.erase (env.caller, t),
                awaiting := s.awaiting.insert (r.next, t) ⟨env.caller, b, .withdrawal⟩ },
        [⟨r.next, t, r.program, env.caller, b, .withdrawal⟩]) := by
  have hd : decreaseTokenBalance s.balances t env.caller none = .ok (s.balances.erase (env.caller, t), b) :=
    decrease_none_ok.2 ⟨b, hb, rfl⟩
  simp only [start, withdrawSingle, takeSingle, hd, ok_bind]
  rw [if_pos h0]
  unfold transferSingle
  rw [failIf_neg ht, ok_bind, failIf_neg (Nat.not_lt.2 hg), ok_bind]
  simp only [ends, sendTransfer]
  have hp' : ¬ r.program = env.caller := Ne.symm hp
  simp only [failIf, h0, hp', hs, if_false, ok_bind, Bool.true_eq_false, reduceIte]
  rfl

theorem start_none {r : SendEnv} {s : Inv} (hb : s.balances.get (env.caller, t) = none) :
    start env r s (.withdrawSingle t none) = .ok (s, []) := by
  have hd : decreaseTokenBalance s.balances t env.caller none = .error (.inv .NoBalanceForTheToken) := by
    unfold decreaseTokenBalance
    rw [hb]
    rfl
  simp only [start, withdrawSingle, takeSingle, hd, ok_bind]
  rfl

theorem positive_response : Positive (response 1) := List.prefix_refl _

/-- a confirmed withdrawal -/
theorem handled {s : Inv} {id : Nat} {a : AwaitingTransfer} (ha : s.awaiting.get (id, t) = some a)
    (hk : a.transferType = .withdrawal) :
    replyHandler s t id (response 1) = { s with awaiting := s.awaiting.erase (id, t) } := by
  rcases replyHandler_some (p := response 1) ha with ⟨-, h, -⟩ | ⟨-, -, e⟩ | ⟨h, -⟩
  · rw [hk] at h
    rcases h with h | h
    · exact absurd h (not_pos_neg positive_response)
    · exact absurd h (not_pos_panic positive_response)
  · exact e
  · exact absurd (.inl positive_response) h

theorem fresh_ids {w : World} (h : Hist w) : w.msgs.get w.next = none ∧ w.tasks.get w.next = none ∧
    ∀ t, w.inv.awaiting.get (w.next, t) = none := by
  have hw := hist_inv h
  have hm : w.msgs.get w.next = none := by
    cases hg : w.msgs.get w.next with
    | none => rfl
    | some m => have := (hw.ids _ _ hg).1; omega
  refine ⟨hm, ?_, ?_⟩
  · cases hg : w.tasks.get w.next with
    | none => rfl
    | some legs =>
      exfalso
      rcases ((hist_told h).tasks _ _ hg).2 with ⟨l, e, e'⟩ | ⟨a, b, e, e', -⟩
      · obtain ⟨ans, h1⟩ := hw.tasks _ _ hg l (by simp [e])
        rw [e', hm] at h1; cases h1
      · obtain ⟨ans, h1⟩ := hw.tasks _ _ hg a (by simp [e])
        rw [e', hm] at h1; cases h1
  · intro t
    cases hg : w.inv.awaiting.get (w.next, t) with
    | none => rfl
    | some a =>
      obtain ⟨m, h1, -⟩ := hw.aw _ _ _ hg
      rw [hm] at h1; cases h1

theorem start_zero {r : SendEnv} {s : Inv} (hb : s.balances.get (env.caller, t) = some 0) :
    start env r s (.withdrawSingle t none) = .ok ({ s with balances := s.balances.erase (env.caller, t) }, []) := by
  have hd : decreaseTokenBalance s.balances t env.caller none = .ok (s.balances.erase (env.caller, t), 0) :=
    decrease_none_ok.2 ⟨0, hb, rfl⟩
  simp only [start, withdrawSingle, takeSingle, hd, ok_bind]
  rfl

theorem bal_erase (b : Balances) (who t a u : ActorId) :
    bal (b.erase (who, t)) a u = if (a, u) = (who, t) then 0 else bal b a u := by
  unfold bal
  rw [Map.get_erase]
  by_cases h : (a, u) = (who, t)
  · rw [if_pos h, if_pos h]
  · rw [if_neg h, if_neg h]

/-- an account with nothing of the token -/
theorem home_none (hh : Hist x.world) (h0 : bal x.world.inv.balances env.caller t = 0) :
    Home x (x.steps (takeHome x env gas t)) env t := by
  obtain ⟨hm, htk, -⟩ := fresh_ids hh
  obtain ⟨b', hs, hbal⟩ : ∃ b', Async.start env ⟨x.world.program, gas, x.world.next, true, true⟩ x.world.inv
      (.withdrawSingle t none) = .ok ({ x.world.inv with balances := b' }, []) ∧
      ∀ a u, bal b' a u = bal x.world.inv.balances a u := by
    cases hg : x.world.inv.balances.get (env.caller, t) with
    | none => exact ⟨_, start_none hg, fun _ _ => rfl⟩
    | some b =>
      have hb : b = 0 := by unfold bal at h0; rw [hg] at h0; exact h0
      subst hb
      refine ⟨_, start_zero hg, fun a u => ?_⟩
      rw [bal_erase]
      split
      next h => obtain ⟨rfl, rfl⟩ := Prod.mk.inj h; exact h0.symm
      next => rfl
  have e : x.steps (takeHome x env gas t) =
      ⟨{ x.world with inv := { x.world.inv with balances := b' }, next := x.world.next + 2 },
        x.held + env.value, x.stray + env.value⟩ := by
    simp only [takeHome, Coins.steps, Coins.step, hs, World.step, addMsgs, if_true, hm, htk]
  rw [e]
  exact ⟨(hbal _ _).trans h0, by rw [h0]; rfl, fun a u _ => hbal a u, fun _ _ => rfl, fun _ => rfl, fun _ => rfl, rfl,
    rfl, rfl⟩

/-- an account with some of the token -/
theorem home_some (hh : Hist x.world) {b : Nat} (hb : x.world.inv.balances.get (env.caller, t) = some b) (h0 : b ≠ 0)
    (ht : t ≠ VARA) (hg : TRANSFER_COST ≤ gas) (hp : env.caller ≠ x.world.program) (hle : b ≤ x.world.held t) :
    Home x (x.steps (takeHome x env gas t)) env t := by
  obtain ⟨hm, htk, haw⟩ := fresh_ids hh
  have hs := start_all (r := ⟨x.world.program, gas, x.world.next, true, true⟩) (s := x.world.inv) hb h0 ht hg hp rfl
  have hbal : bal x.world.inv.balances env.caller t = b := by unfold bal; rw [hb]
  set aw := x.world.inv.awaiting.insert (x.world.next, t) ⟨env.caller, b, .withdrawal⟩ with haw'
  set l : Leg := ⟨x.world.next, t, x.world.program, env.caller, b, .withdrawal⟩ with hl
  have hr := handled (s := { x.world.inv with balances := x.world.inv.balances.erase (env.caller, t), awaiting := aw })
    (id := x.world.next) (t := t) (Map.get_insert_self _ _ _) rfl
  have e : x.steps (takeHome x env gas t) =
      ⟨{ x.world with
          inv := { x.world.inv with balances := x.world.inv.balances.erase (env.caller, t),
                                    awaiting := (aw.erase (x.world.next, t)).erase (x.world.next, t) }
          next := x.world.next + 2
          msgs := (x.world.msgs.insert x.world.next ⟨l, none⟩).insert x.world.next ⟨l, some (response 1)⟩
          tasks := (x.world.tasks.insert x.world.next [l]).erase x.world.next
          held := setHeld x.world.held t (x.world.held t - b) },
        x.held + env.value, x.stray + env.value⟩ := by
    simp only [takeHome, Coins.steps, Coins.step, hs, World.step, addMsgs, hbal, Map.get_insert_self, if_true, hr,
      resume_one, List.cons_ne_nil, if_false, hl, reduceCtorEq]
  have hAw : ∀ k, ((aw.erase (x.world.next, t)).erase (x.world.next, t)).get k = x.world.inv.awaiting.get k := by
    intro k
    by_cases hk : k = (x.world.next, t)
    · rw [hk, Map.get_erase_self, haw]
    · rw [Map.get_erase_ne _ hk, Map.get_erase_ne _ hk, haw', Map.get_insert_ne _ _ hk]
  have hTk : ∀ k, ((x.world.tasks.insert x.world.next [l]).erase x.world.next).get k = x.world.tasks.get k := by
    intro k
    by_cases hk : k = x.world.next
    · rw [hk, Map.get_erase_self, htk]
    · rw [Map.get_erase_ne _ hk, Map.get_insert_ne _ _ hk]
  rw [e]
  refine ⟨?_, ?_, fun a u h => ?_, fun u h => ?_, hAw, hTk, rfl, rfl, rfl⟩
  · exact (bal_erase ..).trans (if_pos rfl)
  · show setHeld x.world.held t (x.world.held t - b) t + bal x.world.inv.balances env.caller t = x.world.held t
    unfold setHeld
    rw [if_pos rfl, hbal]
    omega
  · exact (bal_erase ..).trans (if_neg h)
  · show setHeld x.world.held t (x.world.held t - b) u = x.world.held u
    unfold setHeld
    rw [if_neg h]

/-- removing a position leaves nobody with more positions -/
theorem few_remove {s s' : Inv} {index a b : Nat} (h : Reach32 s)
    (hrem : removePosition env s index = .ok (s', a, b)) : FewPositions s' := by
  have hr := (reach32_reach s h).1
  have hf := (reach32_reach s h).2
  obtain ⟨L, hL⟩ := reach32_listed s h
  have len : ∀ a, (L a).length + 1 < 2 ^ 32 := fun a => by rw [listed_len hL]; exact hf a
  obtain ⟨p, lower, upper, pool, m, ps, b, tm1, tm2, h, _⟩ := removePosition_full (reach_wf s hr).indexed hrem
  have hg := posGet_ok.1 h.get
  rw [(hL _).2] at hg
  obtain ⟨ps', e, hps⟩ := (posRepr_remove hL (by have := len env.caller; omega) _).1 _ hg
  rw [h.rem] at e
  cases e
  have e : s' = _ := h.res
  rw [e]
  intro c
  show ps.getLength c + 1 < 2 ^ 32
  rw [← listed_len hps]
  by_cases hc : c = env.caller
  · subst hc
    rw [put_same]
    have hne : L env.caller ≠ [] := by rintro e; rw [e] at hg; simp at hg
    have := swapRemove_length (l := L env.caller) index hne
    have := len env.caller
    omega
  · rw [put_other _ _ hc]; exact len c

theorem Whole.mono {ok ok' : Coins → CoinEvent → Prop} (hok : ∀ x e, ok x e → ok' x e) {n : Nat}
    (h : Spec.Whole ok x n) : Spec.Whole ok' x n := by
  induction h with
  | init program admin fee held n => exact .init program admin fee held n
  | step e _ he ih => exact .step e ih (hok _ _ he)

/-- a withdrawal of all coins changes one balance -/
theorem takes_one (x : Coins) (env : Env) :
    ∃ b, (x.step (.world (.call env (.withdrawVara none)))).world.inv = { x.world.inv with balances := b } ∧
      (∀ a u, (a, u) ≠ (env.caller, VARA) → bal b a u = bal x.world.inv.balances a u) ∧
      (x.step (.world (.call env (.withdrawVara none)))).world.held = x.world.held ∧
      (x.step (.world (.call env (.withdrawVara none)))).world.program = x.world.program := by
  have key : ∀ s', Verif.step env x.world.inv (.withdrawVara none) = .ok s' →
      ∃ b, s' = { x.world.inv with balances := b } ∧
        ∀ a u, (a, u) ≠ (env.caller, VARA) → bal b a u = bal x.world.inv.balances a u := by
    intro s' hs
    simp only [Verif.step, withdrawVara, bind_ok_iff, fit_ok_iff, pure_ok_iff] at hs
    obtain ⟨_, ⟨r, hr, v, _, rfl⟩, rfl⟩ := hs
    refine ⟨r.1, rfl, fun a u h => ?_⟩
    cases hd : decreaseTokenBalance x.world.inv.balances VARA env.caller none with
    | ok q =>
      rw [hd] at hr
      cases hr
      obtain ⟨v, -, rfl⟩ := decrease_none_ok.1 hd
      exact (bal_erase ..).trans (if_neg h)
    | error e =>
      rw [hd] at hr
      cases hr
      rfl
  cases hs : Verif.step env x.world.inv (.withdrawVara none) with
  | error e =>
    simp only [Coins.step, hs]
    exact ⟨_, rfl, fun _ _ _ => rfl, trivial, trivial⟩
  | ok s' =>
    obtain ⟨b, rfl, hb⟩ := key s' hs
    simp only [Coins.step, hs]
    split
    · exact ⟨_, rfl, fun _ _ _ => rfl, rfl, rfl⟩
    · refine ⟨b, ?_, hb, rfl, rfl⟩
      simp only [World.step, run, hs]

end Verif
