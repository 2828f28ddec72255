import Verif.Spec.Coins
import Verif.Props.Vara
import Verif.Props.Collections

/-!
# Property C83: the native coin held and owed

False where value is attached to other messages than `deposit_vara` (`C83_negation`).
-/

namespace Verif
open Service Spec Async

private theorem bal_eq (b : Balances) (w t : ActorId) : Spec.bal b w t = balOf b w t := by
  unfold Spec.bal balOf
  cases b.get (w, t) <;> rfl

/-- the sum depends only on the balances of the token -/
theorem total_congr (t : ActorId) : ∀ (n : Nat) (b b' : Balances), b.entries.length ≤ n →
    (∀ a, balOf b' a t = balOf b a t) → total b' t = total b t := by
  intro n
  induction n with
  | zero =>
    intro b b' hn h
    have hb : ∀ k, b.get k = none := by
      intro k
      cases hk : b.get k with
      | none => rfl
      | some v =>
        have := (Map.get_mem _ _ _).1 hk
        rw [List.length_eq_zero_iff.1 (Nat.le_zero.1 hn)] at this
        cases this
    have e1 : total b t = 0 := by
      unfold total
      rw [Map.sum_congr (g := fun _ _ => 0), Map.sum_zero]
      intro k v hk
      rw [hb] at hk
      cases hk
    have e2 : total b' t = 0 := by
      unfold total
      rw [Map.sum_congr (g := fun _ _ => 0), Map.sum_zero]
      intro k v hk
      by_cases hc : k.2 = t
      · have := h k.1
        unfold balOf at this
        rw [← hc, hk, hb] at this
        rw [if_pos hc]
        simpa using this
      · exact if_neg hc
    rw [e1, e2]
  | succ n ih =>
    intro b b' hn h
    cases hl : b.entries with
    | nil => exact ih b b' (by rw [hl]; simp) h
    | cons p r =>
      obtain ⟨⟨a, u⟩, v⟩ := p
      rw [total_erase (b := b) (who := a) (t := u), total_erase (b := b') (who := a) (t := u)]
      have hlen : (b.erase (a, u)).entries.length ≤ n := by
        have : (b.erase (a, u)).entries = Map.rm b.entries (a, u) := rfl
        rw [this, hl]
        unfold Map.rm
        rw [List.filter_cons_of_neg (by simp)]
        have := List.length_filter_le (fun p => decide (p.1 ≠ (a, u))) r
        rw [hl, List.length_cons] at hn
        omega
      have hb : ∀ c, balOf (b'.erase (a, u)) c t = balOf (b.erase (a, u)) c t := by
        intro c
        have := h c
        unfold balOf at this ⊢
        rw [Map.get_erase, Map.get_erase]
        split
        · rfl
        · exact this
      rw [ih _ _ hlen hb]
      by_cases hu : t = u
      · subst hu; rw [h a]
      · rw [if_neg hu, if_neg hu]

/-- events other than calls make no pools -/
theorem event_pools (w : World) (e : Event) (he : ∀ env c, e ≠ .call env c) :
    (w.step e).inv.pools = w.inv.pools := by
  cases e with
  | call env c => exact absurd rfl (he env c)
  | drift u n => rfl
  | answer id p n => simp only [World.step]; split <;> rfl
  | resume k ms =>
    simp only [World.step]
    split
    · next legs hl =>
      obtain ⟨aw, he, -⟩ := resume_frame w.inv legs ms
      simp only [he]
    · rfl
  | deliver id runs =>
    simp only [World.step]
    split
    · next l p hm =>
      split
      · cases ha : w.inv.awaiting.get (id, l.token) with
        | none => rw [replyHandler_none ha]
        | some a =>
          rcases replyHandler_some (p := p) ha with ⟨_, _, e⟩ | ⟨_, _, e⟩ | ⟨_, e⟩ <;> rw [e]
          simp only [creditOrLog]
          split <;> rfl
      · rfl
    · rfl
  | start env gas b1 b2 c =>
    simp only [World.step]
    split
    · rfl
    · next s legs hs =>
      have := (start_ok hs).eq
      simp only at this ⊢
      rw [this]

/-- the books of the native coin after a call -/
theorem call_total {env : Env} {s s' : Inv} {c : Call} (h : Verif.step env s c = .ok s')
    (hu : Untraded s' VARA) :
    total s'.balances VARA + sentBack env s c + strayIn env c = total s.balances VARA + env.value := by
  have hu0 : Untraded s VARA := fun k hk => hu k ((C20_pools h k).1 hk)
  by_cases h1 : c = .depositVara
  · subst h1
    simp only [Verif.step, bind_ok_iff, pure_ok_iff] at h
    obtain ⟨r, h, rfl⟩ := h
    obtain ⟨b, hb, rfl⟩ := depositVara_ok h
    have := total_inc hb VARA
    simp only [sentBack, strayIn, if_true] at this ⊢
    omega
  · by_cases h2 : ∃ v, c = .withdrawVara v
    · obtain ⟨v, rfl⟩ := h2
      simp only [Verif.step, bind_ok_iff, pure_ok_iff] at h
      obtain ⟨r, h, rfl⟩ := h
      have hv : sentBack env s (.withdrawVara v) = r.2 := by simp only [sentBack, h]
      rw [hv]
      obtain ⟨b, e, -, hc⟩ := withdrawVara_ok h
      have e1 : r.1.balances = b := by rw [e]
      rw [e1]
      have key : total s.balances VARA = total b VARA + r.2 := by
        rcases hc with ⟨m, -, -, hd⟩ | ⟨-, hd⟩ | ⟨-, -, rfl, hz⟩
        · have := (dec_took hd).tot VARA
          simpa using this
        · have := (dec_took hd).tot VARA
          simpa using this
        · omega
      simp only [strayIn]
      omega
    · push Not at h2
      have hb := C47_other_calls env s s' c VARA hu0 h1 h2 h
      have ht := total_congr VARA _ s.balances s'.balances le_rfl
        (fun a => by rw [← bal_eq, ← bal_eq]; exact hb a)
      have e1 : sentBack env s c = 0 := by
        cases c <;> first | rfl | exact absurd rfl (h2 _)
      have e2 : strayIn env c = env.value := by
        cases c <;> first | rfl | exact absurd rfl h1
      omega

theorem coins_world {x : Coins} (h : CoinHist x) : Hist x.world := by
  induction h with
  | init p a f hd n => exact .init p a f hd
  | @step x e _ ih =>
    cases e with
    | gift n => exact ih
    | world e =>
      cases e with
      | call env c =>
        simp only [Coins.step]
        split
        · exact ih
        · split
          · exact ih
          · exact Hist.step (.call env c) ih
      | start env gas b1 b2 c =>
        simp only [Coins.step]
        split
        · exact ih
        · exact Hist.step (.start env gas b1 b2 c) ih
      | answer id p n => exact Hist.step (.answer id p n) ih
      | deliver id r => exact Hist.step (.deliver id r) ih
      | resume k ms => exact Hist.step (.resume k ms) ih
      | drift t n => exact Hist.step (.drift t n) ih

theorem event_total {w : World} (h : Hist w) (e : Event) (he : ∀ env c, e ≠ .call env c) :
    total (w.step e).inv.balances VARA = total w.inv.balances VARA :=
  total_congr VARA _ _ _ le_rfl fun a => by
    rw [← bal_eq, ← bal_eq]; exact C47_transfers h e he a

/-- C83, the address: the native coin is booked under the address zero, and no transfer of a token program can be made
for that address. -/
theorem C83_address {env : Env} {s s' : Inv} {n : Nat} :
    (depositVara env s = .ok (s', n) → ∀ a t, bal s'.balances a t =
      bal s.balances a t + if a = env.caller ∧ t = 0 then env.value else 0) ∧
    (∀ r caller amount, Async.transferSingle r s 0 caller amount .deposit = .error (.inv .InvalidVaraDepositAttempt) ∧
      Async.transferSingle r s 0 caller amount .withdrawal = .error (.inv .InvalidVaraWithdrawAttempt)) ∧
    ∀ r caller x y u v, u = 0 ∨ v = 0 →
      Async.transferPair r s caller u x v y .deposit = .error (.inv .InvalidVaraDepositAttempt) ∧
      Async.transferPair r s caller u x v y .withdrawal = .error (.inv .InvalidVaraWithdrawAttempt) := by
  refine ⟨fun h a t => ?_, fun r c n => ⟨rfl, rfl⟩, fun r c x y u v h => ?_⟩
  · unfold depositVara at h
    simp only [bind_ok_iff, pure_ok_iff] at h
    obtain ⟨b, hb, h⟩ := h
    injection h with h1 h2
    subst h1
    rw [bal_eq, bal_eq]
    exact increase_bal hb a t
  · have e1 : ∀ k : Err, failIf (u = VARA ∨ v = VARA) k = .error k := by
      intro k; exact if_pos h
    unfold Async.transferPair
    rw [e1, e1]
    exact ⟨rfl, rfl⟩

/-- account 2 sends 500 coins along -/
example : (depositVara ⟨2, 100, 1, 500⟩ Demo.start).toOption.map (fun r => (bal r.1.balances 2 0, bal r.1.balances 3 0, r.2)) =
    some (500, 0, 500) := by
  decide +kernel

/-- C83: as long as no pool trades the native coin, the program holds exactly the sum of the internal balances and
what came otherwise than with `deposit_vara`, after everything that can happen. -/
theorem C83_held {x : Coins} (h : CoinHist x) (hu : Untraded x.world.inv VARA) :
    x.held = total x.world.inv.balances VARA + x.stray := by
  induction h with
  | init p a f hd n =>
    have : total (World.init p a f hd).inv.balances VARA = 0 := rfl
    simp only
    omega
  | @step x e hx ih =>
    have other : ∀ e : Event, (∀ env c, e ≠ .call env c) → Untraded (x.world.step e).inv VARA →
        x.held = total (x.world.step e).inv.balances VARA + x.stray := by
      intro e he hu
      rw [event_total (coins_world hx) e he]
      refine ih ?_
      unfold Untraded at hu ⊢
      rwa [event_pools _ e he] at hu
    cases e with
    | gift n =>
      have := ih hu
      simp only [Coins.step]
      omega
    | world e =>
      cases e with
      | call env c =>
        simp only [Coins.step] at hu ⊢
        cases hs : Verif.step env x.world.inv c with
        | error e => simp only [hs] at hu ⊢; exact ih hu
        | ok s' =>
          simp only [hs] at hu ⊢
          split
          · next hc => rw [if_pos hc] at hu; exact ih hu
          · next hc =>
            rw [if_neg hc] at hu
            simp only at hu ⊢
            have e1 : (x.world.step (.call env c)).inv = s' := by
              simp only [World.step, run, hs]
            rw [e1] at hu ⊢
            have h1 := call_total hs hu
            have h2 := ih fun k hk => hu k ((C20_pools hs k).1 hk)
            omega
      | start env gas b1 b2 c =>
        simp only [Coins.step] at hu ⊢
        split
        · next hs => rw [hs] at hu; exact ih hu
        · next r hs =>
          rw [hs] at hu
          have := other (.start env gas b1 b2 c) (by simp) hu
          simp only
          omega
      | answer id p n => exact other _ (by simp) hu
      | deliver id r => exact other _ (by simp) hu
      | resume k ms => exact other _ (by simp) hu
      | drift t n => exact other _ (by simp) hu

/-- who withdraws everything gets it if the coins cover the balances -/
theorem takes_all {x : Coins} (h1 : total x.world.inv.balances VARA ≤ x.held) (hm : x.held < 2 ^ 128)
    {env : Env} (hv : env.value = 0) :
    bal (x.step (.world (.call env (.withdrawVara none)))).world.inv.balances env.caller VARA = 0 ∧
    (x.step (.world (.call env (.withdrawVara none)))).held + bal x.world.inv.balances env.caller VARA = x.held := by
  have h2 : bal x.world.inv.balances env.caller VARA ≤ total x.world.inv.balances VARA := by
    rw [bal_eq, total_erase (b := x.world.inv.balances) (who := env.caller) (t := VARA), if_pos rfl]
    omega
  cases hg : x.world.inv.balances.get (env.caller, VARA) with
  | none =>
    have hw : Service.withdrawVara env x.world.inv none = .ok (x.world.inv, 0) := by
      unfold Service.withdrawVara
      cases hd : decreaseTokenBalance x.world.inv.balances VARA env.caller none with
      | ok r =>
        obtain ⟨v, hv, -⟩ := decrease_none_ok.1 hd
        rw [hg] at hv
        cases hv
      | error e => rfl
    have hb : bal x.world.inv.balances env.caller VARA = 0 := by unfold bal; rw [hg]
    have hs : Verif.step env x.world.inv (.withdrawVara none) = .ok x.world.inv := by
      simp only [Verif.step, hw]; rfl
    have e0 : sentBack env x.world.inv (.withdrawVara none) = 0 := by simp only [sentBack, hw]
    simp only [Coins.step, hs, e0, hv, World.step, run]
    rw [if_neg (by omega)]
    simp only
    exact ⟨hb, by omega⟩
  | some v =>
    have hb : bal x.world.inv.balances env.caller VARA = v := by unfold bal; rw [hg]
    have hw : Service.withdrawVara env x.world.inv none =
        .ok ({ x.world.inv with balances := x.world.inv.balances.erase (env.caller, VARA) }, v) := by
      unfold Service.withdrawVara
      rw [decrease_none_ok.2 ⟨v, hg, rfl⟩]
      simp only [ok_bind]
      rw [fit_ok_iff.2 ⟨by omega, rfl⟩]
      rfl
    have hs : Verif.step env x.world.inv (.withdrawVara none) =
        .ok { x.world.inv with balances := x.world.inv.balances.erase (env.caller, VARA) } := by
      simp only [Verif.step, hw]; rfl
    have e0 : sentBack env x.world.inv (.withdrawVara none) = v := by simp only [sentBack, hw]
    simp only [Coins.step, hs, e0, hv, World.step, run]
    rw [if_neg (by omega)]
    simp only
    refine ⟨?_, by omega⟩
    unfold bal
    rw [Map.get_erase_self]

/-- C83: so the coins cover the balances, and everybody can take out all they have, whatever the others did. -/
theorem C83_withdraw {x : Coins} (h : CoinHist x) (hu : Untraded x.world.inv VARA) (hm : x.held < 2 ^ 128)
    {env : Env} (hv : env.value = 0) :
    total x.world.inv.balances VARA ≤ x.held ∧
    bal (x.step (.world (.call env (.withdrawVara none)))).world.inv.balances env.caller VARA = 0 ∧
    (x.step (.world (.call env (.withdrawVara none)))).held + bal x.world.inv.balances env.caller VARA = x.held := by
  have h1 := C83_held h hu
  have h2 : total x.world.inv.balances VARA ≤ x.held := by omega
  exact ⟨h2, takes_all h2 hm hv⟩

/-- C83: what did not come with `deposit_vara` stays with the program for ever: whatever happens later, the
program holds at least that much, and nobody has it in their balance. -/
theorem C83_locked {x : Coins} (h : CoinHist x) (l : List CoinEvent) (hu : Untraded (x.steps l).world.inv VARA) :
    total (x.steps l).world.inv.balances VARA + x.stray ≤ (x.steps l).held := by
  have hl : ∀ (l : List CoinEvent) (x : Coins), CoinHist x → CoinHist (x.steps l) ∧ x.stray ≤ (x.steps l).stray := by
    intro l
    induction l with
    | nil => intro x hx; exact ⟨hx, le_rfl⟩
    | cons e l ih =>
      intro x hx
      obtain ⟨h1, h2⟩ := ih _ (.step e hx)
      refine ⟨h1, le_trans ?_ h2⟩
      cases e with
      | gift n => exact Nat.le_add_right _ _
      | world e =>
        cases e with
        | call env c =>
          simp only [Coins.step]
          split
          · exact le_rfl
          · split
            · exact le_rfl
            · exact Nat.le_add_right _ _
        | start env gas b1 b2 c =>
          simp only [Coins.step]
          split
          · exact le_rfl
          · exact Nat.le_add_right _ _
        | answer id p n => exact le_rfl
        | deliver id r => exact le_rfl
        | resume k ms => exact le_rfl
        | drift t n => exact le_rfl
  obtain ⟨h1, h2⟩ := hl l x h
  have := C83_held h1 hu
  omega

namespace CoinDemo

def fresh : Coins := ⟨World.init 9 1 0 (fun _ => 0), 0, 0⟩

/-- account 2 deposits 70 coins, and attaches 10 to a withdrawal of 20 -/
def events : List CoinEvent :=
  [.world (.call ⟨2, 100, 1, 70⟩ .depositVara), .world (.call ⟨2, 100, 1, 10⟩ (.withdrawVara (some 20)))]

theorem fresh_hist : CoinHist fresh := .init 9 1 0 _ 0

theorem events_hist : CoinHist (fresh.steps events) :=
  CoinHist.step (.world (.call ⟨2, 100, 1, 10⟩ (.withdrawVara (some 20))))
    (CoinHist.step (.world (.call ⟨2, 100, 1, 70⟩ .depositVara)) fresh_hist)

end CoinDemo

/-- 60 coins are held, 50 of them in the balance of account 2, which then takes them out -/
example : (CoinDemo.fresh.steps CoinDemo.events).held = 60 ∧
    bal (CoinDemo.fresh.steps CoinDemo.events).world.inv.balances 2 VARA = 50 ∧
    ((CoinDemo.fresh.steps CoinDemo.events).step (.world (.call ⟨2, 101, 2, 0⟩ (.withdrawVara none)))).held = 10 := by
  decide +kernel

/-- C83 is false: not every coin attached to a message is credited or given back. Account 2 attaches 10 coins to a
withdrawal; nobody has them in their balance, and as long as no pool trades the coin the program keeps at least
10 coins more than it owes, whatever happens. -/
theorem C83_negation : ∃ x : Coins, CoinHist x ∧ x.held = total x.world.inv.balances VARA + 10 ∧
    (∀ a, a ≠ 2 → bal x.world.inv.balances a VARA = 0) ∧ bal x.world.inv.balances 2 VARA = 50 ∧
    ∀ l, Untraded (x.steps l).world.inv VARA →
      total (x.steps l).world.inv.balances VARA + 10 ≤ (x.steps l).held := by
  refine ⟨CoinDemo.fresh.steps CoinDemo.events, CoinDemo.events_hist, by decide +kernel, ?_, by decide +kernel, ?_⟩
  · intro a ha
    have h1 : total (CoinDemo.fresh.steps CoinDemo.events).world.inv.balances VARA = 50 := by decide +kernel
    have h2 : balOf (CoinDemo.fresh.steps CoinDemo.events).world.inv.balances 2 VARA = 50 := by decide +kernel
    generalize (CoinDemo.fresh.steps CoinDemo.events).world.inv.balances = b at *
    rw [total_erase (b := b) (who := 2) (t := VARA), if_pos rfl,
      total_erase (b := b.erase (2, VARA)) (who := a) (t := VARA), if_pos rfl] at h1
    have h3 : balOf (b.erase (2, VARA)) a VARA = balOf b a VARA := by
      unfold balOf
      rw [Map.get_erase_ne _ (by simpa using ha)]
    rw [bal_eq]
    omega
  · intro l hl
    have h1 := C83_locked CoinDemo.events_hist l hl
    have h2 : (CoinDemo.fresh.steps CoinDemo.events).stray = 10 := by decide +kernel
    omega

end Verif
