import Verif.Spec.Settings
import Verif.Proofs.SwapAmounts
import Verif.Spec.Demo
import Verif.Proofs.WorldInv

/-!
# Property C119: a setting matters only to the calls it is for

The admin, the protocol fee and the list of fee tiers are read by few calls. All others have the same outcome whatever the
settings are, so a change of the settings strands no pool, no position and no balance.
-/

namespace Verif
open Service Spec

variable {env : Env} {s s' : Inv} {g : Settings} {c : Call}

namespace SettingsProof

/-- a computation that continues in the same way -/
theorem bind_same {α β γ : Type} {x : M α} {f : β → γ} {k : α → M β} {k' : α → M γ} (h : ∀ v, k' v = (k v).map f) :
    x >>= k' = (x >>= k).map f := by
  cases x with
  | error e => rfl
  | ok v => exact h v

/-- a computation that continues in the same way with a changed result -/
theorem bind_map {α δ β γ : Type} {x : M α} {y : M δ} {p : α → δ} {f : β → γ} {k : α → M β} {k' : δ → M γ}
    (hy : y = x.map p) (h : ∀ v, k' (p v) = (k v).map f) : y >>= k' = (x >>= k).map f := by
  subst hy
  cases x with
  | error e => rfl
  | ok v => exact h v

theorem addTick_set {k : PoolKey} {t : Tick} : addTick (withSettings s g) k t = (addTick s k t).map (withSettings · g) :=
  bind_same fun _ => bind_same fun _ => rfl

theorem removeTick_set {k : PoolKey} {t : Tick} : removeTick (withSettings s g) k t = (removeTick s k t).map (withSettings · g) :=
  bind_same fun _ => bind_same fun _ => bind_same fun _ => rfl

theorem putTick_set {k : PoolKey} {t : Tick} {b : Bool} :
    putTick (withSettings s g) k t b = (putTick s k t b).map (withSettings · g) := by
  unfold putTick
  split
  · exact addTick_set
  · exact bind_same fun _ => rfl

theorem dropTick_set {k : PoolKey} {i : Int} {t : Tick} :
    dropTick (withSettings s g) k i t = (dropTick s k i t).map (withSettings · g) := by
  unfold dropTick
  split
  · exact removeTick_set
  · exact bind_same fun _ => rfl

theorem createPosition_set {k : PoolKey} {l u : Int} {d a b : Nat} :
    createPosition env (withSettings s g) k l u d a b =
      (createPosition env s k l u d a b).map (fun r => (withSettings r.1 g, r.2)) := by
  unfold createPosition
  refine bind_same fun _ => bind_same fun _ => bind_same fun _ => bind_same fun _ => bind_same fun _ => bind_same fun r =>
    bind_same fun _ => bind_same fun bs => bind_same fun ps => ?_
  exact bind_map (putTick_set (s := { s with balances := bs.1, pools := ps, positions := s.positions.add env.caller r.position }))
    fun _ => bind_map putTick_set fun _ => rfl

theorem removePosition_set {i : Nat} :
    removePosition env (withSettings s g) i = (removePosition env s i).map (fun r => (withSettings r.1 g, r.2)) := by
  unfold removePosition
  refine bind_same fun _ => bind_same fun _ => bind_same fun _ => bind_same fun _ => bind_same fun _ => bind_same fun ps => ?_
  exact bind_map (dropTick_set (s := { s with pools := ps })) fun _ => bind_map dropTick_set fun _ => bind_same fun _ => bind_same fun _ => bind_same fun _ => rfl

theorem claimFee_set {i : Nat} :
    claimFee env (withSettings s g) i = (claimFee env s i).map (fun r => (withSettings r.1 g, r.2)) := by
  unfold claimFee
  exact bind_same fun _ => bind_same fun _ => bind_same fun _ => bind_same fun _ => bind_same fun _ => bind_same fun _ =>
    bind_same fun _ => bind_same fun _ => bind_same fun _ => bind_same fun _ => bind_same fun _ => rfl

theorem withdrawProtocolFee_set {k : PoolKey} :
    withdrawProtocolFee env (withSettings s g) k = (withdrawProtocolFee env s k).map (fun r => (withSettings r.1 g, r.2)) := by
  unfold withdrawProtocolFee
  exact bind_same fun _ => bind_same fun _ => bind_same fun _ => bind_same fun _ => bind_same fun _ => rfl

theorem swap_set {k : PoolKey} {d b : Bool} {a l : Nat} (h : g.protocolFee = s.protocolFee) :
    swap env (withSettings s g) k d a b l = (swap env s k d a b l).map (fun r => (withSettings r.1 g, r.2)) := by
  unfold swap
  rw [calculateSwap_congr (s := s) (s' := withSettings s g) rfl (fun _ => rfl) rfl h]
  exact bind_same fun _ => bind_same fun _ => bind_same fun _ => bind_same fun _ => bind_same fun _ => rfl

theorem swap_fee {k : PoolKey} {d b : Bool} {a l : Nat} {r : Inv × CalculateSwapResult} (h : swap env s k d a b l = .ok r) :
    r.1.protocolFee = s.protocolFee := by
  unfold swap at h
  simp only [bind_ok_iff, pure_ok_iff] at h
  obtain ⟨_, _, _, _, _, _, _, _, _, _, rfl⟩ := h
  rfl

theorem routeSwap_set (hops : List SwapHop) : ∀ {s : Inv} {n : Nat}, g.protocolFee = s.protocolFee →
    routeSwap env hops (withSettings s g) n = (routeSwap env hops s n).map (fun r => (withSettings r.1 g, r.2)) := by
  induction hops with
  | nil => intro s n _; rfl
  | cons x r ih =>
    intro s n h
    unfold routeSwap
    rw [swap_set h]
    cases hs : swap env s x.key x.xToY n true (hopLimit x.xToY) with
    | error e => rfl
    | ok v => exact ih (h.trans (swap_fee hs).symm)

theorem swapRoute_set {a e sl : Nat} {hops : List SwapHop} (h : g.protocolFee = s.protocolFee) :
    swapRoute env (withSettings s g) a e sl hops = (swapRoute env s a e sl hops).map (fun r => (withSettings r.1 g, r.2)) := by
  unfold swapRoute
  exact bind_map (routeSwap_set hops h) fun _ => bind_same fun _ => bind_same fun _ => rfl

theorem withdrawVara_set {v : Option Nat} :
    withdrawVara env (withSettings s g) v = (withdrawVara env s v).map (fun r => (withSettings r.1 g, r.2)) := by
  unfold withdrawVara
  exact bind_same fun _ => bind_same fun _ => rfl

/-- forgetting the answer -/
theorem fst_set {α : Type} {x y : M (Inv × α)} {h : Inv → Inv} (e : y = x.map (fun r => (h r.1, r.2))) :
    (do let r ← y; pure r.1 : M Inv) = (do let r ← x; pure r.1 : M Inv).map h := by
  subst e; cases x <;> rfl

end SettingsProof

open SettingsProof in
/-- C119, calls: two programs that differ in settings a call is not about answer it alike: the same error, or new states
that differ in these settings only, and these are the old ones. -/
theorem C119_call (h : ∀ x ∈ about c, Matches s g x) :
    step env (withSettings s g) c = (step env s c).map (fun s' => withSettings s' (g.mix (about c) s')) := by
  cases c with
  | changeProtocolFee f =>
    have h1 : g.admin = s.admin := h .admin (by simp [about])
    simp only [step, changeProtocolFee]
    rw [show (withSettings s g).admin = s.admin from h1]
    refine fst_set (h := fun s' => withSettings s' (g.mix [.admin, .protocolFee] s')) (bind_same fun _ => ?_)
    simp [withSettings, Settings.mix, h1, Except.map, pure, Except.pure]
  | addFeeTier t =>
    have h1 : g.admin = s.admin := h .admin (by simp [about])
    have h2 : g.feeTiers = s.feeTiers := h .feeTiers (by simp [about])
    simp only [step, addFeeTier]
    rw [show (withSettings s g).admin = s.admin from h1, show (withSettings s g).feeTiers = s.feeTiers from h2]
    refine fst_set (h := fun s' => withSettings s' (g.mix [.admin, .feeTiers] s'))
      (bind_same fun _ => bind_same fun _ => bind_same fun _ => bind_same fun _ => ?_)
    simp [withSettings, Settings.mix, h1, Except.map, pure, Except.pure]
  | removeFeeTier t =>
    have h1 : g.admin = s.admin := h .admin (by simp [about])
    have h2 : g.feeTiers = s.feeTiers := h .feeTiers (by simp [about])
    simp only [step, removeFeeTier]
    rw [show (withSettings s g).admin = s.admin from h1, show (withSettings s g).feeTiers = s.feeTiers from h2]
    refine fst_set (h := fun s' => withSettings s' (g.mix [.admin, .feeTiers] s'))
      (bind_same fun _ => bind_same fun _ => ?_)
    simp [withSettings, Settings.mix, h1, Except.map, pure, Except.pure]
  | createPool x y t p i =>
    have h1 : g.admin = s.admin := h .admin (by simp [about])
    have h2 : g.feeTiers = s.feeTiers := h .feeTiers (by simp [about])
    simp only [step, createPool]
    rw [show (withSettings s g).admin = s.admin from h1, show (withSettings s g).feeTiers = s.feeTiers from h2]
    refine bind_same fun _ => bind_same fun _ => bind_same fun _ => bind_same fun _ => bind_same fun _ => bind_same fun _ =>
      bind_same fun _ => ?_
    simp [withSettings, Settings.mix, about, h1, h2, Except.map, pure, Except.pure]
  | changeFeeReceiver k r =>
    have h1 : g.admin = s.admin := h .admin (by simp [about])
    simp only [step, changeFeeReceiver]
    rw [show (withSettings s g).admin = s.admin from h1]
    refine bind_same fun _ => bind_same fun _ => bind_same fun _ => ?_
    simp [withSettings, Settings.mix, about, h1, Except.map, pure, Except.pure]
  | createPosition k l u d a b => exact fst_set createPosition_set
  | removePosition i => exact fst_set removePosition_set
  | transferPosition i r => exact bind_same fun _ => rfl
  | swap k d a b l =>
    have h1 : g.protocolFee = s.protocolFee := h .protocolFee (by simp [about])
    simp only [step]
    rw [fst_set (h := (withSettings · g)) (swap_set h1)]
    cases hs : swap env s k d a b l with
    | error e => rfl
    | ok r => simp [withSettings, Settings.mix, about, h1, swap_fee hs, Except.map, pure, Except.pure, bind, Except.bind]
  | swapRoute a e sl hops =>
    have h1 : g.protocolFee = s.protocolFee := h .protocolFee (by simp [about])
    have hr : ∀ (hops : List SwapHop) {s : Inv} {n : Nat} {r : Inv × Nat}, routeSwap env hops s n = .ok r →
        r.1.protocolFee = s.protocolFee := by
      intro hops
      induction hops with
      | nil => intro s n r hh; cases hh; rfl
      | cons x t ih =>
        intro s n r hh
        obtain ⟨v, hv, hh⟩ := bind_ok_iff.1 hh
        exact (ih hh).trans (swap_fee hv)
    simp only [step]
    rw [fst_set (h := (withSettings · g)) (swapRoute_set h1)]
    cases hs : swapRoute env s a e sl hops with
    | error e => rfl
    | ok r =>
      have hf : r.1.protocolFee = s.protocolFee := by
        unfold swapRoute at hs
        simp only [bind_ok_iff, pure_ok_iff] at hs
        obtain ⟨v, hv, _, _, _, _, rfl⟩ := hs
        exact hr _ hv
      simp [withSettings, Settings.mix, about, h1, hf, Except.map, pure, Except.pure, bind, Except.bind]
  | claimFee i => exact fst_set claimFee_set
  | withdrawProtocolFee k => exact fst_set withdrawProtocolFee_set
  | depositVara => exact fst_set (bind_same fun _ => rfl)
  | withdrawVara v => exact fst_set withdrawVara_set

/-- C119, changes: a call changes only settings that it is about. -/
theorem C119_frame (h : step env s c = .ok s') {x : Setting} (hx : x ∉ about c) : (settings s).Same (settings s') x := by
  have e := C119_call (env := env) (s := s) (g := settings s) (c := c) (fun x _ => by cases x <;> rfl)
  rw [show withSettings s (settings s) = s from rfl, h] at e
  have e' := Except.ok.inj e
  cases x with
  | admin =>
    have := congrArg Inv.admin e'
    simpa [withSettings, Settings.mix, hx, Settings.Same, settings] using this
  | protocolFee =>
    have := congrArg Inv.protocolFee e'
    simpa [withSettings, Settings.mix, hx, Settings.Same, settings] using this
  | feeTiers =>
    have := congrArg Inv.feeTiers e'
    simpa [withSettings, Settings.mix, hx, Settings.Same, settings] using this

private theorem run_set (h : ∀ x ∈ about c, Matches s g x) : ∃ g', run env (withSettings s g) c = withSettings (run env s c) g' ∧
    (∀ x, Matches s g x → Matches (run env s c) g' x) ∧ ∀ x, x ∉ about c → g.Same g' x := by
  unfold run
  rw [C119_call h]
  cases hs : step env s c with
  | error e => exact ⟨g, rfl, fun _ hm => hm, fun x _ => by cases x <;> rfl⟩
  | ok s' =>
    refine ⟨_, rfl, fun x hm => ?_, fun x hx => ?_⟩
    · by_cases hx : x ∈ about c
      · cases x <;> simp [Matches, Settings.mix, hx]
      · have := C119_frame hs hx
        cases x <;> simp only [Matches, Settings.mix, Settings.Same, settings, hx, if_false] at hm this ⊢ <;> rw [hm, this]
    · cases x <;> simp [Settings.Same, Settings.mix, hx]

/-- C119, histories: two programs that differ in settings which no message is about do the same business. -/
theorem C119_history {cs : List (Env × Call)} : ∀ {s : Inv} {g : Settings}, (∀ p ∈ cs, ∀ x ∈ about p.2, Matches s g x) →
    ∃ g', runAll (withSettings s g) cs = withSettings (runAll s cs) g' ∧
      (∀ x, Matches s g x → Matches (runAll s cs) g' x) ∧ ∀ x, (∀ p ∈ cs, x ∉ about p.2) → g.Same g' x := by
  induction cs with
  | nil => exact fun {s g} _ => ⟨g, rfl, fun _ h => h, fun x _ => by cases x <;> rfl⟩
  | cons p r ih =>
    intro s g h
    obtain ⟨g1, e1, m1, k1⟩ := run_set (env := p.1) (c := p.2) (h p List.mem_cons_self)
    obtain ⟨g2, e2, m2, k2⟩ := ih (s := run p.1 s p.2) (g := g1)
      (fun q hq x hx => m1 x (h q (List.mem_cons_of_mem _ hq) x hx))
    refine ⟨g2, ?_, fun x hx => m2 x (m1 x hx), fun x hx => ?_⟩
    · show runAll (run p.1 (withSettings s g) p.2) r = withSettings (runAll (run p.1 s p.2) r) g2
      rw [e1, e2]
    · have a := k1 x (hx p List.mem_cons_self)
      have b := k2 x (fun q hq => hx q (List.mem_cons_of_mem _ hq))
      cases x <;> exact b.trans a

private theorem business (s : Inv) (g : Settings) : SameBusiness s (withSettings s g) := ⟨rfl, rfl, rfl, rfl, rfl, rfl, rfl⟩

/-- C119, the list of tiers: pools of a tier that the admin removes (or adds) go on as before. Whatever is done with them,
apart from making pools and changing the list, ends in the same pools, positions and balances. -/
theorem C119_tiers {e : Env} {t : FeeTier} (h : step e s (.removeFeeTier t) = .ok s' ∨ step e s (.addFeeTier t) = .ok s')
    {cs : List (Env × Call)} (hc : ∀ p ∈ cs, Setting.feeTiers ∉ about p.2) :
    SameBusiness (runAll s cs) (runAll s' cs) ∧ (runAll s' cs).feeTiers = s'.feeTiers := by
  have hs : s' = withSettings s ⟨s.admin, s.protocolFee, s'.feeTiers⟩ := by
    rcases h with h | h
    · simp only [step, removeFeeTier, bind_ok_iff, pure_ok_iff] at h
      obtain ⟨_, ⟨_, _, _, _, rfl⟩, rfl⟩ := h
      rfl
    · simp only [step, addFeeTier, bind_ok_iff, pure_ok_iff] at h
      obtain ⟨_, ⟨_, _, _, _, _, _, _, _, rfl⟩, rfl⟩ := h
      rfl
  obtain ⟨g', e1, -, k⟩ := C119_history (cs := cs) (s := s) (g := ⟨s.admin, s.protocolFee, s'.feeTiers⟩) (fun p hp x hx => by
    cases x with
    | feeTiers => exact absurd hx (hc p hp)
    | admin => rfl
    | protocolFee => rfl)
  rw [← hs] at e1
  rw [e1]
  exact ⟨business _ _, k .feeTiers hc⟩

/-- C119, the protocol fee: without swaps a change of it is noticed by nobody; positions are made, paid out and removed as
before, and so are the protocol fees collected until then. -/
theorem C119_fee {e : Env} {f : Nat} (h : step e s (.changeProtocolFee f) = .ok s') {cs : List (Env × Call)}
    (hc : ∀ p ∈ cs, Setting.protocolFee ∉ about p.2) :
    SameBusiness (runAll s cs) (runAll s' cs) ∧ (runAll s' cs).protocolFee = f := by
  have hs : s' = withSettings s ⟨s.admin, f, s.feeTiers⟩ := by
    simp only [step, changeProtocolFee, bind_ok_iff, pure_ok_iff] at h
    obtain ⟨_, ⟨_, _, rfl⟩, rfl⟩ := h
    rfl
  obtain ⟨g', e1, -, k⟩ := C119_history (cs := cs) (s := s) (g := ⟨s.admin, f, s.feeTiers⟩) (fun p hp x hx => by
    cases x with
    | protocolFee => exact absurd hx (hc p hp)
    | admin => rfl
    | feeTiers => rfl)
  rw [← hs] at e1
  rw [e1]
  exact ⟨business _ _, k .protocolFee hc⟩

namespace SettingsProof
open Async

theorem sendTransfer_set {tok a b : ActorId} {n id : Nat} {k : TransferType} {o : Bool} :
    sendTransfer (withSettings s g) tok a b n k id o =
      (sendTransfer s tok a b n k id o).map (fun r => (withSettings r.1 g, r.2)) :=
  bind_same fun _ => bind_same fun _ => bind_same fun _ => rfl

theorem mapErr_map {α β : Type} {e : Err} {x : M α} {f : α → β} : mapErr e (x.map f) = (mapErr e x).map f := by
  cases x <;> rfl

theorem transferSingle_set {r : SendEnv} {tok u : ActorId} {n : Nat} {k : TransferType} :
    transferSingle r (withSettings s g) tok u n k =
      (transferSingle r s tok u n k).map (fun r => (withSettings r.1 g, r.2)) := by
  refine bind_same fun _ => bind_same fun _ => ?_
  refine bind_map (p := fun r => (withSettings r.1 g, r.2)) ?_ fun _ => rfl
  rw [sendTransfer_set, mapErr_map]

theorem transferPair_set {r : SendEnv} {u x y : ActorId} {n m : Nat} {k : TransferType} :
    transferPair r (withSettings s g) u x n y m k =
      (transferPair r s u x n y m k).map (fun r => (withSettings r.1 g, r.2)) := by
  refine bind_same fun _ => bind_same fun _ => ?_
  refine bind_map sendTransfer_set fun _ => ?_
  exact bind_map sendTransfer_set fun _ => rfl

theorem transferBoth_set {r : SendEnv} {u x y : ActorId} {n m : Nat} {k : TransferType} :
    transferBoth r (withSettings s g) u x n y m k =
      (transferBoth r s u x n y m k).map (fun r => (withSettings r.1 g, r.2)) := by
  unfold transferBoth
  split
  · exact transferPair_set
  · split
    · exact transferSingle_set
    · split
      · exact transferSingle_set
      · rfl

theorem start_set {r : SendEnv} {c : ACall} :
    start env r (withSettings s g) c = (start env r s c).map (fun r => (withSettings r.1 g, r.2)) := by
  cases c with
  | depositSingle t n => exact bind_same fun _ => transferSingle_set
  | withdrawSingle t n =>
    refine bind_same fun d => ?_
    split
    · exact transferSingle_set (s := { s with balances := d.1 })
    · rfl
  | depositPair t n u m => exact bind_same fun _ => bind_same fun _ => transferBoth_set
  | withdrawPair t n u m =>
    exact bind_same fun _ => bind_same fun _ => bind_same fun _ => transferBoth_set (s := { s with balances := _ })

theorem creditOrLog_set {tok u : ActorId} {n : Nat} :
    creditOrLog (withSettings s g) tok u n = withSettings (creditOrLog s tok u n) g := by
  unfold creditOrLog
  rw [show (withSettings s g).balances = s.balances from rfl]
  split <;> rfl

theorem replyHandler_set {tok : ActorId} {id : Nat} {p : Bytes} :
    replyHandler (withSettings s g) tok id p = withSettings (replyHandler s tok id p) g := by
  unfold replyHandler handleValidReply handlePanic
  rw [show (withSettings s g).awaiting = s.awaiting from rfl]
  split
  · split
    · split
      · rfl
      · split <;> simp only [creditOrLog_set] <;> rfl
    · rfl
  · split
    · split
      · rfl
      · split <;> simp only [creditOrLog_set] <;> rfl
    · rfl

theorem handle_set {m : Option Bool} {l : Leg} :
    handleTransferResult (withSettings s g) m l =
      (withSettings (handleTransferResult s m l).1 g, (handleTransferResult s m l).2) := by
  unfold handleTransferResult
  rw [show (withSettings s g).awaiting = s.awaiting from rfl]
  split <;> rfl

theorem settle_set {r : Inv × Outcome} : settle (withSettings s g) (withSettings r.1 g, r.2) = withSettings (settle s r) g := by
  unfold settle
  dsimp only
  split <;> rfl

theorem resume_set {ls : List Leg} {ms : List (Option Bool)} :
    resume (withSettings s g) ls ms = withSettings (resume s ls ms) g := by
  unfold resume
  split
  · rw [← settle_set]
    unfold resumeSingle
    simp only [handle_set]
  · rw [← settle_set]
    unfold resumePair
    simp only [handle_set]
  · rfl

end SettingsProof

private theorem event_set {w : World} {x : Event} (h : ∀ y ∈ aboutEvent x, Matches w.inv g y) :
    ∃ g', (w.withSettings g).step x = (w.step x).withSettings g' ∧
      (∀ y, Matches w.inv g y → Matches (w.step x).inv g' y) ∧ ∀ y, y ∉ aboutEvent x → g.Same g' y := by
  have refl : ∀ y, g.Same g y := fun y => by cases y <;> rfl
  cases x with
  | call e c =>
    obtain ⟨g', e1, m, k⟩ := run_set (env := e) (c := c) h
    refine ⟨g', ?_, m, k⟩
    simp only [World.step, World.withSettings, e1]
    rfl
  | start e gas b1 b2 c =>
    have e1 := SettingsProof.start_set (env := e) (s := w.inv) (g := g) (r := ⟨w.program, gas, w.next, b1, b2⟩) (c := c)
    simp only [World.step, World.withSettings, e1]
    cases hs : Async.start e ⟨w.program, gas, w.next, b1, b2⟩ w.inv c with
    | error _ => exact ⟨g, rfl, fun _ hm => hm, fun y _ => refl y⟩
    | ok r =>
      refine ⟨g, rfl, fun y hm => ?_, fun y _ => refl y⟩
      have := (start_ok hs).eq
      dsimp only
      rw [this]
      cases y <;> exact hm
  | answer id p n =>
    refine ⟨g, ?_, fun y hm => ?_, fun y _ => refl y⟩
    · simp only [World.step, World.withSettings]
      split <;> rfl
    · simp only [World.step]
      split <;> cases y <;> exact hm
  | deliver id b =>
    refine ⟨g, ?_, fun y hm => ?_, fun y _ => refl y⟩
    · simp only [World.step, World.withSettings, SettingsProof.replyHandler_set]
      split
      · split <;> rfl
      · rfl
    · simp only [World.step]
      split
      · split
        · next l p _ _ =>
          have e : Async.replyHandler w.inv l.token id p = _ :=
            SettingsProof.replyHandler_set (s := w.inv) (g := settings w.inv) (tok := l.token) (id := id) (p := p)
          dsimp only
          rw [e]
          cases y <;> exact hm
        · exact hm
      · exact hm
  | resume k ms =>
    refine ⟨g, ?_, fun y hm => ?_, fun y _ => refl y⟩
    · simp only [World.step, World.withSettings, SettingsProof.resume_set]
      split <;> rfl
    · simp only [World.step]
      split
      · next legs _ =>
        have e : Async.resume w.inv legs ms = _ :=
          SettingsProof.resume_set (s := w.inv) (g := settings w.inv) (ls := legs) (ms := ms)
        dsimp only
        rw [e]
        cases y <;> exact hm
      · exact hm
  | drift t n => exact ⟨g, rfl, fun y hm => by cases y <;> exact hm, fun y _ => refl y⟩

/-- C119, token transfers: the same with deposits and withdrawals under way. No part of a transfer depends on a setting,
and none changes one. -/
theorem C119_world {es : List Event} : ∀ {w : World} {g : Settings}, (∀ x ∈ es, ∀ y ∈ aboutEvent x, Matches w.inv g y) →
    ∃ g', (w.withSettings g).steps es = (w.steps es).withSettings g' ∧
      (∀ y, Matches w.inv g y → Matches (w.steps es).inv g' y) ∧ ∀ y, (∀ x ∈ es, y ∉ aboutEvent x) → g.Same g' y := by
  induction es with
  | nil => exact fun {w g} _ => ⟨g, rfl, fun _ h => h, fun x _ => by cases x <;> rfl⟩
  | cons x r ih =>
    intro w g h
    obtain ⟨g1, e1, m1, k1⟩ := event_set (h x List.mem_cons_self)
    obtain ⟨g2, e2, m2, k2⟩ := ih (w := w.step x) (g := g1)
      (fun q hq y hy => m1 y (h q (List.mem_cons_of_mem _ hq) y hy))
    refine ⟨g2, ?_, fun y hy => m2 y (m1 y hy), fun y hy => ?_⟩
    · show ((w.withSettings g).step x).steps r = ((w.step x).steps r).withSettings g2
      rw [e1, e2]
    · have a := k1 y (hy x List.mem_cons_self)
      have b := k2 y (fun q hq => hy q (List.mem_cons_of_mem _ hq))
      cases y <;> exact b.trans a

/-- C119, money: who may be admin, which tiers are listed and what the protocol takes decides nothing about deposits and
withdrawals: without calls about settings the balances, the messages and the transfers waited for are the same. -/
theorem C119_money {es : List Event} {w : World} (h : ∀ x ∈ es, aboutEvent x = []) :
    (w.withSettings g).steps es = (w.steps es).withSettings g := by
  obtain ⟨g', e, -, k⟩ := C119_world (es := es) (w := w) (g := g) (fun x hx y hy => by rw [h x hx] at hy; cases hy)
  have : g' = g := by
    have a := k .admin (fun x hx => by rw [h x hx]; exact List.not_mem_nil)
    have b := k .protocolFee (fun x hx => by rw [h x hx]; exact List.not_mem_nil)
    have c := k .feeTiers (fun x hx => by rw [h x hx]; exact List.not_mem_nil)
    cases g; cases g'
    cases a; cases b; cases c
    rfl
  rw [e, this]

/-! ### Examples -/

/-- The tier of a pool is removed; swaps, claims and new positions go on, and the balances become the same. -/
example : SameBusiness
    (runAll Demo.traded [(Demo.by_ 3, .swap Demo.key true 1000 true MIN_SQRT_PRICE), (Demo.by_ 2, .claimFee 0)])
    (runAll (run (Demo.by_ 1) Demo.traded (.removeFeeTier Demo.tier))
      [(Demo.by_ 3, .swap Demo.key true 1000 true MIN_SQRT_PRICE), (Demo.by_ 2, .claimFee 0)]) := by
  have h : (step (Demo.by_ 1) Demo.traded (.removeFeeTier Demo.tier)).toBool = true := by decide +kernel
  cases hs : step (Demo.by_ 1) Demo.traded (.removeFeeTier Demo.tier) with
  | error e => rw [hs] at h; cases h
  | ok s' =>
    rw [show run (Demo.by_ 1) Demo.traded (.removeFeeTier Demo.tier) = s' by unfold run; rw [hs]]
    exact (C119_tiers (.inl hs) (by decide)).1

/-- These messages do something, and the tier is no longer listed: no second pool can be made with it. -/
example : (step (Demo.by_ 3) Demo.traded (.swap Demo.key true 1000 true MIN_SQRT_PRICE)).toBool = true ∧
    (step (Demo.by_ 3) (run (Demo.by_ 1) Demo.traded (.removeFeeTier Demo.tier))
      (.swap Demo.key true 1000 true MIN_SQRT_PRICE)).toBool = true ∧
    (step (Demo.by_ 3) (run (Demo.by_ 1) Demo.traded (.removeFeeTier Demo.tier))
      (.createPool 5 9 Demo.tier (10 ^ 24) 0)).toBool = false ∧
    (step (Demo.by_ 3) Demo.traded (.createPool 5 9 Demo.tier (10 ^ 24) 0)).toBool = true := by decide +kernel

/-- The settings that are listed do matter: another protocol fee gives another pool after a swap, and another admin
another receiver of the fees of a new pool. -/
example : ((run (Demo.by_ 3) (withSettings Demo.traded ⟨1, 0, [Demo.tier]⟩)
      (.swap Demo.key true 100000 true MIN_SQRT_PRICE)).pools.get Demo.key).map (·.feeProtocolTokenX) ≠
    ((run (Demo.by_ 3) (withSettings Demo.traded ⟨1, 10 ^ 11, [Demo.tier]⟩)
      (.swap Demo.key true 100000 true MIN_SQRT_PRICE)).pools.get Demo.key).map (·.feeProtocolTokenX) ∧
    ((run (Demo.by_ 3) (withSettings Demo.traded ⟨4, 0, [Demo.tier]⟩)
      (.createPool 5 9 Demo.tier (10 ^ 24) 0)).pools.get ⟨5, 9, Demo.tier⟩).map (·.feeReceiver) = some 4 := by decide +kernel

/-- A deposit begun, answered and credited under two admins: the balance is the same, and it is the deposit. -/
example : let es := [Event.start (Demo.by_ 2) (10 ^ 12) true true (.depositSingle 7 50), .answer 0 (response 1) 50, .deliver 0 true]
    ((World.init 99 1 0 (fun _ => 0)).withSettings ⟨3, 5, [Demo.tier]⟩).steps es =
      ((World.init 99 1 0 (fun _ => 0)).steps es).withSettings ⟨3, 5, [Demo.tier]⟩ :=
  C119_money (by decide)

example : ((World.init 99 1 0 (fun _ => 0)).steps [Event.start (Demo.by_ 2) (10 ^ 12) true true (.depositSingle 7 50),
    .answer 0 (response 1) 50, .deliver 0 true]).inv.balances.get (2, 7) = some 50 := by decide +kernel

end Verif
