import Verif.Spec.Elsewhere
import Verif.Props.Apart
import Verif.Proofs.WorldInv
import Verif.Props.Home

/-!
# Property C116: nobody notices the token transfers of others

The program commits its state whenever a deposit or withdrawal waits for a token contract, and answers other messages
meanwhile. C90 says what calls see of each other; here the same for the transfers. Whatever transfers others begin,
whatever becomes of them and whenever their replies arrive, in between the calls of an account, these have the same
outcome. And a reply does the same to the balance of its user wherever it arrives among the calls of others.
-/

namespace Verif
open Service Spec Twin Async

/-- The events `es` happen from `w` on. Each is one of the calls `cs`, which name only pools of `K` and accounts of `A`; or
a call that names none of these and changes nothing that all share; or an event of the token transfers of others. -/
inductive Spec.Among (K : PoolKey → Prop) (A : ActorId → Prop) : World → List Event → List (Env × Call) → Prop
  | nil {w : World} : Among K A w [] []
  | ours {w : World} {es : List Event} {cs : List (Env × Call)} (e : Env) (c : Call) :
      (∀ k ∈ touched e w.inv c, K k) → (∀ a ∈ parties e c, A a) → Among K A (w.step (.call e c)) es cs →
      Among K A w (.call e c :: es) ((e, c) :: cs)
  | others {w : World} {es : List Event} {cs : List (Env × Call)} (e : Env) (c : Call) :
      ¬ Shared c → (∀ k ∈ touched e w.inv c, ¬ K k) → (∀ a ∈ parties e c, ¬ A a) → Among K A (w.step (.call e c)) es cs →
      Among K A w (.call e c :: es) cs
  | transfer {w : World} {es : List Event} {cs : List (Env × Call)} (x : Event) :
      Elsewhere A w x → Among K A (w.step x) es cs → Among K A w (x :: es) cs

variable {K : PoolKey → Prop} {A : ActorId → Prop} {e : Env} {s t : Inv} {c : Call} {w : World}

private theorem aside_to (h : AgreeAside K A s t) (n : Nat) : Sim .waitless K A id n n s t :=
  have h := agree_toSim h n
  ⟨h.inj, h.admin, h.protocolFee, h.feeTiers, h.poolKeys, h.tickmap, h.pools, h.ticks, h.lengths, h.positions, h.balances,
    False.elim⟩

private theorem aside_of {n : Nat} (h : Sim .waitless K A id n n s t) : AgreeAside K A s t :=
  agree_ofSim (n := n) ⟨h.inj, h.admin, h.protocolFee, h.feeTiers, h.poolKeys, h.tickmap, h.pools, h.ticks, h.lengths,
    h.positions, h.balances, fun _ k => by
      have : renameTransfer id = id := rfl
      rw [this, Option.map_id]
      rfl⟩

theorem Spec.AgreeAside.refl : AgreeAside K A s s := Agree.refl

theorem Spec.AgreeAside.of (h : Agree K A s t) : AgreeAside K A s t := { h with awaiting := fun _ => rfl }

theorem Spec.AgreeAside.symm (h : AgreeAside K A s t) : AgreeAside K A t s :=
  { Agree.symm h with awaiting := fun _ => rfl }

theorem Spec.AgreeAside.trans {u : Inv} (h : AgreeAside K A s t) (g : AgreeAside K A t u) : AgreeAside K A s u :=
  have g' : Agree K A { t with awaiting := s.awaiting } { u with awaiting := s.awaiting } :=
    { g with awaiting := fun _ => rfl }
  Agree.trans h g'

theorem Spec.AgreeAside.mono {K' : PoolKey → Prop} {A' : ActorId → Prop} (h : AgreeAside K A s t) (hK : ∀ k, K' k → K k)
    (hA : ∀ a, A' a → A a) : AgreeAside K' A' s t := Agree.mono h hK hA

/-- C116, what a call reads: a call does not see the transfers waited for. On two states that agree on its pools and its
accounts it has the same outcome, whatever they wait for. -/
theorem C116_reads (h : AgreeAside K A s t) (hk : ∀ k ∈ touched e s c, K k) (ha : ∀ a ∈ parties e c, A a) :
    SameOutcome (AgreeAside K A) (step e s c) (step e t c) := by
  have h0 : A e.caller := ha _ (by cases c <;> exact List.mem_cons_self)
  have := step_sim (e := e) (e' := e) (aside_to h e.now) rfl rfl c (fun _ => ⟨rfl, rfl⟩) h0
    (fun i r hr => ha r (by subst hr; exact List.mem_cons_of_mem _ List.mem_cons_self)) hk
  rw [show renameCall id c = c by cases c <;> rfl] at this
  exact this.mono fun _ _ => aside_of

private theorem run_aside (h : AgreeAside K A s t) (hk : ∀ k ∈ touched e s c, K k) (ha : ∀ a ∈ parties e c, A a) :
    AgreeAside K A (run e s c) (run e t c) := by
  have := C116_reads h hk ha
  unfold run
  revert this
  generalize step e s c = x
  generalize step e t c = y
  intro this
  cases this with
  | error => exact h
  | ok h => exact h

private theorem aside_frame {b : Balances} {aw : Map (MessageId × ActorId) AwaitingTransfer} {who : ActorId}
    (hb : BalOps who s.balances b) (hw : ¬ A who) : AgreeAside K A s { s with balances := b, awaiting := aw } :=
  ⟨rfl, rfl, rfl, rfl, fun _ => rfl, fun _ _ => rfl, fun _ _ _ => rfl, fun _ _ _ => rfl, fun _ _ => rfl,
    fun _ _ _ => rfl, fun a ha k => hb.other (k := (a, k)) fun h => hw (h ▸ ha)⟩

private theorem reply_frame {tok : ActorId} {id : Nat} {p : Bytes}
    (hw : ∀ a, s.awaiting.get (id, tok) = some a → ¬ A a.account) :
    AgreeAside K A s (replyHandler s tok id p) := by
  cases ha : s.awaiting.get (id, tok) with
  | none => rw [replyHandler_none ha]; exact .refl
  | some a =>
    rcases replyHandler_some (p := p) ha with ⟨_, _, e⟩ | ⟨_, _, e⟩ | ⟨_, e⟩
    · rw [e, creditOrLog_eq]
      exact aside_frame (creditOrLog_balOps s tok a.account a.amount) (hw a ha)
    · rw [e]
      exact { Agree.refl (s := s) (K := K) (A := A) with awaiting := fun _ => rfl }
    · rw [e]; exact .refl

/-- C116, one event: an event of the transfers of others leaves the settings, all pools, and the balances and positions of
the accounts of `A` as they are. -/
theorem C116_event (hw : Hist w) {x : Event} (hx : Elsewhere A w x) : AgreeAside (fun _ => True) A w.inv (w.step x).inv := by
  cases x with
  | call e c => exact hx.elim
  | start env gas b1 b2 c =>
    unfold World.step
    dsimp only
    cases hs : Async.start env ⟨w.program, gas, w.next, b1, b2⟩ w.inv c with
    | error _ => exact .refl
    | ok r =>
      have h := start_ok hs
      have e := h.eq
      dsimp only
      rw [e]
      exact aside_frame h.ops hx
  | answer id p n =>
    unfold World.step
    dsimp only
    split <;> exact .refl
  | deliver id runs =>
    unfold World.step
    dsimp only
    split
    · next l p hm =>
      split
      · refine reply_frame fun a ha => ?_
        obtain ⟨m, h1, -, h3⟩ := (hist_inv hw).aw _ _ _ ha
        rw [h3]
        exact hx m h1
      · exact .refl
    · exact .refl
  | resume k ms =>
    unfold World.step
    dsimp only
    split
    · next legs _ =>
      obtain ⟨aw, e, -⟩ := resume_frame w.inv legs ms
      dsimp only
      rw [e]
      exact { Agree.refl (s := w.inv) (K := fun _ => True) (A := A) with awaiting := fun _ => rfl }
    · exact .refl
  | drift t n => exact .refl

private theorem touched_aside (h : AgreeAside K A s t) (ha : A e.caller) : touched e t c = touched e s c := by
  have := touched_agree (c := c) (e := e) h ha
  rw [← this]
  cases c <;> rfl

private theorem among_agree {es : List Event} {cs : List (Env × Call)} (h : Among K A w es cs) :
    ∀ {s : Inv}, Hist w → AgreeAside K A s w.inv → AgreeAside K A (runAll s cs) (w.steps es).inv := by
  induction h with
  | nil => intro s _ ha; exact ha
  | ours e c hk hp _ ih =>
    intro s hw ha
    have h0 : A e.caller := hp _ (by cases c <;> exact List.mem_cons_self)
    exact ih (.step _ hw) (run_aside ha (fun k hm => hk k (by rwa [touched_aside ha h0])) hp)
  | others e c hc hk hp _ ih =>
    intro s hw ha
    exact ih (.step _ hw) (ha.trans (.of (C90_writes hc hk hp)))
  | transfer x hx _ ih =>
    intro s hw ha
    exact ih (.step _ hw) (ha.trans ((C116_event hw hx).mono (fun _ _ => trivial) fun _ h => h))

/-- C116, histories: among any transfers of others and any calls of others in other pools, the pools and the accounts
concerned end as if only their own calls had been made. -/
theorem C116_history (hw : Hist w) {es : List Event} {cs : List (Env × Call)} (h : Among K A w es cs) :
    AgreeAside K A (runAll w.inv cs) (w.steps es).inv := among_agree h hw .refl

/-- C116, outcomes: the next call of such an account succeeds or fails as if only the account's own calls had been made,
and with the same error. -/
theorem C116_outcome (hw : Hist w) {es : List Event} {cs : List (Env × Call)} (h : Among K A w es cs)
    (hk : ∀ k ∈ touched e (w.steps es).inv c, K k) (ha : ∀ a ∈ parties e c, A a) :
    SameOutcome (AgreeAside K A) (step e (runAll w.inv cs) c) (step e (w.steps es).inv c) := by
  have h0 : A e.caller := ha _ (by cases c <;> exact List.mem_cons_self)
  have g := C116_history hw h
  exact C116_reads g (fun k hm => hk k (by rwa [touched_aside g h0])) ha

/-! ### The moment of the reply -/

private theorem credit_same {b b' : Inv} {who tok : ActorId} {n : Nat}
    (h : ∀ k, b'.balances.get (who, k) = b.balances.get (who, k)) (k : ActorId) :
    (creditOrLog b' tok who n).balances.get (who, k) = (creditOrLog b tok who n).balances.get (who, k) := by
  unfold creditOrLog increaseTokenBalance
  by_cases h0 : n = 0
  · simp only [h0, if_true]; exact h k
  · simp only [h0, if_false, h tok]
    cases addC 256 (.inv .FailedToChangeTokenBalance) ((b.balances.get (who, tok)).getD 0) n with
    | error _ => exact h k
    | ok v =>
      show (b'.balances.insert (who, tok) v).get (who, k) = (b.balances.insert (who, tok) v).get (who, k)
      rw [Map.get_insert, Map.get_insert, h k]

private theorem reply_same {b b' : Inv} {who tok : ActorId} {id : Nat} {p : Bytes}
    (ha : ∀ k, b'.awaiting.get k = b.awaiting.get k) (hw : ∀ a, b.awaiting.get (id, tok) = some a → a.account = who)
    (h : ∀ k, b'.balances.get (who, k) = b.balances.get (who, k)) :
    (∀ k, (replyHandler b' tok id p).awaiting.get k = (replyHandler b tok id p).awaiting.get k) ∧
    (∀ k, (replyHandler b' tok id p).balances.get (who, k) = (replyHandler b tok id p).balances.get (who, k)) ∧
    (replyHandler b tok id p).positions = b.positions ∧ (replyHandler b' tok id p).positions = b'.positions := by
  have he : ∀ k, (b'.awaiting.erase (id, tok)).get k = (b.awaiting.erase (id, tok)).get k := fun k => by
    rw [Map.get_erase, Map.get_erase, ha]
  cases hb : b.awaiting.get (id, tok) with
  | none =>
    rw [replyHandler_none hb, replyHandler_none ((ha _).trans hb)]
    exact ⟨ha, h, rfl, rfl⟩
  | some a =>
    have hb' := (ha _).trans hb
    rcases replyHandler_some (p := p) hb with ⟨r, q, e⟩ | ⟨r, q, e⟩ | ⟨r, e⟩ <;>
      rcases replyHandler_some (p := p) hb' with ⟨r', q', e'⟩ | ⟨r', q', e'⟩ | ⟨r', e'⟩ <;>
      first
      | exact absurd q q'
      | exact absurd q' q
      | exact absurd r r'
      | exact absurd r' r
      | skip
    · rw [e, e']
      have hu := hw a hb
      subst hu
      refine ⟨he, fun k => credit_same h k, ?_, ?_⟩ <;> (rw [creditOrLog_eq])
    · rw [e, e']; exact ⟨he, h, rfl, rfl⟩
    · rw [e, e']; exact ⟨ha, h, rfl, rfl⟩

private theorem run_other {u : ActorId} (hu : u ∉ parties e c) :
    (∀ k, (run e s c).balances.get (u, k) = s.balances.get (u, k)) ∧
    (run e s c).positions.getLength u = s.positions.getLength u ∧
    (∀ i, (run e s c).positions.get u i = s.positions.get u i) ∧ (run e s c).awaiting = s.awaiting := by
  have hne : u ≠ e.caller := fun h => hu (by rw [h]; cases c <;> exact List.mem_cons_self)
  unfold run
  cases h : step e s c with
  | error x => exact ⟨fun _ => rfl, rfl, fun _ => rfl, rfl⟩
  | ok t =>
    refine ⟨fun k => (step_balOps h).other (k := (u, k)) hne, ?_⟩
    rcases C26_positions h u hne with ⟨h1, h2⟩ | ⟨i, p, rfl, -⟩
    · exact ⟨h1, h2, (step_settings h).awaiting⟩
    · exact absurd (List.mem_cons_of_mem _ List.mem_cons_self) hu

/-- what the reply to a request does to the state -/
private def arrived (s : Inv) (id : Nat) (runs : Bool) (l : Leg) : Option Bytes → Inv
  | some p => if runs then replyHandler s l.token id p else s
  | none => s

private theorem deliver_inv {id : Nat} {runs : Bool} {l : Leg} {ans : Option Bytes} (hm : w.msgs.get id = some ⟨l, ans⟩) :
    (w.step (.deliver id runs)).inv = arrived w.inv id runs l ans := by
  simp only [World.step, hm]
  cases ans with
  | none => rfl
  | some p => cases runs <;> rfl

/-- C116, the moment of a reply: whether a reply arrives before or after a call that does not involve its user, the call
has the same outcome, and the state after both is the same. -/
theorem C116_moment (hw : Hist w) {id : Nat} {runs : Bool} {m : Msg} (hm : w.msgs.get id = some m)
    (hu : user m.leg ∉ parties e c) :
    SameOutcome (fun _ _ => True) (step e w.inv c) (step e (w.step (.deliver id runs)).inv c) ∧
    SameState ((w.step (.deliver id runs)).step (.call e c)).inv ((w.step (.call e c)).step (.deliver id runs)).inv := by
  have hA : ∀ a ∈ parties e c, a ≠ user m.leg := fun a ha h => hu (h ▸ ha)
  have hx : ∀ v : World, v.msgs = w.msgs → Elsewhere (· ≠ user m.leg) v (.deliver id runs) := by
    intro v hv m' hm' hn
    rw [hv, hm] at hm'
    exact hn (by rw [Option.some.inj hm'])
  have g1 := C116_event hw (hx w rfl)
  have g2 := C116_event (.step (.call e c) hw) (hx (w.step (.call e c)) rfl)
  have g3 := C116_reads g1 (e := e) (c := c) (fun _ _ => trivial) hA
  refine ⟨g3.mono fun _ _ _ => trivial, ?_⟩
  have g4 : AgreeAside (fun _ => True) (· ≠ user m.leg) ((w.step (.deliver id runs)).step (.call e c)).inv
      ((w.step (.call e c)).step (.deliver id runs)).inv :=
    (run_aside g1 (fun _ _ => trivial) hA).symm.trans g2
  -- the user's own things and the transfers waited for
  have key : (∀ k, ((w.step (.call e c)).step (.deliver id runs)).inv.awaiting.get k =
        (w.step (.deliver id runs)).inv.awaiting.get k) ∧
      (∀ k, ((w.step (.call e c)).step (.deliver id runs)).inv.balances.get (user m.leg, k) =
        (w.step (.deliver id runs)).inv.balances.get (user m.leg, k)) ∧
      (w.step (.deliver id runs)).inv.positions = w.inv.positions ∧
      ((w.step (.call e c)).step (.deliver id runs)).inv.positions = (run e w.inv c).positions := by
    obtain ⟨o1, -, -, o4⟩ := run_other (s := w.inv) hu
    obtain ⟨l, ans⟩ := m
    have hm' : (w.step (.call e c)).msgs.get id = some ⟨l, ans⟩ := hm
    rw [deliver_inv hm', deliver_inv hm]
    cases ans with
    | none => exact ⟨fun k => congrArg (fun m => m.get k) o4, o1, rfl, rfl⟩
    | some p =>
      cases runs with
      | false => exact ⟨fun k => congrArg (fun m => m.get k) o4, o1, rfl, rfl⟩
      | true =>
        exact reply_same (b := w.inv) (b' := run e w.inv c) (who := user l) (tok := l.token) (id := id) (p := p)
          (fun k => by rw [o4]) (fun a ha => by
            obtain ⟨m', h1, -, h3⟩ := (hist_inv hw).aw _ _ _ ha
            rw [hm] at h1
            rw [h3, ← Option.some.inj h1]) o1
  obtain ⟨k1, k2, k3, k4⟩ := key
  obtain ⟨o1, o2, o3, o4⟩ := run_other (s := (w.step (.deliver id runs)).inv) hu
  obtain ⟨-, p2, p3, -⟩ := run_other (s := w.inv) hu
  have split : ∀ {P : ActorId → Prop}, (∀ a, a ≠ user m.leg → P a) → P (user m.leg) → ∀ a, P a := fun h1 h2 a => by
    by_cases h : a = user m.leg
    · rw [h]; exact h2
    · exact h1 a h
  refine ⟨g4.admin, g4.protocolFee, g4.feeTiers, g4.poolKeys, fun k => ?_, g4.pool, g4.tick, g4.word,
    fun a _ => split g4.length ?_ a, fun a _ => split g4.position ?_ a, fun a _ => split g4.balance ?_ a⟩
  · show _ = (run e (w.step (.deliver id runs)).inv c).awaiting.get k
    rw [o4]; exact k1 k
  · show _ = (run e (w.step (.deliver id runs)).inv c).positions.getLength _
    rw [o2, k3]; show ((w.step (.call e c)).step (.deliver id runs)).inv.positions.getLength _ = _
    rw [k4]; exact p2
  · intro i
    show _ = (run e (w.step (.deliver id runs)).inv c).positions.get _ i
    rw [o3, k3]; show ((w.step (.call e c)).step (.deliver id runs)).inv.positions.get _ i = _
    rw [k4]; exact p3 i
  · intro k
    show _ = (run e (w.step (.deliver id runs)).inv c).balances.get _
    rw [o1]; exact k2 k

namespace ElsewhereDemo
open HomeDemo

/-- accounts 2 and 3 have deposited, account 2 has a pool and a position -/
def before : World := (fresh.steps well).world

theorem hist : Hist before := coins_world (Whole.coinHist (well_hist 6 (.inl rfl)))

def swap : Env × Call := (HomeDemo.by_ 2, .swap key false 1000 true MAX_SQRT_PRICE)
def claim : Env × Call := (HomeDemo.by_ 2, .claimFee 0)

/-- account 3 takes all its tokens home; the request, the answer and the reply come between two calls of account 2 -/
def events : List Event :=
  [.start (HomeDemo.by_ 3) (10 ^ 12) true true (.withdrawSingle 6 none), .call swap.1 swap.2, .answer 6 yes 1000000,
   .deliver 6 true, .resume 6 [some true], .call claim.1 claim.2]

theorem among : Among (· = key) (· = 2) before events [swap, claim] := by
  refine .transfer _ (show ¬ (3 : ActorId) = 2 by decide) (.ours _ _ (by decide +kernel) (by decide +kernel) (.transfer _ trivial (.transfer _ ?_
    (.transfer _ trivial (.ours _ _ (by decide +kernel) (by decide +kernel) .nil)))))
  intro m hm h
  have e : (Option.map (fun m : Msg => user m.leg)
    ((((before.step events[0]).step events[1]).step events[2]).msgs.get 6)) = some 3 := by decide +kernel
  rw [show ((((before.step events[0]).step events[1]).step events[2]).msgs.get 6) = some m from hm] at e
  exact absurd ((Option.some.inj e).symm.trans h) (by decide)

end ElsewhereDemo

open HomeDemo ElsewhereDemo in
/-- Account 2 ends as if account 3 had sent nothing. -/
example : AgreeAside (· = key) (· = 2) (runAll before.inv [swap, claim]) (before.steps events).inv := C116_history hist among

open HomeDemo ElsewhereDemo in
/-- Both calls of account 2 succeed; account 3 has a billion before and nothing afterwards. -/
example : (step swap.1 before.inv swap.2).toBool = true ∧ bal before.inv.balances 3 6 = 10 ^ 9 ∧
    bal (before.steps events).inv.balances 3 6 = 0 ∧
    (before.steps events).inv.balances.get (2, 7) = (runAll before.inv [swap, claim]).balances.get (2, 7) ∧
    (before.steps events).inv.balances.get (2, 7) ≠ before.inv.balances.get (2, 7) := by decide +kernel

open HomeDemo ElsewhereDemo in
/-- For the user's own calls the moment of the reply matters: account 3 can trade token 7 only after the reply. -/
example : (step (HomeDemo.by_ 3) (before.steps [.start (HomeDemo.by_ 3) (10 ^ 12) true true (.depositSingle 7 5000), .answer 6 yes 0]).inv
      (.swap key false 1000 true MAX_SQRT_PRICE)).toBool = false ∧
    (step (HomeDemo.by_ 3) (before.steps [.start (HomeDemo.by_ 3) (10 ^ 12) true true (.depositSingle 7 5000), .answer 6 yes 0,
      .deliver 6 true]).inv (.swap key false 1000 true MAX_SQRT_PRICE)).toBool = true := by decide +kernel

end Verif
