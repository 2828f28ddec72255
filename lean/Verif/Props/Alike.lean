import Verif.Proofs.Alike
import Verif.Spec.Demo

/-!
# Properties C88 and C89: neither the clock nor the name of an account decides anything

C88: two runs of the same messages at different times, in blocks with different numbers, end in states that differ in
nothing but the stored times; every message has the same outcome in both, with the same amounts or the same error.
C89: if every account is renamed, in the state and in the messages, the outcome is the same with renamed accounts. No
account has a role of its own beyond those stored for it: administrator, receiver of the protocol fee, owner.
-/

namespace Verif
open Service Spec Twin

variable {σ : ActorId → ActorId} {e e' : Env} {s t : Inv} {n m : Nat}

private theorem toSim (hs : Function.Injective σ) (h : Alike σ s t) (hn : Started s n) (hm : Started t m) :
    Sim .timeless (fun _ => True) (fun _ => True) σ n m s t where
  inj := hs
  admin := h.admin
  protocolFee := h.protocolFee
  feeTiers := h.feeTiers
  poolKeys := h.poolKeys
  tickmap := .of_like fun z _ => by
    show Option.Rel _ _ (t.tickmap.get z)
    rw [h.tickmap]
    cases s.tickmap.get z with
    | none => exact .none
    | some v => exact .some rfl
  lengths := fun a _ => h.lengths a
  awaiting := fun _ => h.awaiting
  pools := fun k _ => by
    have h1 := h.pools k
    have h2 := hn k
    have h3 := hm k
    show Option.Rel _ _ (t.pools.get k)
    revert h1 h2 h3
    generalize s.pools.get k = a
    generalize t.pools.get k = b
    intro h1 h2 h3
    cases h1 with
    | none => exact .none
    | some h => exact .some ⟨_, _, h, .inr ⟨h2 _ rfl, h3 _ rfl⟩, False.elim, False.elim, .inl trivial⟩
  ticks := fun k _ => by
    have h1 := h.ticks k
    show Option.Rel _ _ (t.ticks.get k)
    revert h1
    generalize s.ticks.get k = a
    generalize t.ticks.get k = b
    intro h1
    cases h1 with
    | none => exact .none
    | some h => exact .some ⟨_, _, h, False.elim, .inl rfl, .inl trivial⟩
  positions := fun k _ => by
    have h1 := h.positions k.1 k.2
    show Option.Rel _ (s.positions.map.get (k.1, k.2)) (t.positions.map.get (σ k.1, k.2))
    revert h1
    generalize s.positions.map.get (k.1, k.2) = a
    generalize t.positions.map.get (σ k.1, k.2) = b
    intro h1
    cases h1 with
    | none => exact .none
    | some h => exact .some ⟨_, h, False.elim⟩
  balances := fun k _ => by
    show Option.Rel _ (s.balances.get (k.1, k.2)) (t.balances.get (σ k.1, k.2))
    rw [h.balances]
    cases s.balances.get (k.1, k.2) with
    | none => exact .none
    | some v => exact .some rfl

private theorem ofSim (h : Sim .timeless (fun _ => True) (fun _ => True) σ n m s t) : Alike σ s t ∧ Started s n ∧ Started t m := by
  refine ⟨⟨h.admin, h.protocolFee, h.feeTiers, h.poolKeys, fun z => ?_, fun k => ?_, fun k => ?_,
    fun a => h.lengths a trivial,
    fun a i => ?_, fun a k => bal_eq (A := fun _ => True) h.balances trivial k, h.awaiting trivial⟩, fun k p hp => ?_, fun k p hp => ?_⟩
  · have h1 := h.tickmap.2 trivial z trivial
    change Option.Rel _ _ (t.tickmap.get z) at h1
    revert h1
    generalize s.tickmap.get z = a
    generalize t.tickmap.get z = b
    intro h1
    cases h1 with
    | none => rfl
    | some h => rw [h]
  · have h1 := h.pools k trivial
    change Option.Rel _ _ (t.pools.get k) at h1
    revert h1
    generalize s.pools.get k = a
    generalize t.pools.get k = b
    intro h1
    cases h1 with
    | none => exact .none
    | some h => obtain ⟨st, lt, rfl, -⟩ := h; exact .some rfl
  · have h1 := h.ticks k trivial
    change Option.Rel _ _ (t.ticks.get k) at h1
    revert h1
    generalize s.ticks.get k = a
    generalize t.ticks.get k = b
    intro h1
    cases h1 with
    | none => exact .none
    | some h =>
      obtain ⟨so, sg, rfl, -, hs, -⟩ := h
      rw [hs.resolve_right fun h => h.1 trivial]
      exact .some rfl
  · have h1 := h.positions (a, i) trivial
    change Option.Rel _ _ (t.positions.map.get (σ a, i)) at h1
    revert h1
    generalize s.positions.map.get (a, i) = x
    generalize t.positions.map.get (σ a, i) = y
    intro h1
    cases h1 with
    | none => exact .none
    | some h => obtain ⟨so, rfl, -⟩ := h; exact .some rfl
  · have h1 := h.pools k trivial
    change Option.Rel _ _ (t.pools.get k) at h1
    rw [hp] at h1
    revert h1
    generalize t.pools.get k = b
    intro h1
    cases h1 with
    | some h => obtain ⟨st, lt, rfl, h1, -⟩ := h; exact (h1.resolve_left id).1
  · have h1 := h.pools k trivial
    change Option.Rel _ _ (t.pools.get k) at h1
    rw [hp] at h1
    revert h1
    generalize s.pools.get k = b
    intro h1
    cases h1 with
    | some h => obtain ⟨st, lt, rfl, h1, -⟩ := h; exact (h1.resolve_left id).2

private theorem trade {a b : CalculateSwapResult} (h : ResSim .timeless σ n m a b) : SameTrade a b :=
  ⟨h.amountIn, h.amountOut, h.start, h.target, h.fee⟩

/-- C89, one message: if the accounts are renamed in the state and in the message, and both are handled at times not
before the creation of a pool, then both fail with the same error or both succeed, with states that are again alike. -/
theorem C89_step (hs : Function.Injective σ) (h : Alike σ s t) (hn : Started s e.now) (hm : Started t e'.now)
    (hc : e'.caller = σ e.caller) (hv : e'.value = e.value) (c : Call) :
    SameOutcome (fun a b => Alike σ a b ∧ Started a e.now ∧ Started b e'.now) (step e s c)
      (step e' t (renameCall σ c)) :=
  (step_sim (toSim hs h hn hm) hc hv c False.elim trivial (fun _ _ _ => trivial) (fun _ _ => trivial)).mono fun _ _ h => ofSim h

/-- C89, the replies: the same amounts for the renamed account. -/
theorem C89_replies (hs : Function.Injective σ) (h : Alike σ s t) (hn : Started s e.now) (hm : Started t e'.now)
    (hc : e'.caller = σ e.caller) :
    (∀ k d v b l, SameOutcome (fun a b => SameTrade a.2 b.2) (swap e s k d v b l) (swap e' t k d v b l)) ∧
    (∀ v w x l, SameOutcome (fun a b => b.2 = a.2) (swapRoute e s v w x l) (swapRoute e' t v w x l)) ∧
    (∀ k d v b l, SameOutcome (fun a b => b.amountIn = a.amountIn ∧ b.amountOut = a.amountOut ∧
      b.targetSqrtPrice = a.targetSqrtPrice ∧ List.Forall₂ TickLike a.ticks b.ticks) (quote s e.now k d v b l)
      (quote t e'.now k d v b l)) ∧
    (∀ k l u d a b, SameOutcome (fun a b => PositionLike a.2 b.2) (createPosition e s k l u d a b)
      (createPosition e' t k l u d a b)) ∧
    (∀ i, SameOutcome (fun a b => b.2 = a.2) (removePosition e s i) (removePosition e' t i)) ∧
    (∀ i, SameOutcome (fun a b => b.2 = a.2) (claimFee e s i) (claimFee e' t i)) ∧
    (∀ k, SameOutcome (fun a b => b.2 = a.2) (withdrawProtocolFee e s k) (withdrawProtocolFee e' t k)) ∧
    (∀ v, SameOutcome (fun a b => b.2 = a.2) (withdrawVara e s v) (withdrawVara e' t v)) := by
  have hsim := toSim hs h hn hm
  refine ⟨fun k d v b l => (swap_sim hsim hc trivial trivial).mono fun _ _ h => trade h.2,
    fun v w x l => (swapRoute_sim hsim hc trivial fun _ _ => trivial).mono fun _ _ h => h.2, fun k d v b l => ?_,
    fun k l u d a b => (createPosition_sim hsim hc trivial False.elim trivial).mono fun _ _ h => ?_,
    fun i => (removePosition_sim hsim hc trivial False.elim fun _ _ => trivial).mono fun _ _ h => h.2,
    fun i => (claimFee_sim hsim hc trivial False.elim fun _ _ => trivial).mono fun _ _ h => h.2,
    fun k => (withdrawProtocolFee_sim hsim hc trivial trivial).mono fun _ _ h => h.2,
    fun v => (withdrawVara_sim hsim hc trivial).mono fun _ _ h => h.2⟩
  · unfold quote
    refine (calculateSwap_sim hsim trivial).bind fun a b hab => .pure ⟨hab.amountIn, hab.amountOut, hab.pool.eqs.1, ?_⟩
    exact hab.ticks.imp fun _ _ h => by obtain ⟨so, sg, rfl, -, hs, -⟩ := h; rw [hs.resolve_right fun h => h.1 trivial]; rfl
  · obtain ⟨k, hk, -⟩ := h.2
    unfold PositionLike
    rw [hk]

/-- C89, histories: the same messages of renamed accounts, in both runs at times that do not decrease, lead to states
that are alike; the times and the blocks may differ. -/
theorem C89_history (hs : Function.Injective σ) {l l' : List (Env × Call)} (hl : SameMessages σ l l') :
    ∀ {s t : Inv} {n m : Nat}, Alike σ s t → Started s n → Started t m → Ordered n l → Ordered m l' →
      Alike σ (runAll s l) (runAll t l') := by
  induction hl with
  | nil => intro s t n m h _ _ _ _; exact h
  | @cons a b l l' hab _ ih =>
    intro s t n m h hn hm ho ho'
    obtain ⟨e, c⟩ := a
    obtain ⟨e', c'⟩ := b
    obtain ⟨hc, hv, rfl⟩ := hab
    have hn' : Started s e.now := fun k p hp => (hn k p hp).trans ho.1
    have hm' : Started t e'.now := fun k p hp => (hm k p hp).trans ho'.1
    have hst := C89_step hs h hn' hm' hc hv c
    unfold runAll run
    dsimp only
    revert hst
    generalize step e s c = x
    generalize step e' t (renameCall σ c) = y
    intro hst
    cases hst with
    | ok hk => exact ih hk.1 hk.2.1 hk.2.2 ho.2 ho'.2
    | error => exact ih h hn' hm' ho.2 ho'.2

private theorem renameCall_id (c : Call) : renameCall id c = c := by cases c <;> rfl

/-- C88, one message: on states that differ only in times, a message sent at another time, in another block, has the
same outcome, and the states differ only in times afterwards. -/
theorem C88_step (h : Alike id s t) (hn : Started s e.now) (hm : Started t e'.now) (hc : e'.caller = e.caller)
    (hv : e'.value = e.value) (c : Call) :
    SameOutcome (fun a b => Alike id a b ∧ Started a e.now ∧ Started b e'.now) (step e s c) (step e' t c) := by
  have := C89_step Function.injective_id h hn hm hc hv c
  rwa [renameCall_id] at this

/-- every state is like itself -/
theorem alike_refl (s : Inv) : Alike id s s := by
  have hp : ∀ x : Option Pool, Option.Rel (PoolLike id) x x := fun x => by cases x; exacts [.none, .some rfl]
  have ht : ∀ x : Option Tick, Option.Rel TickLike x x := fun x => by cases x; exacts [.none, .some rfl]
  have hq : ∀ x : Option Position, Option.Rel PositionLike x x := fun x => by cases x; exacts [.none, .some rfl]
  refine ⟨rfl, rfl, rfl, rfl, fun z => rfl, fun k => hp _, fun k => ht _, fun a => rfl, fun a i => hq _, fun a k => rfl,
    fun k => ?_⟩
  have : renameTransfer id = id := rfl
  rw [this, Option.map_id]
  rfl

/-- C88, the replies: whenever it is sent, a message is answered with the same amounts. Stated for one state and two
times; `C89_replies` with `σ = id` covers two states that differ in times. -/
theorem C88_replies (hn : Started s e.now) (hm : Started s e'.now) (hc : e'.caller = e.caller) :
    (∀ k d v b l, SameOutcome (fun a b => SameTrade a.2 b.2) (swap e s k d v b l) (swap e' s k d v b l)) ∧
    (∀ v w x l, SameOutcome (fun a b => b.2 = a.2) (swapRoute e s v w x l) (swapRoute e' s v w x l)) ∧
    (∀ i, SameOutcome (fun a b => b.2 = a.2) (removePosition e s i) (removePosition e' s i)) ∧
    (∀ i, SameOutcome (fun a b => b.2 = a.2) (claimFee e s i) (claimFee e' s i)) := by
  obtain ⟨h1, h2, -, -, h5, h6, -⟩ := C89_replies Function.injective_id (alike_refl s) hn hm hc
  exact ⟨h1, h2, h5, h6⟩

/-- C88, histories: from the deployment on, two runs of the same messages, each at times that do not decrease, end in
states that differ only in times. -/
theorem C88_history {l l' : List (Env × Call)} (hl : SameMessages id l l') (ho : Ordered 0 l) (ho' : Ordered 0 l')
    (admin : ActorId) (fee : Nat) : Alike id (runAll (Inv.init admin fee) l) (runAll (Inv.init admin fee) l') :=
  C89_history Function.injective_id hl (alike_refl _) (fun k p hp => by cases hp) (fun k p hp => by cases hp) ho ho'

namespace AlikeDemo

/-- a history of messages with a swap across a tick; `f` renames the accounts, `g` sets the times -/
def messages (f : ActorId → ActorId) (g : Nat → Nat) : List (Env × Call) :=
  [(⟨f 1, g 1, 1, 0⟩, .addFeeTier Demo.tier), (⟨f 2, g 2, 2, 0⟩, .createPool 5 7 Demo.tier (10 ^ 24) 0),
   (⟨f 2, g 3, 3, 0⟩, .createPosition Demo.key (-20) 20 (10 ^ 15) 0 (10 ^ 25)),
   (⟨f 3, g 4, 4, 0⟩, .createPosition Demo.key (-10) 10 (3 * 10 ^ 15) 0 (10 ^ 25)),
   (⟨f 2, g 5, 5, 0⟩, .swap Demo.key true (22 * 10 ^ 6) true MIN_SQRT_PRICE)]

/-- balances of 10^20 of both tokens for two accounts -/
def rich (a b : ActorId) (admin : ActorId) : Inv :=
  { Inv.init admin (10 ^ 11) with
    balances := ((((∅ : Balances).insert (a, 5) (10 ^ 20)).insert (a, 7) (10 ^ 20)).insert (b, 5) (10 ^ 20)).insert
      (b, 7) (10 ^ 20) }

def first : Inv := runAll (rich 2 3 1) (messages id id)
def second : Inv := runAll (rich 2 3 1) (messages id (fun n => 1000 * n))
def third : Inv := runAll (rich 52 53 51) (messages (50 + ·) id)

/-- the balances of an account, the crossed tick and the pool -/
def seen (s : Inv) (a : ActorId) : List (Option Nat) :=
  [s.balances.get (a, 5), s.balances.get (a, 7), (s.ticks.get (Demo.key, -10)).map Tick.feeGrowthOutsideX,
   (s.pools.get Demo.key).map Pool.sqrtPrice, (s.pools.get Demo.key).map Pool.liquidity,
   (s.ticks.get (Demo.key, -10)).map Tick.secondsOutside, (s.pools.get Demo.key).map Pool.startTimestamp]

end AlikeDemo

open AlikeDemo in
/-- A swap across a tick in three runs: at other times only the seconds of the tick and the start of the pool differ,
under other names nothing. -/
example :
    seen first 2 = [some 99999999999968005497, some 100000000000011971154, some 4501000000000000000000,
      some 999302984359663232683739, some 1000000000000000, some 1, some 2] ∧
    seen second 2 = [some 99999999999968005497, some 100000000000011971154, some 4501000000000000000000,
      some 999302984359663232683739, some 1000000000000000, some 1000, some 2000] ∧
    seen third 52 = seen first 2 := by
  decide +kernel

open AlikeDemo in
/-- The theorem on the first two runs: the messages are the same, the times are ordered. -/
example : Alike id first second := by
  refine C89_history Function.injective_id ?_ (alike_refl (rich 2 3 1)) (n := 0) (m := 0) (fun k p hp => by cases hp)
    (fun k p hp => by cases hp) (by simp [messages, Ordered]) (by simp [messages, Ordered])
  simp [messages, SameMessages, renameCall]

end Verif
