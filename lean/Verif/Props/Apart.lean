import Verif.Proofs.Alike
import Verif.Spec.Apart
import Verif.Props.Authority
import Verif.Spec.Demo

/-!
# Property C90: a call sees its own pools and its own accounts only

What a call does, whether it fails and with what error, depends on the settings, on the pools it names and on the
accounts it involves, and on nothing else of the state. Together with C26 and C49, which say what a call leaves alone:
two groups of messages with different accounts on different pools do not see each other. However their messages are
interleaved, each group ends as if the other had sent nothing.
-/

namespace Verif
open Service Spec Twin

variable {K : PoolKey → Prop} {A : ActorId → Prop} {e : Env} {s t : Inv} {c : Call}

private theorem like_of {κ V : Type} [DecidableEq κ] {P : κ → Prop} {R : V → V → Prop} (hR : ∀ v, R v v)
    {m m' : Map κ V} (h : ∀ k, P k → m'.get k = m.get k) : MapLike P id R m m' := by
  intro k hk
  show Option.Rel _ _ (m'.get k)
  rw [h k hk]
  cases m.get k with
  | none => exact .none
  | some v => exact .some (hR v)

private theorem of_like {κ V : Type} [DecidableEq κ] {P : κ → Prop} {R : V → V → Prop} (hR : ∀ v w, R v w → w = v)
    {m m' : Map κ V} (h : MapLike P id R m m') (k : κ) (hk : P k) : m'.get k = m.get k := by
  have := h k hk
  revert this
  show Option.Rel _ _ (m'.get k) → _
  generalize m.get k = a
  generalize m'.get k = b
  intro this
  cases this with
  | none => rfl
  | some h => rw [hR _ _ h]

private theorem get_iff {ps ps' : Positions} {a : ActorId} {i : Nat} :
    ps'.get a i = ps.get a i ↔ ps'.map.get (a, i) = ps.map.get (a, i) := by
  unfold Positions.get
  constructor
  · cases ps.map.get (a, i) <;> cases ps'.map.get (a, i) <;> simp [okOr]
  · intro h; rw [h]

private theorem map_id_eq : Prod.map (id : ActorId → ActorId) (id : V → V) = id := rfl

private theorem pool_eq {n : Nat} {p q : Pool} (h : PoolSim .all id n n p q) : q = p := by
  obtain ⟨st, lt, rfl, -, h, h', -⟩ := h
  obtain ⟨-, rfl⟩ := h trivial
  rw [h' trivial]
  rfl

private theorem tick_eq {p q : Tick} (h : TickSim .all p q) : q = p := by
  obtain ⟨so, sg, rfl, h, h', -⟩ := h
  rw [h trivial, h'.resolve_right fun h => h.1 trivial]

private theorem pos_eq {p q : Position} (h : PosSim .all p q) : q = p := by
  obtain ⟨b, rfl, h⟩ := h
  rw [h trivial]

theorem agree_toSim (h : Agree K A s t) (n : Nat) : Sim .all K A id n n s t where
  inj := Function.injective_id
  admin := h.admin
  protocolFee := h.protocolFee
  feeTiers := h.feeTiers
  poolKeys := h.poolKeys
  tickmap := .of_like <| like_of (fun _ => rfl) fun z hz => h.word z.2 hz z.1
  pools := like_of (fun p => ⟨_, _, rfl, .inl trivial, fun _ => ⟨rfl, rfl⟩, fun _ => rfl, .inl trivial⟩) h.pool
  ticks := like_of (fun p => ⟨_, _, rfl, fun _ => rfl, .inl rfl, .inl trivial⟩) fun z hz => h.tick z.1 hz z.2
  lengths := h.length
  positions := like_of (fun p => ⟨_, rfl, fun _ => rfl⟩) fun z hz => get_iff.1 (h.position z.1 hz z.2)
  balances := like_of (fun _ => rfl) fun z hz => h.balance z.1 hz z.2
  awaiting := fun _ k => by
    have : renameTransfer id = id := rfl
    rw [h.awaiting, this, Option.map_id]
    rfl

theorem agree_ofSim {n : Nat} (h : Sim .all K A id n n s t) : Agree K A s t where
  admin := h.admin
  protocolFee := h.protocolFee
  feeTiers := h.feeTiers
  poolKeys := h.poolKeys
  word := fun k hk c => of_like (fun _ _ h => h.symm) (h.tickmap.2 trivial) (c, k) hk
  pool := of_like (fun _ _ => pool_eq) h.pools
  tick := fun k hk i => of_like (fun _ _ => tick_eq) h.ticks (k, i) hk
  length := h.lengths
  position := fun a ha i => get_iff.2 (of_like (fun _ _ => pos_eq) h.positions (a, i) ha)
  balance := fun a ha k => of_like (fun _ _ h => h.symm) h.balances (a, k) ha
  awaiting := fun k => by
    have : renameTransfer id = id := rfl
    rw [h.awaiting trivial, this, Option.map_id]
    rfl

theorem Spec.Agree.refl : Agree K A s s :=
  ⟨rfl, rfl, rfl, rfl, fun _ => rfl, fun _ _ => rfl, fun _ _ _ => rfl, fun _ _ _ => rfl, fun _ _ => rfl,
    fun _ _ _ => rfl, fun _ _ _ => rfl⟩

theorem Spec.Agree.symm (h : Agree K A s t) : Agree K A t s :=
  ⟨h.1.symm, h.2.symm, h.3.symm, h.4.symm, fun k => (h.5 k).symm, fun k hk => (h.6 k hk).symm,
    fun k hk i => (h.7 k hk i).symm, fun k hk i => (h.8 k hk i).symm, fun k hk => (h.9 k hk).symm,
    fun k hk i => (h.10 k hk i).symm, fun k hk i => (h.11 k hk i).symm⟩

theorem Spec.Agree.trans {u : Inv} (h : Agree K A s t) (g : Agree K A t u) : Agree K A s u :=
  ⟨g.1.trans h.1, g.2.trans h.2, g.3.trans h.3, g.4.trans h.4, fun k => (g.5 k).trans (h.5 k),
    fun k hk => (g.6 k hk).trans (h.6 k hk), fun k hk i => (g.7 k hk i).trans (h.7 k hk i),
    fun k hk i => (g.8 k hk i).trans (h.8 k hk i), fun k hk => (g.9 k hk).trans (h.9 k hk),
    fun k hk i => (g.10 k hk i).trans (h.10 k hk i), fun k hk i => (g.11 k hk i).trans (h.11 k hk i)⟩

theorem Spec.Agree.mono {K' : PoolKey → Prop} {A' : ActorId → Prop} (h : Agree K A s t) (hK : ∀ k, K' k → K k)
    (hA : ∀ a, A' a → A a) : Agree K' A' s t :=
  ⟨h.1, h.2, h.3, h.4, h.5, fun k hk => h.6 k (hK k hk), fun k hk => h.7 k (hK k hk), fun k hk => h.8 k (hK k hk),
    fun k hk => h.9 k (hA k hk), fun k hk => h.10 k (hA k hk), fun k hk => h.11 k (hA k hk)⟩

private theorem renameCall_id (c : Call) : renameCall id c = c := by cases c <;> rfl

/-- C90, what a call reads: on two states with the same settings, the same pools of the call and the same accounts of
the call, the call has the same outcome, and the states agree as before. -/
theorem C90_reads (h : Agree K A s t) (hk : ∀ k ∈ touched e s c, K k) (ha : ∀ a ∈ parties e c, A a) :
    SameOutcome (Agree K A) (step e s c) (step e t c) := by
  have h0 : A e.caller := ha _ (by cases c <;> exact List.mem_cons_self)
  have := step_sim (e := e) (e' := e) (agree_toSim h e.now) rfl rfl c (fun _ => ⟨rfl, rfl⟩) h0
    (fun i r hr => ha r (by subst hr; exact List.mem_cons_of_mem _ List.mem_cons_self)) hk
  rw [renameCall_id] at this
  exact this.mono fun _ _ => agree_ofSim

private theorem res_eq {n : Nat} {a b : CalculateSwapResult} (h : ResSim .all id n n a b) : b = a := by
  have ht : b.ticks = a.ticks := by
    have := h.ticks
    revert this
    generalize a.ticks = x
    generalize b.ticks = y
    intro this
    induction this with
    | nil => rfl
    | cons h _ ih => rw [tick_eq h, ih]
  cases a
  cases b
  have h1 := h.amountIn
  have h2 := h.amountOut
  have h3 := h.start
  have h4 := h.target
  have h5 := h.fee
  have h6 := pool_eq h.pool
  dsimp only at h1 h2 h3 h4 h5 h6 ht
  subst h1 h2 h3 h4 h5 h6 ht
  rfl

/-- C90, the replies: they, too, depend on nothing else. -/
theorem C90_replies (h : Agree K A s t) (ha : A e.caller) :
    (∀ k d v b l, K k → SameOutcome (fun x y => y.2 = x.2) (swap e s k d v b l) (swap e t k d v b l)) ∧
    (∀ v w x l, (∀ z ∈ l, K z.key) → SameOutcome (fun x y => y.2 = x.2) (swapRoute e s v w x l)
      (swapRoute e t v w x l)) ∧
    (∀ k l u d a b, K k → SameOutcome (fun x y => y.2 = x.2) (createPosition e s k l u d a b)
      (createPosition e t k l u d a b)) ∧
    (∀ i, (∀ p, s.positions.get e.caller i = .ok p → K p.poolKey) →
      SameOutcome (fun x y => y.2 = x.2) (removePosition e s i) (removePosition e t i) ∧
      SameOutcome (fun x y => y.2 = x.2) (claimFee e s i) (claimFee e t i)) ∧
    (∀ k, K k → SameOutcome (fun x y => y.2 = x.2) (withdrawProtocolFee e s k) (withdrawProtocolFee e t k)) := by
  have hs := agree_toSim h e.now
  exact ⟨fun k d v b l hk => (swap_sim hs rfl ha hk).mono fun _ _ h => res_eq h.2,
    fun v w x l hl => (swapRoute_sim hs rfl ha hl).mono fun _ _ h => h.2,
    fun k l u d a b hk => (createPosition_sim hs rfl ha (fun _ => ⟨rfl, rfl⟩) hk).mono fun _ _ h => pos_eq h.2,
    fun i hi => ⟨(removePosition_sim hs rfl ha (fun _ => ⟨rfl, rfl⟩) hi).mono fun _ _ h => h.2,
      (claimFee_sim hs rfl ha (fun _ => ⟨rfl, rfl⟩) hi).mono fun _ _ h => h.2⟩,
    fun k hk => (withdrawProtocolFee_sim hs rfl ha hk).mono fun _ _ h => h.2⟩

/-- C90, quotes: a quote depends on the settings and on its pool, not on any account. -/
theorem C90_quote (h : Agree K (fun _ => False) s t) {k : PoolKey} (hk : K k) (now : Nat) (d b : Bool) (v l : Nat) :
    quote t now k d v b l = quote s now k d v b l := by
  unfold quote
  have := calculateSwap_sim (agree_toSim h now) hk (xToY := d) (amount := v) (byIn := b) (limit := l)
  revert this
  generalize calculateSwap s now k d v b l = x
  generalize calculateSwap t now k d v b l = y
  intro this
  cases this with
  | error => rfl
  | ok h => rw [res_eq h]

/-! ### What a call writes -/

private theorem step_fee (h : step e s c = .ok t) (hc : ¬ Shared c) : t.protocolFee = s.protocolFee := by
  cases c with
  | changeProtocolFee f => exact absurd trivial hc
  | addFeeTier t => exact absurd trivial hc
  | removeFeeTier t => exact absurd trivial hc
  | createPool x y t p i => exact absurd trivial hc
  | changeFeeReceiver k r =>
    obtain ⟨_, _, _, rfl⟩ := changeFeeReceiver_ok h
    rfl
  | createPosition k l u d a b =>
    simp only [step, bind_ok_iff, pure_ok_iff] at h
    obtain ⟨r, h, rfl⟩ := h
    obtain ⟨_, _, _, _, _, _, _, _, _, _, _, _, _, _, _, h1, h2, _⟩ := createPosition_ok h
    rw [putTicks_eq h1 h2]
  | removePosition i =>
    simp only [step, bind_ok_iff, pure_ok_iff] at h
    obtain ⟨r, h, rfl⟩ := h
    obtain ⟨_, _, _, _, _, _, _, _, _, _, _, _, _, _, _, h1, h2, _, _, _, rfl⟩ := removePosition_ok h
    rw [dropTicks_eq h1 h2]
  | transferPosition i r =>
    obtain ⟨_, _, _, rfl⟩ := transferPosition_ok h
    rfl
  | swap k d a b l =>
    simp only [step, bind_ok_iff, pure_ok_iff] at h
    obtain ⟨r, h, rfl⟩ := h
    exact (swap_keyFrame h).2.2.2
  | swapRoute a x sl hp =>
    simp only [step, bind_ok_iff, pure_ok_iff] at h
    obtain ⟨r, h, rfl⟩ := h
    exact route_induction (env := e) (R := fun s s' => s'.protocolFee = s.protocolFee) (fun _ => rfl)
      (fun _ _ _ h1 h2 => h2.trans h1) (fun _ _ _ _ _ _ h => (swap_keyFrame h).2.2.2) hp s a r (swapRoute_ok h).1
  | claimFee i =>
    simp only [step, bind_ok_iff, pure_ok_iff] at h
    obtain ⟨r, h, rfl⟩ := h
    obtain ⟨_, _, _, _, _, _, _, _, _, _, _, _, _, _, _, _, rfl⟩ := claimFee_ok h
    rfl
  | withdrawProtocolFee k =>
    simp only [step, bind_ok_iff, pure_ok_iff] at h
    obtain ⟨r, h, rfl⟩ := h
    obtain ⟨_, _, _, _, _, _, _, rfl⟩ := withdrawProtocolFee_ok h
    rfl
  | depositVara =>
    simp only [step, bind_ok_iff, pure_ok_iff] at h
    obtain ⟨r, h, rfl⟩ := h
    obtain ⟨_, _, rfl⟩ := depositVara_ok h
    rfl
  | withdrawVara v =>
    simp only [step, bind_ok_iff, pure_ok_iff] at h
    obtain ⟨r, h, rfl⟩ := h
    obtain ⟨_, e, _⟩ := withdrawVara_ok h
    rw [e]

/-- C90, what a call writes: unless it changes what all share, everything outside its pools and its accounts is as
before. -/
theorem C90_writes (hc : ¬ Shared c) (hk : ∀ k ∈ touched e s c, ¬ K k) (ha : ∀ a ∈ parties e c, ¬ A a) :
    Agree K A s (run e s c) := by
  unfold run
  cases h : step e s c with
  | error x => exact .refl
  | ok t =>
    have h0 : ¬ A e.caller := ha _ (by cases c <;> exact List.mem_cons_self)
    have hne : ∀ a, A a → a ≠ e.caller := fun a hA he => h0 (he ▸ hA)
    have hp : ∀ a, A a → t.positions.getLength a = s.positions.getLength a ∧
        ∀ i, t.positions.get a i = s.positions.get a i := by
      intro a hA
      rcases C26_positions h a (hne a hA) with h | ⟨i, p, rfl, -⟩
      · exact h
      · exact absurd hA (ha a (List.mem_cons_of_mem _ List.mem_cons_self))
    have hs := step_settings h
    have hpool := fun k (hK : K k) => C49_pools h k fun hm => hk k hm hK
    refine ⟨hs.admin, step_fee h hc, ?_, (step_poolsFrame (fun x y z p i hx => ?_) h).keys, fun k => by rw [hs.awaiting],
      fun k hK => (hpool k hK).pool, fun k hK => (hpool k hK).tick, fun k hK => (hpool k hK).word,
      fun a hA => (hp a hA).1, fun a hA => (hp a hA).2, fun a hA k => ?_⟩
    · rcases step_feeTiers h with ⟨t, rfl, -⟩ | ⟨t, rfl, -⟩ | h
      · exact absurd trivial hc
      · exact absurd trivial hc
      · exact h
    · subst hx; exact hc trivial
    · exact (step_balOps h).other (k := (a, k)) (hne a hA)

/-! ### Groups of messages -/

/-- the messages of `l`, sent one after the other from the state `s` on, name pools of `K` only, involve accounts of `A`
only, and change nothing that all share -/
def Spec.Within (K : PoolKey → Prop) (A : ActorId → Prop) : Inv → List (Env × Call) → Prop
  | _, [] => True
  | s, (e, c) :: l => (¬ Shared c ∧ (∀ k ∈ touched e s c, K k) ∧ (∀ a ∈ parties e c, A a)) ∧ Within K A (run e s c) l

theorem touched_agree (h : Agree K A s t) (ha : A e.caller) : touched e t c = touched e s c := by
  have hp := fun i => get_iff.1 (h.position e.caller ha i)
  cases c <;> first | rfl | (simp only [touched, hp])

theorem run_agree (h : Agree K A s t) (hk : ∀ k ∈ touched e s c, K k) (ha : ∀ a ∈ parties e c, A a) :
    Agree K A (run e s c) (run e t c) := by
  have := C90_reads h hk ha
  unfold run
  revert this
  generalize step e s c = x
  generalize step e t c = y
  intro this
  cases this with
  | error => exact h
  | ok h => exact h

private theorem shuffle_agree {K' : PoolKey → Prop} {A' : ActorId → Prop} (hK : ∀ k, K k → ¬ K' k)
    (hA : ∀ a, A a → ¬ A' a) {l₁ l₂ l : List (Env × Call)} (hl : Shuffle l₁ l₂ l) : ∀ {a b s : Inv}, Agree K A a s →
      Agree K' A' b s → Within K A a l₁ → Within K' A' b l₂ →
      Agree K A (runAll a l₁) (runAll s l) ∧ Agree K' A' (runAll b l₂) (runAll s l) := by
  induction hl with
  | nil => intro a b s ha hb _ _; exact ⟨ha, hb⟩
  | @left l₁ l₂ l x _ ih =>
    intro a b s ha hb h1 h2
    obtain ⟨e, c⟩ := x
    obtain ⟨⟨hc, hk, hp⟩, h1⟩ := h1
    have h0 : A e.caller := hp _ (by cases c <;> exact List.mem_cons_self)
    refine ih (run_agree ha hk hp) (hb.trans (C90_writes hc ?_ fun x hx => hA x (hp x hx))) h1 h2
    intro k hm
    rw [touched_agree ha h0] at hm
    exact hK k (hk k hm)
  | @right l₁ l₂ l x _ ih =>
    intro a b s ha hb h1 h2
    obtain ⟨e, c⟩ := x
    obtain ⟨⟨hc, hk, hp⟩, h2⟩ := h2
    have h0 : A' e.caller := hp _ (by cases c <;> exact List.mem_cons_self)
    refine ih (ha.trans (C90_writes hc ?_ fun x hx hx' => hA x hx' (hp x hx))) (run_agree hb hk hp) h1 h2
    intro k hm hk'
    rw [touched_agree hb h0] at hm
    exact hK k hk' (hk k hm)

/-- C90, groups: two groups of messages, on different pools and of different accounts, interleaved in any way. For the
pools and the accounts of each group the result is the same as if the other group had sent nothing. -/
theorem C90_groups {K' : PoolKey → Prop} {A' : ActorId → Prop} (hK : ∀ k, K k → ¬ K' k) (hA : ∀ a, A a → ¬ A' a)
    {l₁ l₂ l : List (Env × Call)} (hl : Shuffle l₁ l₂ l) (h₁ : Within K A s l₁) (h₂ : Within K' A' s l₂) :
    Agree K A (runAll s l₁) (runAll s l) ∧ Agree K' A' (runAll s l₂) (runAll s l) :=
  shuffle_agree hK hA hl .refl .refl h₁ h₂

private theorem within_writes {K' : PoolKey → Prop} {A' : ActorId → Prop} (hK : ∀ k, K k → ¬ K' k)
    (hA : ∀ a, A a → ¬ A' a) : ∀ {l : List (Env × Call)} {s : Inv}, Within K A s l → Agree K' A' s (runAll s l)
  | [], _, _ => .refl
  | (e, c) :: l, s, h => by
    obtain ⟨⟨hc, hk, hp⟩, h⟩ := h
    exact (C90_writes hc (fun k hm => hK k (hk k hm)) fun a hm => hA a (hp a hm)).trans (within_writes hK hA h)

/-- the same messages stay within the same bounds from every state that agrees there -/
private theorem within_agree : ∀ {l : List (Env × Call)} {s t : Inv}, Agree K A s t → Within K A s l → Within K A t l
  | [], _, _, _, _ => trivial
  | (e, c) :: l, s, t, hst, ⟨⟨hc, hk, hp⟩, h⟩ => by
    have h0 : A e.caller := hp _ (by cases c <;> exact List.mem_cons_self)
    exact ⟨⟨hc, by rwa [touched_agree hst h0], hp⟩, within_agree (run_agree hst hk hp) h⟩

private theorem shuffle_within {K' : PoolKey → Prop} {A' : ActorId → Prop} (hK : ∀ k, K k → ¬ K' k)
    (hA : ∀ a, A a → ¬ A' a) {l₁ l₂ l : List (Env × Call)} (hl : Shuffle l₁ l₂ l) : ∀ {s : Inv},
      Within K A s l₁ → Within K' A' s l₂ → Within (fun k => K k ∨ K' k) (fun a => A a ∨ A' a) s l := by
  induction hl with
  | nil => intro s _ _; trivial
  | @left l₁ l₂ l x _ ih =>
    intro s h1 h2
    obtain ⟨e, c⟩ := x
    obtain ⟨⟨hc, hk, hp⟩, h1⟩ := h1
    exact ⟨⟨hc, fun k hm => .inl (hk k hm), fun a hm => .inl (hp a hm)⟩,
      ih h1 (within_agree (C90_writes hc (fun k hm => hK k (hk k hm)) fun a hm => hA a (hp a hm)) h2)⟩
  | @right l₁ l₂ l x _ ih =>
    intro s h1 h2
    obtain ⟨e, c⟩ := x
    obtain ⟨⟨hc, hk, hp⟩, h2⟩ := h2
    exact ⟨⟨hc, fun k hm => .inr (hk k hm), fun a hm => .inr (hp a hm)⟩,
      ih (within_agree (C90_writes hc (fun k hm h => hK k h (hk k hm)) fun a hm h => hA a h (hp a hm)) h1) h2⟩

/-- C90, order: however two such groups are interleaved, the state at the end is the same. -/
theorem C90_order {K' : PoolKey → Prop} {A' : ActorId → Prop} (hK : ∀ k, K k → ¬ K' k) (hA : ∀ a, A a → ¬ A' a)
    {l₁ l₂ l l' : List (Env × Call)} (hl : Shuffle l₁ l₂ l) (hl' : Shuffle l₁ l₂ l') (h₁ : Within K A s l₁)
    (h₂ : Within K' A' s l₂) : SameState (runAll s l) (runAll s l') := by
  obtain ⟨g1, g2⟩ := C90_groups hK hA hl h₁ h₂
  obtain ⟨g1', g2'⟩ := C90_groups hK hA hl' h₁ h₂
  have a1 := g1.symm.trans g1'
  have a2 := g2.symm.trans g2'
  -- what belongs to neither group is as at the start
  have w : ∀ {m}, Shuffle l₁ l₂ m → Agree (fun k => ¬ (K k ∨ K' k)) (fun a => ¬ (A a ∨ A' a)) s (runAll s m) :=
    fun hm => within_writes (fun k h => not_not_intro h) (fun a h => not_not_intro h) (shuffle_within hK hA hm h₁ h₂)
  have a3 := (w hl).symm.trans (w hl')
  have ck : ∀ {P : PoolKey → Prop}, (∀ k, K k → P k) → (∀ k, K' k → P k) → (∀ k, ¬ (K k ∨ K' k) → P k) → ∀ k, P k :=
    fun h1 h2 h3 k => by
      by_cases hk : K k
      · exact h1 k hk
      · by_cases hk' : K' k
        · exact h2 k hk'
        · exact h3 k fun h => h.elim hk hk'
  have ca : ∀ {P : ActorId → Prop}, (∀ k, A k → P k) → (∀ k, A' k → P k) → (∀ k, ¬ (A k ∨ A' k) → P k) → ∀ k, P k :=
    fun h1 h2 h3 k => by
      by_cases hk : A k
      · exact h1 k hk
      · by_cases hk' : A' k
        · exact h2 k hk'
        · exact h3 k fun h => h.elim hk hk'
  exact ⟨a1.1, a1.2, a1.3, a1.4, a1.5, fun k _ => ck a1.pool a2.pool a3.pool k, fun k _ => ck a1.tick a2.tick a3.tick k,
    fun k _ => ck a1.word a2.word a3.word k, fun a _ => ca a1.length a2.length a3.length a,
    fun a _ => ca a1.position a2.position a3.position a, fun a _ => ca a1.balance a2.balance a3.balance a⟩

namespace ApartDemo
open Demo

/-- account 2 in the first pool -/
def left : List (Env × Call) :=
  [(by_ 2, .swap key true (22 * 10 ^ 6) true MIN_SQRT_PRICE), (by_ 2, .removePosition 0)]

/-- account 3 in the second pool -/
def right : List (Env × Call) := [(by_ 3, .swap key2 false (10 ^ 6) true MAX_SQRT_PRICE), (by_ 3, .claimFee 1)]

/-- the messages of both, one by one -/
def mixed : List (Env × Call) :=
  [(by_ 3, .swap key2 false (10 ^ 6) true MAX_SQRT_PRICE), (by_ 2, .swap key true (22 * 10 ^ 6) true MIN_SQRT_PRICE),
   (by_ 3, .claimFee 1), (by_ 2, .removePosition 0)]

/-- the balances of an account and the prices of the two pools -/
def seen (s : Inv) (a : ActorId) : List (Option Nat) :=
  [s.balances.get (a, 5), s.balances.get (a, 7), (s.pools.get key).map Pool.sqrtPrice,
   (s.pools.get key2).map Pool.sqrtPrice]

theorem within_left : Within (· = key) (· = 2) start left :=
  ⟨⟨id, by decide +kernel, by decide⟩, ⟨id, by decide +kernel, by decide⟩, trivial⟩

theorem within_right : Within (· = key2) (· = 3) start right :=
  ⟨⟨id, by decide +kernel, by decide⟩, ⟨id, by decide +kernel, by decide⟩, trivial⟩

theorem shuffle_mixed : Shuffle left right mixed := .right _ (.left _ (.right _ (.left _ .nil)))

theorem shuffle_append : Shuffle left right (left ++ right) := .left _ (.left _ (.right _ (.right _ .nil)))

end ApartDemo

open ApartDemo in
/-- Two accounts, two pools, two orders: everything is the same at the end. -/
example : SameState (runAll Demo.start mixed) (runAll Demo.start (left ++ right)) :=
  C90_order (fun k h h' => by rw [h] at h'; exact absurd h' (by decide))
    (fun a h h' => by rw [h] at h'; exact absurd h' (by decide))
    shuffle_mixed shuffle_append within_left within_right

open ApartDemo in
/-- All four calls succeed and change balances and prices. -/
example :
    seen Demo.start 2 = [some 99999999999990005497, some 99999999999990005497, some (10 ^ 24), some (10 ^ 24)] ∧
    seen (runAll Demo.start mixed) 2 = [some 99999999999984981296, some 100000000000014995499,
      some 999302984359663232683739, some 1000009940000000000000000] ∧
    seen (runAll Demo.start mixed) 3 = [some 99999999999487271281, some 99999999999485282691,
      some 999302984359663232683739, some 1000009940000000000000000] := by
  decide +kernel

open Demo ApartDemo in
/-- In the same pool the order matters, for different accounts too: who swaps first gets more. -/
example : seen (runAll start [(by_ 2, .swap key true (10 ^ 6) true MIN_SQRT_PRICE),
      (by_ 3, .swap key true (10 ^ 6) true MIN_SQRT_PRICE)]) 2 ≠
    seen (runAll start [(by_ 3, .swap key true (10 ^ 6) true MIN_SQRT_PRICE),
      (by_ 2, .swap key true (10 ^ 6) true MIN_SQRT_PRICE)]) 2 := by
  decide +kernel

end Verif
