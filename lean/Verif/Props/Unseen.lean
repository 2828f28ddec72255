import Verif.Spec.Unseen
import Verif.Spec.Demo
import Verif.Proofs.Alike
import Verif.Proofs.Claim
import Verif.Props.PositionCalls
import Verif.Props.Exit
import Verif.Props.Apart
import Verif.Props.Provider

/-!
# C91: claiming is not noticed by others, and the time of a claim does not matter
-/

set_option exponentiation.threshold 1000

namespace Verif
open Service Spec Twin

namespace Unseen

variable {o : ActorId} {s t : Inv} {e : Env} {c : Call}

private theorem like_of {κ V : Type} [DecidableEq κ] {P : κ → Prop} {R : V → V → Prop} (hR : ∀ v, R v v)
    {m m' : Map κ V} (h : ∀ k, P k → m'.get k = m.get k) : MapLike P id R m m' := by
  intro k hk
  show Option.Rel _ _ (m'.get k)
  rw [h k hk]
  cases m.get k with
  | none => exact .none
  | some v => exact .some (hR v)

private theorem of_like {κ V : Type} [DecidableEq κ] {P : κ → Prop} {R : V → V → Prop} (hR : ∀ v w, R v w → w = v)
    {m m' : Map κ V} (h : MapLike P id R m m') (k : κ) (hk : P k) : m'.get k = m.get k := by
  have := h k hk
  revert this
  show Option.Rel _ _ (m'.get k) → _
  generalize m.get k = a
  generalize m'.get k = b
  intro this
  cases this with
  | none => rfl
  | some h => rw [hR _ _ h]

private theorem get_iff {ps ps' : Positions} {a : ActorId} {i : Nat} :
    ps'.get a i = ps.get a i ↔ ps'.map.get (a, i) = ps.map.get (a, i) := by
  unfold Positions.get
  constructor
  · cases ps.map.get (a, i) <;> cases ps'.map.get (a, i) <;> simp [okOr]
  · intro h; rw [h]

private theorem gross_lt (hr : Reach s) {k : PoolKey × Int} {t : Tick} (h : s.ticks.get k = some t) :
    t.liquidityGross < 2 ^ 256 := by
  refine lt_of_lt_of_le ((reach_wf s hr).tick k.1 k.2 _ h).1.cap ?_
  unfold calculateMaxLiquidityPerTick
  exact le_trans (Nat.div_le_self _ _) (Nat.sub_le _ _)

private theorem toSim (hr : Reach s) (h : SameForOthers o s t) (n : Nat) :
    Sim .unsigned (fun _ => True) (fun a => a ≠ o) id n n s t where
  inj := Function.injective_id
  admin := h.admin
  protocolFee := h.protocolFee
  feeTiers := h.feeTiers
  poolKeys := h.poolKeys
  tickmap := .of_like <| like_of (fun _ => rfl) fun z _ => h.word z
  pools := fun k _ => by
    have h1 := h.pool k
    have h2 := reach_liqLt s hr k
    show Option.Rel _ _ (t.pools.get k)
    revert h1 h2
    generalize s.pools.get k = a
    generalize t.pools.get k = b
    intro h1 h2
    cases h1 with
    | none => exact .none
    | @some p q h =>
      refine .some ⟨p.startTimestamp, q.lastTimestamp, ?_, .inl trivial, fun _ => ⟨rfl, rfl⟩, False.elim,
        .inr (h2 _ rfl)⟩
      unfold SamePool at h
      rw [h]
      rfl
  ticks := fun k _ => by
    have h1 := h.tick k
    have h2 : ∀ t, s.ticks.get k = some t → _ := fun t => gross_lt hr (t := t)
    show Option.Rel _ _ (t.ticks.get k)
    revert h1 h2
    generalize s.ticks.get k = a
    generalize t.ticks.get k = b
    intro h1 h2
    cases h1 with
    | none => exact .none
    | @some x y h =>
      obtain ⟨h, hn⟩ := h
      refine .some ⟨x.secondsOutside, y.sign, ?_, fun _ => rfl, ?_, .inr (h2 _ rfl)⟩
      · rw [h]
      · have hc : y.liquidityChange = x.liquidityChange := by rw [h]
        unfold netLiq at hn
        rw [hc] at hn
        cases hy : y.sign <;> cases hx : x.sign <;> simp [hy, hx] at hn ⊢ <;> omega
  lengths := h.length
  positions := like_of (fun p => ⟨_, rfl, fun _ => rfl⟩) fun z hz => get_iff.1 (h.position z.1 hz z.2)
  balances := like_of (fun _ => rfl) fun z hz => h.balance z.1 hz z.2
  awaiting := fun _ k => by
    rw [h.awaiting]
    have : renameTransfer id = id := rfl
    rw [this, Option.map_id]
    rfl

private theorem samePool {n m : Nat} {p q : Pool} (h : PoolSim .unsigned id n m p q) : SamePool p q := by
  obtain ⟨st, lt, rfl, -, h, -⟩ := h
  rw [(h trivial).2]
  rfl

private theorem sameTick {p q : Tick} (h : TickSim .unsigned p q) : SameTick p q := by
  obtain ⟨so, sg, rfl, h, h', -⟩ := h
  rw [h trivial]
  refine ⟨rfl, ?_⟩
  rcases h' with rfl | ⟨-, h'⟩
  · rfl
  · unfold netLiq
    dsimp only
    rw [h']
    simp

private theorem pos_eq {p q : Position} (h : PosSim .unsigned p q) : q = p := by
  obtain ⟨b, rfl, h⟩ := h
  rw [h trivial]

private theorem rel_of {κ V : Type} [DecidableEq κ] {R S : V → V → Prop} (hR : ∀ v w, R v w → S v w)
    {m m' : Map κ V} (h : MapLike (fun _ => True) id R m m') (k : κ) : Option.Rel S (m.get k) (m'.get k) := by
  have := h k trivial
  revert this
  show Option.Rel _ _ (m'.get k) → _
  generalize m.get k = a
  generalize m'.get k = b
  intro this
  cases this with
  | none => exact .none
  | some h => exact .some (hR _ _ h)

private theorem ofSim {n m : Nat} (h : Sim .unsigned (fun _ => True) (fun a => a ≠ o) id n m s t) :
    SameForOthers o s t where
  admin := h.admin
  protocolFee := h.protocolFee
  feeTiers := h.feeTiers
  poolKeys := h.poolKeys
  word := fun k => of_like (fun _ _ h => h.symm) (h.tickmap.2 trivial) k trivial
  pool := rel_of (fun _ _ => samePool) h.pools
  tick := rel_of (fun _ _ => sameTick) h.ticks
  length := h.lengths
  position := fun a ha i => get_iff.2 (of_like (fun _ _ => pos_eq) h.positions (a, i) ha)
  balance := fun a ha k => of_like (fun _ _ h => h.symm) h.balances (a, k) ha
  awaiting := fun k => by
    rw [h.awaiting trivial]
    have : renameTransfer id = id := rfl
    rw [this, Option.map_id]
    rfl

private theorem renameCall_id (c : Call) : renameCall id c = c := by cases c <;> rfl

private theorem caller_mem : e.caller ∈ parties e c := by cases c <;> exact List.mem_cons_self

end Unseen

open Unseen

variable {o : ActorId} {s t : Inv} {e : Env} {c : Call}

/-- C91, one message of others: on states that are the same for everybody but `o`, a message of somebody else that gives
nothing to `o` has the same outcome, and the states stay the same for everybody but `o`. -/
theorem C91_message (hr : Reach s) (h : SameForOthers o s t) (ho : o ∉ parties e c) :
    SameOutcome (SameForOthers o) (step e s c) (step e t c) := by
  have h0 : e.caller ≠ o := fun h => ho (h ▸ caller_mem)
  have := step_sim (e := e) (e' := e) (toSim hr h e.now) rfl rfl c (fun _ => ⟨rfl, rfl⟩) h0
    (fun i r hc hr => ho (by subst hc; subst hr; exact List.mem_cons_of_mem _ List.mem_cons_self)) fun _ _ => trivial
  rw [renameCall_id] at this
  exact this.mono fun _ _ => ofSim

/-- C91, the replies: others are answered with the same amounts. -/
theorem C91_replies (hr : Reach s) (h : SameForOthers o s t) (ho : e.caller ≠ o) :
    (∀ k d v b l, SameOutcome (fun x y => SameTrade x.2 y.2) (swap e s k d v b l) (swap e t k d v b l)) ∧
    (∀ v w x l, SameOutcome (fun x y => y.2 = x.2) (swapRoute e s v w x l) (swapRoute e t v w x l)) ∧
    (∀ k l u d a b, SameOutcome (fun x y => y.2 = x.2) (createPosition e s k l u d a b)
      (createPosition e t k l u d a b)) ∧
    (∀ i, SameOutcome (fun x y => y.2 = x.2) (removePosition e s i) (removePosition e t i)) ∧
    (∀ i, SameOutcome (fun x y => y.2 = x.2) (claimFee e s i) (claimFee e t i)) ∧
    (∀ k, SameOutcome (fun x y => y.2 = x.2) (withdrawProtocolFee e s k) (withdrawProtocolFee e t k)) := by
  have hs := toSim hr h e.now
  exact ⟨fun k d v b l => (swap_sim hs rfl ho trivial).mono fun _ _ h => ⟨h.2.amountIn, h.2.amountOut, h.2.start,
      h.2.target, h.2.fee⟩,
    fun v w x l => (swapRoute_sim hs rfl ho fun _ _ => trivial).mono fun _ _ h => h.2,
    fun k l u d a b => (createPosition_sim hs rfl ho (fun _ => ⟨rfl, rfl⟩) trivial).mono fun _ _ h => pos_eq h.2,
    fun i => (removePosition_sim hs rfl ho (fun _ => ⟨rfl, rfl⟩) fun _ _ => trivial).mono fun _ _ h => h.2,
    fun i => (claimFee_sim hs rfl ho (fun _ => ⟨rfl, rfl⟩) fun _ _ => trivial).mono fun _ _ h => h.2,
    fun k => (withdrawProtocolFee_sim hs rfl ho trivial).mono fun _ _ h => h.2⟩

/-- C91, the claim: afterwards the state is the same for everybody but the caller. -/
theorem C91_claim {i x y : Nat} (hr : Reach s) (h : claimFee e s i = .ok (t, x, y)) : SameForOthers e.caller s t := by
  have hw := reach_wf s hr
  obtain ⟨p, lower, upper, pool, m, ps, b, he, hxy, b1, hb1, hb2⟩ := claimFee_full hw.indexed h
  dsimp only at he hb1 hb2
  have hu := he.upd
  unfold Positions.update at hu
  have hne : ¬ i ≥ s.positions.getLength e.caller := by
    intro hc; rw [if_pos hc] at hu; cases hu
  rw [if_neg hne] at hu
  cases hu
  have tk : ∀ (t t' : Tick) (up : Bool) (mx : Nat), TickUpd t t' 0 mx up true → SameTick t t' := by
    intro t t' up mx ht
    have h1 := (ht.dep rfl).1
    have h2 := ht.net
    have h3 : t'.net = t.net := by
      rw [h2]; split <;> simp
    have h4 : t'.liquidityChange = t.liquidityChange := by
      unfold Tick.net at h3
      cases hs : t.sign <;> cases hs' : t'.sign <;> simp [hs, hs'] at h3 <;> omega
    refine ⟨?_, h3⟩
    have h5 := ht.eq
    rw [h1, h4, Nat.add_zero] at h5
    exact h5
  have bals : ∀ a, a ≠ e.caller → ∀ k, b.get (a, k) = s.balances.get (a, k) := by
    intro a ha k
    have inc : ∀ {b b' : Balances} {t : ActorId} {n : Nat}, increaseTokenBalance b t e.caller n = .ok b' →
        b'.get (a, k) = b.get (a, k) := by
      intro b b' t n hb
      rcases increase_ok.1 hb with ⟨-, rfl⟩ | ⟨-, -, rfl⟩
      · rfl
      · rw [Map.get_insert_ne]
        exact fun h => ha (Prod.mk.inj h).1
    rw [inc hb2, inc hb1]
  rw [he.res]
  refine ⟨rfl, rfl, rfl, rfl, fun _ => rfl, fun k => ?_, fun k => ?_, fun _ => rfl, fun _ _ => rfl, fun a ha j => ?_, bals⟩
  · dsimp only
    rw [Map.get_insert]
    split
    · next e =>
      subst e
      rw [he.hpool]
      refine .some ?_
      have e1 := he.mod.pool.eq
      have e2 : m.pool.liquidity = pool.liquidity := by
        by_cases hc : lower.index ≤ pool.currentTickIndex ∧ pool.currentTickIndex < upper.index
        · exact (he.mod.pool.add rfl hc.1 hc.2).1
        · exact he.mod.pool.out hc
      unfold SamePool
      rw [e1, e2]
    · cases s.pools.get k with
      | none => exact .none
      | some p => exact .some rfl
  · dsimp only
    rw [Map.get_insert, Map.get_insert]
    split
    · next e =>
      subst e
      rw [he.hlt]
      exact .some (tk _ _ _ _ he.mod.lower)
    · split
      · next e =>
        subst e
        rw [he.hut]
        exact .some (tk _ _ _ _ he.mod.upper)
      · cases s.ticks.get k with
        | none => exact .none
        | some p => exact .some ⟨rfl, rfl⟩
  · rw [get_iff]
    dsimp only
    rw [Map.get_insert_ne]
    exact fun h => ha (Prod.mk.inj h).1

private theorem reach_run (hr : Reach s) : Reach (run e s c) := by
  unfold run
  cases h : step e s c with
  | error _ => exact hr
  | ok t => exact .call hr h

theorem others_history : ∀ {l : List (Env × Call)} {s t : Inv}, Reach s → SameForOthers o s t →
    (∀ x ∈ l, o ∉ parties x.1 x.2) → SameForOthers o (runAll s l) (runAll t l)
  | [], _, _, _, h, _ => h
  | (e, c) :: l, s, t, hr, h, ho => by
    refine others_history (l := l) (reach_run hr) ?_ fun x hx => ho x (List.mem_cons_of_mem _ hx)
    have := C91_message hr h (ho _ List.mem_cons_self)
    unfold run
    revert this
    generalize step e s c = x
    generalize step e t c = y
    intro this
    cases this with
    | error => exact h
    | ok h => exact h

/-- C91, histories: whatever others do after a claim, they do it with the same outcomes as without the claim; the states
at the end are the same for everybody but the one who claimed. -/
theorem C91_unnoticed {i x y : Nat} (hr : Reach s) (h : claimFee e s i = .ok (t, x, y)) {l : List (Env × Call)}
    (ho : ∀ m ∈ l, e.caller ∉ parties m.1 m.2) : SameForOthers e.caller (runAll s l) (runAll t l) :=
  others_history hr (C91_claim hr h) ho

/-! ### the amounts -/

/-- nobody else changes the positions of an account, unless they give one to it -/
theorem others_own_pos : ∀ {l : List (Env × Call)} {s : Inv}, (∀ x ∈ l, o ∉ parties x.1 x.2) → ∀ i,
    (runAll s l).positions.get o i = s.positions.get o i
  | [], _, _, _ => rfl
  | (e, c) :: l, s, ho, i => by
    have h0 := ho _ List.mem_cons_self
    refine (others_own_pos (l := l) (s := run e s c) (fun x hx => ho x (List.mem_cons_of_mem _ hx)) i).trans ?_
    unfold run
    cases h : step e s c with
    | error _ => rfl
    | ok t =>
      rcases C26_positions h o (fun h => h0 (h ▸ caller_mem)) with h1 | ⟨j, p, rfl, -⟩
      · exact h1.2 i
      · exact absurd (List.mem_cons_of_mem _ List.mem_cons_self) h0

/-- the growth inside a range is the same for states that are the same for others -/
theorem others_inside (h : SameForOthers o s t) {k : PoolKey} {p q : Pool} (hp : s.pools.get k = some p)
    (hq : t.pools.get k = some q) (lo hi : Int) :
    (world t k q).insideX lo hi = (world s k p).insideX lo hi ∧
    (world t k q).insideY lo hi = (world s k p).insideY lo hi := by
  have h1 := h.pool k
  rw [hp, hq] at h1
  obtain ⟨h1⟩ := h1
  unfold SamePool at h1
  have tk : ∀ i, ∀ {α : Type} (f : Tick → Option α), (∀ t sg, f { t with sign := sg } = f t) →
      ((t.ticks.get (k, i)).bind f) = ((s.ticks.get (k, i)).bind f) := by
    intro i α f hf
    have h2 := h.tick (k, i)
    revert h2
    generalize s.ticks.get (k, i) = a
    generalize t.ticks.get (k, i) = b
    intro h2
    cases h2 with
    | none => rfl
    | some h2 =>
      rw [h2.1]
      exact hf _ _
  unfold FeeWorld.insideX FeeWorld.insideY world
  dsimp only
  rw [h1]
  constructor
  · refine (tk lo _ fun t sg => ?_).trans ?_
    · rfl
    · congr 1
      funext a
      exact tk hi _ fun t sg => rfl
  · refine (tk lo _ fun t sg => ?_).trans ?_
    · rfl
    · congr 1
      funext a
      exact tk hi _ fun t sg => rfl

private theorem two_floors {a b c L : Nat} (h : c ≤ a + b) : c * L / 10 ^ 33 ≤ a * L / 10 ^ 33 + b * L / 10 ^ 33 + 1 := by
  have h1 : c * L ≤ a * L + b * L := by rw [← Nat.add_mul]; exact Nat.mul_le_mul_right _ h
  have h2 := Nat.div_add_mod (a * L) (10 ^ 33)
  have h3 := Nat.div_add_mod (b * L) (10 ^ 33)
  have h4 := Nat.mod_lt (a * L) (y := 10 ^ 33) (by positivity)
  have h5 := Nat.mod_lt (b * L) (y := 10 ^ 33) (by positivity)
  refine Nat.le_of_lt_succ (Nat.div_lt_of_lt_mul ?_)
  rw [Nat.mul_succ, Nat.mul_succ, Nat.mul_add]
  omega

private theorem two_floors' {a b L : Nat} : a * L / 10 ^ 33 + b * L / 10 ^ 33 ≤ (a + b) * L / 10 ^ 33 := by
  rw [Nat.add_mul]
  exact Nat.add_div_le_add_div _ _ _

private theorem parts {g i j : Nat} (hg : g < 2 ^ 128) (hi : i < 2 ^ 128) :
    (j + (2 ^ 128 - g)) % 2 ^ 128 ≤ (i + (2 ^ 128 - g)) % 2 ^ 128 + (j + (2 ^ 128 - i)) % 2 ^ 128 ∧
    ((i + (2 ^ 128 - g)) % 2 ^ 128 + (j + (2 ^ 128 - i)) % 2 ^ 128 < 2 ^ 128 →
      (j + (2 ^ 128 - g)) % 2 ^ 128 = (i + (2 ^ 128 - g)) % 2 ^ 128 + (j + (2 ^ 128 - i)) % 2 ^ 128) := by
  have e : (j + (2 ^ 128 - g)) % 2 ^ 128 =
      ((i + (2 ^ 128 - g)) % 2 ^ 128 + (j + (2 ^ 128 - i)) % 2 ^ 128) % 2 ^ 128 := by
    rw [← Nat.add_mod]
    have : i + (2 ^ 128 - g) + (j + (2 ^ 128 - i)) = j + (2 ^ 128 - g) + 2 ^ 128 := by omega
    rw [this, Nat.add_mod_right]
  refine ⟨e ▸ Nat.mod_le _ _, fun h => ?_⟩
  rw [e, Nat.mod_eq_of_lt h]

/-- claim, let others act, claim again; or let others act and claim once -/
private theorem amounts {i : Nat} {s₁ s₂ s₃ : Inv} {fx fy gx gy hx hy : Nat} {e' : Env} (hr : Reach s)
    (hc : claimFee e s i = .ok (s₁, fx, fy)) {l : List (Env × Call)} (ho : ∀ m ∈ l, e.caller ∉ parties m.1 m.2)
    (he : e'.caller = e.caller) (hl : claimFee e' (runAll s l) i = .ok (s₂, gx, gy))
    (ha : claimFee e' (runAll s₁ l) i = .ok (s₃, hx, hy)) :
    ∃ p q ux uy vx vy, s.positions.get e.caller i = .ok p ∧ s₁.positions.get e.caller i = .ok q ∧
      unclaimed s p = some (ux, uy) ∧ unclaimed (runAll s₁ l) q = some (vx, vy) ∧
      fx = ux * p.liquidity / 10 ^ 33 ∧ fy = uy * p.liquidity / 10 ^ 33 ∧
      hx = vx * p.liquidity / 10 ^ 33 ∧ hy = vy * p.liquidity / 10 ^ 33 ∧
      ∃ wx wy, gx = wx * p.liquidity / 10 ^ 33 ∧ gy = wy * p.liquidity / 10 ^ 33 ∧ wx ≤ ux + vx ∧ wy ≤ uy + vy ∧
        (ux + vx < 2 ^ 128 → wx = ux + vx) ∧ (uy + vy < 2 ^ 128 → wy = uy + vy) := by
  have hr1 : Reach s₁ := .call hr (c := .claimFee i) (env := e) (by simp only [step, hc]; rfl)
  obtain ⟨p, q, pool, ix, iy, a1, a2, a3, a4, a5, a6, a7, a8, a9, -⟩ := C32_amount hr hc
  obtain ⟨-, ⟨p0, q0, b1, b2, b3, b4, b5, b6⟩, -⟩ := C32_frame hr hc
  rw [a1] at b1; cases b1
  rw [a7] at b2; cases b2
  have hrl := ProviderDemo.reach_all l s hr
  have hrl1 := ProviderDemo.reach_all l s₁ hr1
  obtain ⟨p', -, pool', jx, jy, c1, c2, c3, c4, c5, c6, -⟩ := C32_amount hrl hl
  obtain ⟨q', -, pool'', jx', jy', d1, d2, d3, d4, d5, d6, -⟩ := C32_amount hrl1 ha
  rw [he, others_own_pos ho, a1] at c1; cases c1
  rw [he, others_own_pos ho, a7] at d1; cases d1
  have hs := C91_unnoticed hr hc ho
  rw [b3] at d2 d3 d4
  rw [b5, b6] at d3 d4
  obtain ⟨f1, f2⟩ := others_inside hs c2 d2 p.lowerTickIndex p.upperTickIndex
  rw [f1, c3] at d3; cases d3
  rw [f2, c4] at d4; cases d4
  have hacc := (reach_acc s hr).pos _ _ (posGet_ok.1 a1)
  have hacc1 := (reach_acc s₁ hr1).pos _ _ (posGet_ok.1 a7)
  obtain ⟨k1, k2⟩ := parts (j := jx) hacc.1 (a8 ▸ hacc1.1)
  obtain ⟨k3, k4⟩ := parts (j := jy) hacc.2.1 (a9 ▸ hacc1.2.1)
  rw [a8, b4] at d5
  rw [a9, b4] at d6
  refine ⟨p, q, _, _, _, _, a1, a7, ?_, ?_, a5, a6, d5, d6, _, _, c5, c6, k1, k3, k2, k4⟩
  · unfold unclaimed
    simp only [a2, a3, a4, Option.bind_eq_bind, Option.bind_some, Option.pure_def]
  · unfold unclaimed
    simp only [b3, b5, b6, d2, f1, f2, c3, c4, a8, a9, Option.bind_eq_bind, Option.bind_some, Option.pure_def]

variable {i : Nat} {s₁ s₂ s₃ : Inv} {fx fy gx gy hx hy : Nat} {e' : Env}

/-- C91, late claims: one claim at the end pays at most one unit more of either token than a claim now and one at the
end. -/
theorem C91_late (hr : Reach s) (hc : claimFee e s i = .ok (s₁, fx, fy)) {l : List (Env × Call)}
    (ho : ∀ m ∈ l, e.caller ∉ parties m.1 m.2) (he : e'.caller = e.caller)
    (hl : claimFee e' (runAll s l) i = .ok (s₂, gx, gy)) (ha : claimFee e' (runAll s₁ l) i = .ok (s₃, hx, hy)) :
    gx ≤ fx + hx + 1 ∧ gy ≤ fy + hy + 1 := by
  obtain ⟨p, q, ux, uy, vx, vy, -, -, -, -, rfl, rfl, rfl, rfl, wx, wy, rfl, rfl, h1, h2, -⟩ := amounts hr hc ho he hl ha
  exact ⟨two_floors h1, two_floors h2⟩

/-- C91, early claims: a claim now and one at the end pay no more than one claim at the end, provided that the
accumulators do not grow by 2^128 between the last claim before and the end. Without that, `C91_negation`. -/
theorem C91_early_partial (hr : Reach s) (hc : claimFee e s i = .ok (s₁, fx, fy)) {l : List (Env × Call)}
    (ho : ∀ m ∈ l, e.caller ∉ parties m.1 m.2) (he : e'.caller = e.caller)
    (hl : claimFee e' (runAll s l) i = .ok (s₂, gx, gy)) (ha : claimFee e' (runAll s₁ l) i = .ok (s₃, hx, hy))
    {p q : Position} (hp : s.positions.get e.caller i = .ok p) (hq : s₁.positions.get e.caller i = .ok q)
    {ux uy vx vy : Nat} (hu : unclaimed s p = some (ux, uy)) (hv : unclaimed (runAll s₁ l) q = some (vx, vy))
    (hX : ux + vx < 2 ^ 128) (hY : uy + vy < 2 ^ 128) :
    fx + hx ≤ gx ∧ fy + hy ≤ gy := by
  obtain ⟨p', q', ux', uy', vx', vy', h1, h2, h3, h4, rfl, rfl, rfl, rfl, wx, wy, rfl, rfl, -, -, h5, h6⟩ :=
    amounts hr hc ho he hl ha
  rw [hp] at h1; cases h1
  rw [hq] at h2; cases h2
  rw [hu] at h3; cases h3
  rw [hv] at h4; cases h4
  rw [h5 hX, h6 hY]
  exact ⟨two_floors', two_floors'⟩

/-! ### leaving -/

/-- a claim changes nothing in a tick but the sign of no change -/
private theorem claim_tick {t t' : Tick} {up : Bool} {mx : Nat} (ht : TickUpd t t' 0 mx up true) :
    t' = { t with sign := t'.sign } ∧ (t'.sign = t.sign ∨ t.liquidityChange = 0) := by
  have h1 := (ht.dep rfl).1
  have h3 : t'.net = t.net := by
    rw [ht.net]; split <;> simp
  have h4 : t'.liquidityChange = t.liquidityChange ∧ (t'.sign = t.sign ∨ t.liquidityChange = 0) := by
    unfold Tick.net at h3
    cases hs : t.sign <;> cases hs' : t'.sign <;> simp [hs, hs'] at h3 ⊢ <;> omega
  refine ⟨?_, h4.2⟩
  have h5 := ht.eq
  rw [h1, h4.1, Nat.add_zero] at h5
  exact h5

private theorem claimed_update {t t' : Tick} {up up' d : Bool} {mx mx' L : Nat} (ht : TickUpd t t' 0 mx up true)
    (hg : t.liquidityGross < 2 ^ 256) : t'.update L mx' up' d = t.update L mx' up' d := by
  obtain ⟨h1, h2 | h2⟩ := claim_tick ht
  · rw [h2] at h1
    rw [h1]
  · rw [h1]
    exact update_unsigned h2 hg _

private theorem remove_updates {p : Position} {pool : Pool} {l u : Tick} {now sp : Nat} {r : ModifyResult}
    (h : p.remove pool now l u sp = .ok r) :
    l.update p.liquidity (calculateMaxLiquidityPerTick sp) false false = .ok r.lower ∧
    u.update p.liquidity (calculateMaxLiquidityPerTick sp) true false = .ok r.upper := by
  unfold Position.remove Position.modify at h
  simp only [bind_ok_iff, unwrap_ok_iff, pure_ok_iff] at h
  obtain ⟨m, ⟨l', hl, u', hu, p', hp, q, hq, rfl⟩, x, hx, y, hy, rfl⟩ := h
  exact ⟨hl, hu⟩

/-- a claim before a removal, within a pool -/
private theorem claim_remove {p : Position} {pool : Pool} {l u : Tick} {now now' sp : Nat} {c r r' : ModifyResult}
    (hl : l.liquidityGross < 2 ^ 256) (hu : u.liquidityGross < 2 ^ 256) (hc : p.claimFee pool u l now = .ok c)
    (hm : p.remove pool now' l u sp = .ok r) (hm' : c.position.remove c.pool now' c.lower c.upper sp = .ok r') :
    r'.lower = r.lower ∧ r'.upper = r.upper ∧ r'.pool = r.pool ∧ r.amountX = c.amountX + r'.amountX ∧
      r.amountY = c.amountY + r'.amountY := by
  obtain ⟨a1, a2⟩ := remove_updates hm
  obtain ⟨b1, b2⟩ := remove_updates hm'
  obtain ⟨c, hk, rfl⟩ := claim_full hc
  clear hc
  have hL : c.position.liquidity = p.liquidity := (hk.pos.add rfl).1
  dsimp only at b1 b2 hm' ⊢
  rw [hL, claimed_update hk.lower hl, a1] at b1
  rw [hL, claimed_update hk.upper hu, a2] at b2
  have b1 := Except.ok.inj b1
  have b2 := Except.ok.inj b2
  obtain ⟨m, hn, -, -, rfl⟩ := remove_full hm
  obtain ⟨m', hn', -, -, rfl⟩ := remove_full hm'
  clear hm hm'
  dsimp only at b1 b2 ⊢
  have hp0 : c.pool = { pool with lastTimestamp := now } := by
    have e1 := hk.pool.eq
    have e2 : c.pool.liquidity = pool.liquidity := by
      by_cases hi : l.index ≤ pool.currentTickIndex ∧ pool.currentTickIndex < u.index
      · exact (hk.pool.add rfl hi.1 hi.2).1
      · exact hk.pool.out hi
    rw [e2] at e1
    exact e1
  have hP := hn.pool
  have hP' := hn'.pool
  rw [hp0, hk.lower.index, hk.upper.index] at hP'
  dsimp only at hP hP'
  rw [hL] at hP'
  have hq : m'.pool = m.pool := by
    have e1 := hP.eq
    have e2 := hP'.eq
    have e3 : m'.pool.liquidity = m.pool.liquidity := by
      by_cases hi : l.index ≤ pool.currentTickIndex ∧ pool.currentTickIndex < u.index
      · have h1 := hP.sub rfl hi.1 hi.2
        have h2 := hP'.sub rfl hi.1 hi.2
        dsimp only at h1 h2
        omega
      · have h1 := hP.out hi
        have h2 := hP'.out hi
        dsimp only at h1 h2
        omega
    rw [e3] at e2
    rw [e2, e1]
  have am : m'.amountX = m.amountX ∧ m'.amountY = m.amountY := by
    obtain ⟨i, h1⟩ := hP.amounts
    obtain ⟨j, h2⟩ := hP'.amounts
    dsimp only at h1 h2
    rw [h1] at h2
    have h3 := Except.ok.inj h2
    simp only [Prod.mk.injEq] at h3
    exact ⟨h3.1.symm, h3.2.1.symm⟩
  have zero : ∀ g, fgSub g g = 0 := by
    intro g
    simp [fgSub]
  have oX : m'.position.tokensOwedX = 0 := by
    have := hn'.pos.owedX
    dsimp only at this
    rw [this, hk.lower.index, hk.upper.index, hk.lower.outX, hk.upper.outX, hp0]
    dsimp only
    rw [hk.pos.eq]
    dsimp only
    rw [zero, Nat.zero_mul, Nat.zero_div]
  have oY : m'.position.tokensOwedY = 0 := by
    have := hn'.pos.owedY
    dsimp only at this
    rw [this, hk.lower.index, hk.upper.index, hk.lower.outY, hk.upper.outY, hp0]
    dsimp only
    rw [hk.pos.eq]
    dsimp only
    rw [zero, Nat.zero_mul, Nat.zero_div]
  have pX : m.position.tokensOwedX = c.position.tokensOwedX := by rw [hn.pos.owedX, hk.pos.owedX]
  have pY : m.position.tokensOwedY = c.position.tokensOwedY := by rw [hn.pos.owedY, hk.pos.owedY]
  refine ⟨b1.symm, b2.symm, hq, ?_, ?_⟩ <;> omega


/-- the state after a claim, read at the position claimed for -/
private theorem claimed (hr : Reach s) {i : Nat} {fx fy : Nat} {s₁ : Inv} (hc : claimFee e s i = .ok (s₁, fx, fy)) :
    ∃ p lower upper pool m b,
      s.positions.get e.caller i = .ok p ∧ s.ticks.get (p.poolKey, p.lowerTickIndex) = some lower ∧
      s.ticks.get (p.poolKey, p.upperTickIndex) = some upper ∧ s.pools.get p.poolKey = some pool ∧
      p.lowerTickIndex ≠ p.upperTickIndex ∧ lower.index = p.lowerTickIndex ∧ upper.index = p.upperTickIndex ∧
      p.claimFee pool upper lower e.now = .ok m ∧ fx = m.amountX ∧ fy = m.amountY ∧
      s₁ = { s with positions := { s.positions with map := s.positions.map.insert (e.caller, i) m.position }
                    pools := s.pools.insert p.poolKey m.pool
                    ticks := (s.ticks.insert (p.poolKey, p.upperTickIndex) m.upper).insert
                      (p.poolKey, p.lowerTickIndex) m.lower
                    balances := b } ∧
      (∃ b1, increaseTokenBalance s.balances p.poolKey.tokenX e.caller fx = .ok b1 ∧
        increaseTokenBalance b1 p.poolKey.tokenY e.caller fy = .ok b) ∧
      m.position.poolKey = p.poolKey ∧ m.position.lowerTickIndex = p.lowerTickIndex ∧
      m.position.upperTickIndex = p.upperTickIndex ∧ m.position.liquidity = p.liquidity ∧
      s₁.positions.get e.caller i = .ok m.position ∧
      s₁.ticks.get (p.poolKey, p.lowerTickIndex) = some m.lower ∧
      s₁.ticks.get (p.poolKey, p.upperTickIndex) = some m.upper ∧ s₁.pools.get p.poolKey = some m.pool := by
  have hw := reach_wf s hr
  obtain ⟨p, lower, upper, pool, m, ps, b1, b2, hp, hl, hu, hpl, hm, hps, hb1, hb2, hres⟩ := claimFee_ok hc
  simp only [Prod.mk.injEq] at hres
  obtain ⟨rfl, rfl, rfl⟩ := hres
  obtain ⟨m', hk, hm'⟩ := claim_full hm
  have i1 := hw.indexed _ _ _ hl
  have i2 := hw.indexed _ _ _ hu
  have hne : p.lowerTickIndex ≠ p.upperTickIndex := (hw.pos _ _ (posGet_ok.1 hp)).1.lt.ne
  have j1 : m.lower.index = p.lowerTickIndex := by rw [hm']; exact hk.lower.index.trans i1
  have j2 : m.upper.index = p.upperTickIndex := by rw [hm']; exact hk.upper.index.trans i2
  have k1 : m.position.poolKey = p.poolKey := by rw [hm']; dsimp only; rw [hk.pos.eq]
  have k2 : m.position.lowerTickIndex = p.lowerTickIndex := by rw [hm']; dsimp only; rw [hk.pos.eq]
  have k3 : m.position.upperTickIndex = p.upperTickIndex := by rw [hm']; dsimp only; rw [hk.pos.eq]
  have k4 : m.position.liquidity = p.liquidity := by rw [hm']; exact (hk.pos.add rfl).1
  unfold Positions.update at hps
  have hn : ¬ i ≥ s.positions.getLength e.caller := by
    intro hc; rw [if_pos hc] at hps; cases hps
  rw [if_neg hn] at hps
  cases hps
  rw [j1, j2]
  refine ⟨p, lower, upper, pool, m, b2, hp, hl, hu, hpl, hne, i1, i2, hm, rfl, rfl, rfl, ⟨b1, hb1, hb2⟩, k1, k2, k3, k4,
    posGet_ok.2 ?_, ?_, ?_, ?_⟩
  · dsimp only; rw [Map.get_insert_self]
  · dsimp only; rw [Map.get_insert_self]
  · dsimp only; rw [Map.get_insert_ne, Map.get_insert_self]
    exact fun h => hne (Prod.mk.inj h).2.symm
  · dsimp only; rw [Map.get_insert_self]

private theorem removed_positions {ps : Positions} {a : ActorId} {i : Nat} {q : Position} {x y : Positions × Position}
    (hx : ps.remove a i = .ok x) (hy : Positions.remove { ps with map := ps.map.insert (a, i) q } a i = .ok y) :
    y.1.length = x.1.length ∧ ∀ k, y.1.map.get k = x.1.map.get k := by
  unfold Positions.remove Positions.removeAt at hx hy
  simp only [bind_ok_iff, pure_ok_iff] at hx hy
  obtain ⟨p, -, z, ⟨mz, hz, rfl⟩, rfl⟩ := hx
  obtain ⟨p', -, w, ⟨mw, hw, rfl⟩, rfl⟩ := hy
  have hg : Positions.getLength { ps with map := ps.map.insert (a, i) q } a = ps.getLength a := rfl
  rw [hg] at hw ⊢
  refine ⟨rfl, fun k => ?_⟩
  dsimp only
  by_cases hi : i < u32Pred (ps.getLength a)
  · rw [if_pos hi] at hz hw
    simp only [bind_ok_iff, okOr_ok_iff, pure_ok_iff] at hz hw
    obtain ⟨l1, h1, rfl⟩ := hz
    obtain ⟨l2, h2, rfl⟩ := hw
    rw [Map.get_insert_ne _ _ (fun h => by have := (Prod.mk.inj h).2; omega), h1] at h2
    cases h2
    simp only [Map.get_insert, Map.get_erase]
    split
    · rfl
    · rfl
  · rw [if_neg hi] at hz hw
    simp only [pure_ok_iff] at hz hw
    subst hz; subst hw
    simp only [Map.get_insert, Map.get_erase]
    split
    · rfl
    · rfl

private theorem balOf_inc {b c : Balances} {t who : ActorId} {n : Nat} (h : increaseTokenBalance b t who n = .ok c)
    (a k : ActorId) : balOf c a k = balOf b a k + if a = who ∧ k = t then n else 0 := by
  rcases increase_ok.1 h with ⟨rfl, rfl⟩ | ⟨-, -, rfl⟩
  · simp
  · unfold balOf
    rw [Map.get_insert]
    by_cases hk : a = who ∧ k = t
    · obtain ⟨rfl, rfl⟩ := hk
      simp
    · rw [if_neg hk, if_neg (fun h => hk (Prod.mk.inj h))]
      simp

private theorem balOf_lt {b : Balances} (hb : BalWF b) (a k : ActorId) : balOf b a k < 2 ^ 256 := by
  unfold balOf
  cases h : b.get (a, k) with
  | none => simp
  | some v => exact (hb _ _ h).2

private theorem get_of_balOf {b c : Balances} (hb : BalWF b) (hc : BalWF c) {a k : ActorId}
    (h : balOf c a k = balOf b a k) : c.get (a, k) = b.get (a, k) := by
  unfold balOf at h
  cases h1 : b.get (a, k) with
  | none =>
    cases h2 : c.get (a, k) with
    | none => rfl
    | some v =>
      rw [h1, h2] at h
      exact absurd h (hc _ _ h2).1
  | some w =>
    cases h2 : c.get (a, k) with
    | none =>
      rw [h1, h2] at h
      exact absurd h.symm (hb _ _ h1).1
    | some v =>
      rw [h1, h2] at h
      have h : v = w := h
      rw [h]

/-- C91, leaving: whoever claims and leaves at once has, and leaves behind, exactly what they would have had and left
behind without the claim. -/
theorem C91_same {i : Nat} {env : Env} {s₁ s₂ s₃ : Inv} {fx fy x y x' y' : Nat} (hr : Reach s)
    (hc : claimFee e s i = .ok (s₁, fx, fy)) (he : env.caller = e.caller)
    (ha : removePosition env s i = .ok (s₂, x, y)) (hb : removePosition env s₁ i = .ok (s₃, x', y')) :
    x = fx + x' ∧ y = fy + y' ∧ SameState s₂ s₃ := by
  have hw := reach_wf s hr
  obtain ⟨p, lower, upper, pool, c, b, hp, hl, hu, hpl, hne, i1, i2, hcl, hfx, hfy, hs1, ⟨b0, hb0, hb0'⟩, k1, k2, k3, -,
    q1, q2, q3, q4⟩ := claimed hr hc
  obtain ⟨p₁, l₁, u₁, pl₁, m, sa, sb, ps, b1, b2, g1, g2, g3, g4, hm, d1, d2, r1, c1, c2, e1⟩ := removePosition_ok ha
  obtain ⟨p₂, l₂, u₂, pl₂, m', ta, tb, ps', b1', b2', g1', g2', g3', g4', hm', d1', d2', r1', c1', c2', e1'⟩ :=
    removePosition_ok hb
  simp only [Prod.mk.injEq] at e1 e1'
  obtain ⟨rfl, rfl, rfl⟩ := e1
  obtain ⟨rfl, rfl, rfl⟩ := e1'
  rw [he, hp] at g1; cases g1
  rw [hl] at g2; cases g2
  rw [hu] at g3; cases g3
  rw [hpl] at g4; cases g4
  rw [he, q1] at g1'; cases g1'
  rw [k1] at g2' g3' g4' hm' d1' d2' c1' c2'
  rw [k2] at g2' d1'
  rw [k3] at g3' d2'
  rw [q2] at g2'; cases g2'
  rw [q3] at g3'; cases g3'
  rw [q4] at g4'; cases g4'
  obtain ⟨t1, t2, t3, t4, t5⟩ := claim_remove (gross_lt hr hl) (gross_lt hr hu) hcl hm hm'
  have j1 : m.lower.index = p.lowerTickIndex := by
    obtain ⟨m₀, hk, -, -, rfl⟩ := remove_full hm
    exact hk.lower.index.trans i1
  have j2 : m.upper.index = p.upperTickIndex := by
    obtain ⟨m₀, hk, -, -, rfl⟩ := remove_full hm
    exact hk.upper.index.trans i2
  rw [t1, t3] at d1'
  rw [t2] at d2'
  obtain ⟨f1, f2⟩ := dropTick_full j1 d1
  obtain ⟨f3, f4⟩ := dropTick_full j2 d2
  obtain ⟨f1', f2'⟩ := dropTick_full j1 d1'
  obtain ⟨f3', f4'⟩ := dropTick_full j2 d2'
  have flip : ∀ {bb : Bool} {tm tm1 tm2 : Tickmap} {j : Int}, flipIf bb tm false j p.poolKey tm1 →
      flipIf bb tm false j p.poolKey tm2 → tm2 = tm1 := by
    intro bb tm tm1 tm2 j h1 h2
    cases bb
    · rw [h1.2 rfl, h2.2 rfl]
    · have := h1.1 rfl
      rw [h2.1 rfl] at this
      exact Except.ok.inj this
  have m1 : ta.tickmap = sa.tickmap := by
    rw [hs1] at f2'
    exact flip f2 f2'
  have m2 : tb.tickmap = sb.tickmap := by
    rw [m1] at f4'
    exact flip f4 f4'
  have ep : sb.positions = s.positions := by rw [f3, f1]
  have ep' : tb.positions = s₁.positions := by rw [f3', f1']
  have eb : sb.balances = s.balances := by rw [f3, f1]
  have eb' : tb.balances = b := by rw [f3', f1', hs1]
  rw [ep, he] at r1
  rw [ep', hs1, he] at r1'
  obtain ⟨n1, n2⟩ := removed_positions r1 r1'
  rw [eb, he] at c1
  rw [he] at c2 c2'
  rw [eb', he] at c1'
  have w0 := reach_balWF hr
  have w2 := balWF_inc (balWF_inc w0 c1) c2
  have w3 := balWF_inc (balWF_inc (balWF_inc (balWF_inc w0 hb0) hb0') c1') c2'
  subst hfx hfy
  refine ⟨t4, t5, ?_, ?_, ?_, ?_, ?_, ?_, ?_, ?_, ?_, ?_, ?_⟩
  · dsimp only; rw [f3', f1', f3, f1, hs1]
  · dsimp only; rw [f3', f1', f3, f1, hs1]
  · dsimp only; rw [f3', f1', f3, f1, hs1]
  · dsimp only; rw [f3', f1', f3, f1, hs1]
  · intro k; dsimp only; rw [f3', f1', f3, f1, hs1]
  · intro k _
    dsimp only
    rw [f3', f1', f3, f1, hs1]
    dsimp only
    simp only [Map.get_insert]
    split <;> rfl
  · intro k _ j
    dsimp only
    rw [f3', f1', f3, f1, hs1]
    dsimp only
    by_cases z1 : (k, j) = (p.poolKey, p.lowerTickIndex) <;> by_cases z2 : (k, j) = (p.poolKey, p.upperTickIndex) <;>
      by_cases y1 : m.lower.liquidityGross = 0 <;> by_cases y2 : m.upper.liquidityGross = 0 <;>
      simp only [y1, y2, if_true, if_false, Map.get_insert, Map.get_erase, z1, z2]
  · intro k _ j; dsimp only; rw [m2]
  · intro a _
    show (ps'.1.length.get a).getD 0 = (ps.1.length.get a).getD 0
    rw [n1]
  · intro a _ j
    exact get_iff.2 (n2 _)
  · intro a _ k
    refine get_of_balOf w2 w3 ?_
    rw [balOf_inc c2', balOf_inc c1', balOf_inc hb0', balOf_inc hb0, balOf_inc c2, balOf_inc c1, t4, t5]
    split <;> split <;> omega

/-- C91, leaving: a position can be closed after a claim if and only if it can be closed without it. -/
theorem C91_leave {i : Nat} {env : Env} {s₁ : Inv} {fx fy : Nat} (h : Reach32 s)
    (hc : claimFee e s i = .ok (s₁, fx, fy)) (he : env.caller = e.caller) :
    (∃ r, removePosition env s i = .ok r) ↔ ∃ r, removePosition env s₁ i = .ok r := by
  obtain ⟨hr, hf⟩ := reach32_reach s h
  have hst : step e s (.claimFee i) = .ok s₁ := by
    show (do let r ← claimFee e s i; pure r.1) = Except.ok s₁
    rw [hc]; rfl
  obtain ⟨p, lower, upper, pool, c, b, hp, hl, hu, hpl, hne, i1, i2, hcl, hfx, hfy, hs1, ⟨b0, hb0, hb0'⟩, k1, k2, k3, k4,
    q1, q2, q3, q4⟩ := claimed hr hc
  have hf1 : FewPositions s₁ := by
    intro a
    rw [hs1]
    exact hf a
  have h32 : Reach32 s₁ := .call h hst hf1
  obtain ⟨hr1, -⟩ := reach32_reach s₁ h32
  obtain ⟨-, -, o1, o2⟩ := (reach_acc s hr).pos _ _ (posGet_ok.1 hp)
  obtain ⟨m, hk, rfl⟩ := claim_full hcl
  dsimp only at hfx hfy q1 q2 q3 q4 k1 k2 k3 k4
  have hP : m.pool = { pool with lastTimestamp := e.now } := by
    have e1 := hk.pool.eq
    have e2 : m.pool.liquidity = pool.liquidity := by
      by_cases hi : lower.index ≤ pool.currentTickIndex ∧ pool.currentTickIndex < upper.index
      · exact (hk.pool.add rfl hi.1 hi.2).1
      · exact hk.pool.out hi
    rw [e2] at e1
    exact e1
  have zero : ∀ g, fgSub g g = 0 := by
    intro g
    simp [fgSub]
  have fX := hk.pos.owedX
  have fY := hk.pos.owedY
  rw [o1, Nat.zero_add] at fX
  rw [o2, Nat.zero_add] at fY
  have w0 := reach_balWF hr
  have tne := poolKey_ne hr hpl
  have nX : ∀ n, (if e.caller = e.caller ∧ p.poolKey.tokenX = p.poolKey.tokenY then n else 0) = 0 := fun n =>
    if_neg fun h => tne h.2
  have nY : ∀ n, (if e.caller = e.caller ∧ p.poolKey.tokenY = p.poolKey.tokenX then n else 0) = 0 := fun n =>
    if_neg fun h => tne h.2.symm
  have B1 : balOf b e.caller p.poolKey.tokenX = balOf s.balances e.caller p.poolKey.tokenX + fx := by
    rw [balOf_inc hb0', balOf_inc hb0, nX, if_pos ⟨rfl, rfl⟩, Nat.add_zero]
  have B2 : balOf b e.caller p.poolKey.tokenY = balOf s.balances e.caller p.poolKey.tokenY + fy := by
    rw [balOf_inc hb0', balOf_inc hb0, nY, if_pos ⟨rfl, rfl⟩, Nat.add_zero]
  constructor
  · rintro ⟨⟨s₂, x, y⟩, ha⟩
    obtain ⟨p₁, l₁, u₁, pl₁, m', ps, b', tm1, tm2, re, hxy, b1, c1, c2⟩ := removePosition_full (reach_wf s hr).indexed ha
    have g1 := re.get
    rw [he, hp] at g1; cases g1
    have g2 := re.hlt
    rw [hl] at g2; cases g2
    have g3 := re.hut
    rw [hu] at g3; cases g3
    have g4 := re.hpool
    rw [hpl] at g4; cases g4
    simp only [Prod.mk.injEq] at hxy
    obtain ⟨hx, hy⟩ := hxy
    dsimp only at c1 c2
    obtain ⟨j, hj⟩ := re.mod.pool.amounts
    dsimp only at hj
    have w2 := balWF_inc (balWF_inc w0 c1) c2
    have x1 := re.mod.pos.owedX
    have y1 := re.mod.pos.owedY
    rw [o1, Nat.zero_add, ← fX] at x1
    rw [o2, Nat.zero_add, ← fY] at y1
    have v1 := balOf_lt w2 e.caller p.poolKey.tokenX
    have v2 := balOf_lt w2 e.caller p.poolKey.tokenY
    rw [balOf_inc c2, balOf_inc c1, he, nX, if_pos ⟨rfl, rfl⟩] at v1
    rw [balOf_inc c2, balOf_inc c1, he, nY, if_pos ⟨rfl, rfl⟩] at v2
    refine remove_succeeds h32 (p := { m.position with tokensOwedX := 0, tokensOwedY := 0 }) (pool := m.pool)
      (lower := m.lower) (upper := m.upper) (x := m'.amountX) (y := m'.amountY) (fx := 0) (fy := 0) (i := j)
      (he ▸ q1) (k1 ▸ q4) ?_ ?_ ?_ ?_ ?_ ?_ ?_ ?_
    · dsimp only; rw [k1, k2]; exact q2
    · dsimp only; rw [k1, k3]; exact q3
    · rw [hk.lower.index, hk.upper.index, hk.lower.outX, hk.upper.outX, hP]
      dsimp only
      rw [hk.pos.eq]
      dsimp only
      rw [zero, Nat.zero_mul, Nat.zero_div]
    · rw [hk.lower.index, hk.upper.index, hk.lower.outY, hk.upper.outY, hP]
      dsimp only
      rw [hk.pos.eq]
      dsimp only
      rw [zero, Nat.zero_mul, Nat.zero_div]
    · dsimp only
      rw [hP, k2, k3, k4, ← i1, ← i2]
      exact hj
    · dsimp only
      rw [k1, he, hs1]
      dsimp only
      rw [B1]
      omega
    · dsimp only
      rw [k1, he, hs1]
      dsimp only
      rw [B2]
      omega
    · dsimp only
      rw [hP, k2, k3, k4]
      exact fun a1 a2 => remove_needs hr ha (he ▸ hp) hpl (pool := pool) a1 a2
  · rintro ⟨⟨s₃, x, y⟩, ha⟩
    obtain ⟨p₁, l₁, u₁, pl₁, m', ps, b', tm1, tm2, re, hxy, b1, c1, c2⟩ :=
      removePosition_full (reach_wf s₁ hr1).indexed ha
    have g1 := re.get
    rw [he, q1] at g1; cases g1
    have g2 := re.hlt
    dsimp only at g2
    rw [k1, k2, q2] at g2; cases g2
    have g3 := re.hut
    dsimp only at g3
    rw [k1, k3, q3] at g3; cases g3
    have g4 := re.hpool
    dsimp only at g4
    rw [k1, q4] at g4; cases g4
    simp only [Prod.mk.injEq] at hxy
    obtain ⟨hx, hy⟩ := hxy
    dsimp only at c1 c2
    rw [k1] at c1 c2
    have eb : s₁.balances = b := by rw [hs1]
    have c1 := eb ▸ c1
    obtain ⟨j, hj⟩ := re.mod.pool.amounts
    dsimp only at hj
    rw [hP, hk.lower.index, hk.upper.index, k4] at hj
    have w2 := balWF_inc (balWF_inc (balWF_inc (balWF_inc w0 hb0) hb0') c1) c2
    have v1 := balOf_lt w2 e.caller p.poolKey.tokenX
    have v2 := balOf_lt w2 e.caller p.poolKey.tokenY
    rw [balOf_inc c2, balOf_inc c1, he, nX, if_pos ⟨rfl, rfl⟩, B1] at v1
    rw [balOf_inc c2, balOf_inc c1, he, nY, if_pos ⟨rfl, rfl⟩, B2] at v2
    refine remove_succeeds h (p := p) (pool := pool) (lower := lower) (upper := upper) (x := m'.amountX)
      (y := m'.amountY) (fx := fx) (fy := fy) (i := j) (he ▸ hp) hpl hl hu (hfx.trans fX) (hfy.trans fY) ?_ ?_ ?_ ?_
    · rw [← i1, ← i2]
      exact hj
    · rw [he]
      omega
    · rw [he]
      omega
    · intro a1 a2
      have := remove_needs hr1 ha (he ▸ q1) (k1 ▸ q4) (by dsimp only; rw [k2, hP]; exact a1)
        (by dsimp only; rw [k3, hP]; exact a2)
      dsimp only at this
      rw [k4, hP] at this
      exact this

/-! ### examples -/

namespace UnseenDemo

/-- what account 2 does after account 3 has claimed, or has not -/
def more : List (Env × Call) :=
  [(Demo.by_ 2, .swap Demo.key false (30 * 10 ^ 6) true MAX_SQRT_PRICE), (Demo.by_ 2, .claimFee 0),
    (Demo.by_ 2, .createPosition Demo.key (-10) 30 (10 ^ 14) 0 (10 ^ 25))]

/-- account 3 claims -/
def early : Inv := runAll Demo.traded [(Demo.by_ 3, .claimFee 0)]

/-- a pool with an almost total fee and little liquidity, after a swap that moves its accumulator nearly all the way -/
def tier : FeeTier := ⟨999999999998, 10⟩
def key : PoolKey := ⟨5, 7, tier⟩
def base : Inv :=
  runAll Demo.funded
    [(Demo.by_ 1, .addFeeTier tier), (Demo.by_ 2, .createPool 5 7 tier (10 ^ 24) 0),
     (Demo.by_ 3, .createPosition key (-221810) 221810 (10 ^ 7) 0 (10 ^ 25)),
     (Demo.by_ 2, .swap key true (2 * 10 ^ 12) true MIN_SQRT_PRICE)]
def again : List (Env × Call) := [(Demo.by_ 2, .swap key true (2 * 10 ^ 12) true MIN_SQRT_PRICE)]

theorem base_reach : Reach base :=
  ProviderDemo.reach_all _ _ (reach32_reach _ (clear_reach32 _ (clearBooks_clear demo_funded_books))).1

end UnseenDemo

/-- Whether account 3 claimed before or not, account 2 trades to the same price, claims, deposits, and ends with the same
balances. Account 3 gets 13503 of X at the first claim and 18918 of Y at the second one, or both at once. -/
example :
    let a := runAll Demo.traded UnseenDemo.more
    let b := runAll UnseenDemo.early UnseenDemo.more
    (a.pools.get Demo.key).map (fun p => (p.sqrtPrice, p.liquidity)) =
        some (1000200108565000000000000, 4100000000000000) ∧
      (b.pools.get Demo.key).map (fun p => (p.sqrtPrice, p.liquidity)) =
        some (1000200108565000000000000, 4100000000000000) ∧
      a.positions.getLength 2 = 2 ∧ b.positions.getLength 2 = 2 ∧
      bal b.balances 2 5 = bal a.balances 2 5 ∧ bal b.balances 2 7 = bal a.balances 2 7 ∧
      bal b.balances 3 5 = bal a.balances 3 5 + 13503 ∧
      (claimFee (Demo.by_ 3) Demo.traded 0).toOption.map (·.2) = some (13503, 0) ∧
      (claimFee (Demo.by_ 3) a 0).toOption.map (·.2) = some (13503, 18918) ∧
      (claimFee (Demo.by_ 3) b 0).toOption.map (·.2) = some (0, 18918) ∧
      (Demo.traded.positions.get 3 0).toOption.bind (unclaimed Demo.traded) = some (4501000000000000000000, 0) ∧
      (UnseenDemo.early.positions.get 3 0).toOption.bind (unclaimed b) = some (0, 6306000000000000000000) := by
  decide +kernel

/-- account 3 takes its position out with the fees, or claims the fees first: 30012004 = 13503 + 29998501 -/
example :
    (removePosition (Demo.by_ 3) Demo.traded 0).toOption.map (·.2) = some (30012004, 0) ∧
      (removePosition (Demo.by_ 3) UnseenDemo.early 0).toOption.map (·.2) = some (29998501, 0) := by
  decide +kernel

private theorem claim_eval {e : Env} {s : Inv} {i x y : Nat} (h : (claimFee e s i).toOption.map (·.2) = some (x, y)) :
    ∃ t, claimFee e s i = .ok (t, x, y) := by
  cases hc : claimFee e s i with
  | error _ => rw [hc] at h; cases h
  | ok r =>
    rw [hc] at h
    obtain ⟨t, z⟩ := r
    have h : some z = some (x, y) := h
    cases h
    exact ⟨t, rfl⟩

/-- C91 without the bound on the growth is false: fees that have waited while the accumulator goes around are lost. With a
claim in between the provider gets twice 1799999999996 units of X, without it 197176330782. -/
theorem C91_negation :
    ¬ ∀ (s s₁ s₂ s₃ : Inv) (e e' : Env) (i fx fy gx gy hx hy : Nat) (l : List (Env × Call)), Reach s →
      claimFee e s i = .ok (s₁, fx, fy) → (∀ m ∈ l, e.caller ∉ parties m.1 m.2) → e'.caller = e.caller →
      claimFee e' (runAll s l) i = .ok (s₂, gx, gy) → claimFee e' (runAll s₁ l) i = .ok (s₃, hx, hy) →
      fx + hx ≤ gx ∧ fy + hy ≤ gy := by
  intro h
  obtain ⟨t1, h1⟩ := claim_eval (e := Demo.by_ 3) (s := UnseenDemo.base) (i := 0) (x := 1799999999996) (y := 0)
    (by decide +kernel)
  obtain ⟨t2, h2⟩ := claim_eval (e := Demo.by_ 3) (s := runAll UnseenDemo.base UnseenDemo.again) (i := 0)
    (x := 197176330782) (y := 0) (by decide +kernel)
  have e1 : t1 = runAll UnseenDemo.base [(Demo.by_ 3, .claimFee 0)] := by
    have : step (Demo.by_ 3) UnseenDemo.base (.claimFee 0) = .ok t1 := by
      show (do let r ← claimFee (Demo.by_ 3) UnseenDemo.base 0; pure r.1) = Except.ok t1
      rw [h1]; rfl
    unfold runAll runAll run
    rw [this]
  obtain ⟨t3, h3⟩ := claim_eval (e := Demo.by_ 3)
    (s := runAll (runAll UnseenDemo.base [(Demo.by_ 3, .claimFee 0)]) UnseenDemo.again) (i := 0)
    (x := 1799999999996) (y := 0) (by decide +kernel)
  rw [← e1] at h3
  have := (h _ _ _ _ _ _ _ _ _ _ _ _ _ _ UnseenDemo.base_reach h1 (by decide) rfl h2 h3).1
  exact absurd this (by decide)

end Verif
