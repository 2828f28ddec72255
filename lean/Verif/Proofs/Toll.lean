import Verif.Spec.Toll
import Verif.Proofs.Market

/-! # Two swaps on pools with the same market and different protocol fees -/

namespace Verif
open Service Spec

namespace Toll
open Market

/-- the pools have the same market, and the first has taken at most so much more than the second -/
structure PoolT (dx dy : Int) (p q : Pool) : Prop where
  mkt : PoolM p q
  x : (p.feeProtocolTokenX : Int) - q.feeProtocolTokenX ≤ dx
  y : (p.feeProtocolTokenY : Int) - q.feeProtocolTokenY ≤ dy

variable {p q p' q' : Pool} {t u t' u' : Tick} {dx dy : Int}

/-- a step takes the share of the fee, rounded up, unless there is no liquidity -/
theorem addFee_toll {amount f : Nat} {inX : Bool} (h : p.addFee amount inX f = .ok p') :
    p'.feeProtocolTokenX = p.feeProtocolTokenX +
      (if p.liquidity = 0 ∨ inX = false then 0 else (amount * f + (10 ^ 12 - 1)) / 10 ^ 12) ∧
    p'.feeProtocolTokenY = p.feeProtocolTokenY +
      (if p.liquidity = 0 ∨ inX = true then 0 else (amount * f + (10 ^ 12 - 1)) / 10 ^ 12) := by
  unfold Pool.addFee at h
  rw [bind_ok_iff] at h
  obtain ⟨pf, hpf, h⟩ := h
  rw [bind_ok_iff] at h
  obtain ⟨poolFee, hsub, h⟩ := h
  have hv : pf = (amount * f + (10 ^ 12 - 1)) / 10 ^ 12 := by
    unfold tokMulPctUp bigMulUp at hpf
    simp only [bind_ok_iff, mulC_ok_iff, addC_ok_iff, fit_ok_iff] at hpf
    obtain ⟨_, ⟨_, rfl⟩, _, ⟨_, rfl⟩, _, rfl⟩ := hpf
    rfl
  rw [subC_ok_iff] at hsub
  obtain ⟨_, rfl⟩ := hsub
  rw [← hv]
  split at h
  · next hc =>
    cases h
    rcases hc with ⟨_, h0⟩ | h0
    · rw [h0]; simp
    · simp [h0]
  · next hc =>
    have hl : p.liquidity ≠ 0 := fun h => hc (.inr h)
    rw [bind_ok_iff] at h
    obtain ⟨g, _, h⟩ := h
    split at h
    · next hx =>
      rw [bind_ok_iff] at h
      obtain ⟨_, ht, h⟩ := h
      rw [addC_ok_iff] at ht
      obtain ⟨_, rfl⟩ := ht
      cases h
      simp [hl, hx]
    · next hx =>
      rw [bind_ok_iff] at h
      obtain ⟨_, ht, h⟩ := h
      rw [addC_ok_iff] at ht
      obtain ⟨_, rfl⟩ := ht
      cases h
      simp [hl, hx]

theorem addFee_pair (h : PoolT dx dy p q) {amount f f' : Nat} {inX : Bool} (hf : f ≤ f') :
    Paired (PoolT dx dy) (unwrap (p.addFee amount inX f)) (unwrap (q.addFee amount inX f')) := by
  refine .unwrap fun a b ha hb => ?_
  obtain ⟨a1, a2, a3⟩ := addFee_market ha
  obtain ⟨b1, b2, b3⟩ := addFee_market hb
  obtain ⟨c1, c2⟩ := addFee_toll ha
  obtain ⟨d1, d2⟩ := addFee_toll hb
  obtain ⟨⟨h1, h2, h3⟩, hx, hy⟩ := h
  have hm : (amount * f + (10 ^ 12 - 1)) / 10 ^ 12 ≤ (amount * f' + (10 ^ 12 - 1)) / 10 ^ 12 :=
    Nat.div_le_div_right (by have := Nat.mul_le_mul_left amount hf; omega)
  refine ⟨⟨by omega, by omega, by omega⟩, ?_, ?_⟩
  · rw [c1, d1, h3]
    split <;> push_cast at * <;> omega
  · rw [c2, d2, h3]
    split <;> push_cast at * <;> omega

theorem cross_toll {n : Nat} {r : Tick × Pool} (h : t.cross p n = .ok r) :
    r.2.feeProtocolTokenX = p.feeProtocolTokenX ∧ r.2.feeProtocolTokenY = p.feeProtocolTokenY := by
  unfold Tick.cross at h
  simp only [bind_ok_iff, pure_ok_iff] at h
  obtain ⟨passed, _, l, hl, rfl⟩ := h
  exact ⟨rfl, rfl⟩

theorem cross_pair (h : PoolT dx dy p q) (ht : TickM t u) {n m : Nat} :
    Paired (fun a b => TickM a.1 b.1 ∧ b.2.sqrtPrice = a.2.sqrtPrice ∧ b.2.liquidity = a.2.liquidity ∧
        (a.2.feeProtocolTokenX : Int) - b.2.feeProtocolTokenX ≤ dx ∧
        (a.2.feeProtocolTokenY : Int) - b.2.feeProtocolTokenY ≤ dy)
      (unwrap (t.cross p n)) (unwrap (u.cross q m)) := by
  refine .unwrap fun a b ha hb => ?_
  have hp := Market.cross_pair h.mkt ht (n := n) (m := m)
  rw [ha, hb] at hp
  cases hp with
  | ok hp =>
    obtain ⟨a1, a2⟩ := cross_toll ha
    obtain ⟨b1, b2⟩ := cross_toll hb
    refine ⟨hp.1, hp.2.1, hp.2.2, ?_, ?_⟩
    · rw [a1, b1]; exact h.x
    · rw [a2, b2]; exact h.y

structure UpdT (dx dy : Int) (a b : UpdateTickResult) : Prop where
  pool : PoolT dx dy a.pool b.pool
  tick : PickM a.tick b.tick
  total : b.total = a.total
  remaining : b.remaining = a.remaining
  crossed : b.crossed = a.crossed

theorem updateTick_pair (h : PoolT dx dy p q) {a b : UpdatePoolTick} (ht : PickM a b) {r : SwapResult}
    {limit remaining f f' n m : Nat} (hf : f ≤ f') {byIn xToY : Bool} {tier : FeeTier} :
    Paired (UpdT dx dy) (p.updateTick r limit a remaining byIn xToY n f tier)
      (q.updateTick r limit b remaining byIn xToY m f' tier) := by
  unfold Pool.updateTick
  have hno : b = .noTick ↔ a = .noTick := by cases ht <;> simp
  simp only [hno, h.mkt.2.2]
  split
  · exact .same fun i => .pure ⟨⟨⟨h.mkt.1, rfl, rfl⟩, h.x, h.y⟩, ht, rfl, rfl, rfl⟩
  · refine .same fun enough => ?_
    cases ht with
    | noTick => exact .fail
    | uninitialized i => exact .pure ⟨⟨⟨h.mkt.1, rfl, rfl⟩, h.x, h.y⟩, .uninitialized i, rfl, rfl, rfl⟩
    | @initialized t u ht =>
      dsimp only
      split
      · refine (cross_pair h ht).bind fun c d hcd => ?_
        rw [ht.1]
        exact .pure ⟨⟨⟨hcd.2.1, rfl, hcd.2.2.1⟩, hcd.2.2.2.1, hcd.2.2.2.2⟩, .initialized hcd.1, rfl, rfl, rfl⟩
      · split
        · split
          · refine (addFee_pair h hf).bind fun c d hcd => ?_
            rw [ht.1]
            exact .pure ⟨⟨⟨hcd.mkt.1, rfl, hcd.mkt.2.2⟩, hcd.x, hcd.y⟩, .initialized ht, rfl, rfl, rfl⟩
          · rw [ht.1]; exact .pure ⟨⟨⟨h.mkt.1, rfl, rfl⟩, h.x, h.y⟩, .initialized ht, rfl, rfl, rfl⟩
        · rw [ht.1]; exact .pure ⟨⟨⟨h.mkt.1, rfl, rfl⟩, h.x, h.y⟩, .initialized ht, rfl, rfl, rfl⟩

structure SwT (dx dy : Int) (a b : SwapState) : Prop where
  pool : PoolT dx dy a.pool b.pool
  ticks : List.Forall₂ TickM a.ticks b.ticks
  remaining : b.remaining = a.remaining
  totalIn : b.totalIn = a.totalIn
  totalOut : b.totalOut = a.totalOut
  fee : b.fee = a.fee

variable {s s' : Inv} {k k' : PoolKey}

theorem swapIter_pair (h : Mkt s k s' k') (hf : s.protocolFee ≤ s'.protocolFee) {xToY byIn : Bool} {limit n m : Nat}
    {a b : SwapState} (hab : SwT dx dy a b) :
    Paired (SwT dx dy) (swapIter s ⟨k, xToY, byIn, limit, n⟩ a) (swapIter s' ⟨k', xToY, byIn, limit, m⟩ b) := by
  unfold swapIter
  dsimp only
  rw [h.tier, closer_eq h.word, hab.pool.mkt.1, hab.pool.mkt.2.1, hab.pool.mkt.2.2, hab.remaining, hab.totalIn,
    hab.totalOut, hab.fee]
  refine .same fun lim => .same fun r => .same fun inFee => .same fun remaining => ?_
  refine (addFee_pair hab.pool hf).bind fun p q hp => .same fun fee => .same fun tin => .same fun tout =>
    .same fun _ => (limitingTick_pair h).bind fun t u ht => ?_
  refine (updateTick_pair (p := { p with sqrtPrice := r.nextSqrtPrice }) (q := { q with sqrtPrice := r.nextSqrtPrice })
    ⟨⟨rfl, hp.mkt.2.1, hp.mkt.2.2⟩, hp.x, hp.y⟩ ht hf).bind fun c d hcd => ?_
  rw [hcd.total, hcd.remaining, hcd.crossed, hcd.pool.mkt.2.1]
  refine .same fun total => .same fun _ => .pure ⟨hcd.pool, ?_, rfl, rfl, rfl, rfl⟩
  dsimp only
  have hk := hcd.tick
  revert hk
  generalize c.tick = x
  generalize d.tick = y
  intro hk
  cases hk with
  | noTick => exact hab.ticks
  | uninitialized i => exact hab.ticks
  | initialized ht =>
    dsimp only
    split
    · exact List.rel_append hab.ticks (.cons ht .nil)
    · exact hab.ticks

theorem swapLoop_pair (h : Mkt s k s' k') (hf : s.protocolFee ≤ s'.protocolFee) {xToY byIn : Bool} {limit n m : Nat} (fuel : Nat) :
    ∀ {a b : SwapState}, SwT dx dy a b →
      Option.Rel (Paired (SwT dx dy)) (swapLoop s ⟨k, xToY, byIn, limit, n⟩ fuel a)
        (swapLoop s' ⟨k', xToY, byIn, limit, m⟩ fuel b) ∨
      (∃ e st, (∀ v, e ≠ .inv v) ∧ (swapLoop s ⟨k, xToY, byIn, limit, n⟩ fuel a = some (.error e) ∧
        swapLoop s' ⟨k', xToY, byIn, limit, m⟩ fuel b = st ∨
        swapLoop s ⟨k, xToY, byIn, limit, n⟩ fuel a = st ∧
        swapLoop s' ⟨k', xToY, byIn, limit, m⟩ fuel b = some (.error e))) := by
  induction fuel with
  | zero => intro a b _; exact .inl .none
  | succ j ih =>
    intro a b hab
    unfold swapLoop
    rw [hab.remaining]
    split
    · exact .inl (.some (.ok hab))
    · have := swapIter_pair h hf (xToY := xToY) (byIn := byIn) (limit := limit) (n := n) (m := m) hab
      revert this
      generalize swapIter s ⟨k, xToY, byIn, limit, n⟩ a = x
      generalize swapIter s' ⟨k', xToY, byIn, limit, m⟩ b = y
      intro this
      cases this with
      | fail => exact .inl (.some .fail)
      | ok hc => exact ih hc
      | @left e b he => exact .inr ⟨e, _, he, .inl ⟨rfl, rfl⟩⟩
      | @right e a he => exact .inr ⟨e, _, he, .inr ⟨rfl, rfl⟩⟩

theorem calculateSwap_pair (h : Mkt s k s' k') (hf : s.protocolFee ≤ s'.protocolFee)
    (hx : ∀ p q, s.pools.get k = some p → s'.pools.get k' = some q → PoolT dx dy p q) {xToY byIn : Bool} {amount limit n m : Nat} :
    Paired (fun a b => PoolT dx dy a.pool b.pool) (calculateSwap s n k xToY amount byIn limit) (calculateSwap s' m k' xToY amount byIn limit) := by
  unfold calculateSwap
  refine Paired.bind (R := PoolT dx dy) ?_ fun p q hp => ?_
  · unfold swapStart
    have hrel : Option.Rel (PoolT dx dy) (s.pools.get k) (s'.pools.get k') := by
      have := h.pool
      revert this hx
      generalize s.pools.get k = x
      generalize s'.pools.get k' = y
      intro hx this
      cases this with
      | none => exact .none
      | some _ => exact .some (hx _ _ rfl rfl)
    refine .same fun _ => (Paired.okOr hrel).bind fun p q hp => ?_
    rw [hp.mkt.1]
    exact .same fun _ => .same fun _ => .pure hp
  · refine Paired.bind (R := SwT dx dy) ?_ fun a b hab => ?_
    · have := swapLoop_pair h hf (xToY := xToY) (byIn := byIn) (limit := limit) (n := n) (m := m) swapFuel
        (a := { pool := p, ticks := [], remaining := amount, totalIn := 0, totalOut := 0, fee := 0 })
        (b := { pool := q, ticks := [], remaining := amount, totalIn := 0, totalOut := 0, fee := 0 })
        ⟨hp, .nil, rfl, rfl, rfl, rfl⟩
      revert this
      generalize swapLoop s _ _ _ = x
      generalize swapLoop s' _ _ _ = y
      rintro (this | ⟨e, st, he, ⟨rfl, rfl⟩ | ⟨rfl, rfl⟩⟩)
      · cases this with
        | none => exact .fail
        | some h => exact h
      · simp only [Option.getD_some]
        cases y with
        | none => exact .fail
        | some z =>
          cases z with
          | ok z => exact .left he
          | error => exact .fail
      · simp only [Option.getD_some]
        cases x with
        | none => exact .fail
        | some z =>
          cases z with
          | ok z => exact .right he
          | error => exact .fail
    · rw [hab.totalOut]
      exact .same fun _ => .pure hab.pool

end Toll
end Verif
