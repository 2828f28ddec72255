import Verif.Proofs.SwapLoop
import Verif.Proofs.FeeGrowth
import Verif.Proofs.BalanceFrame

/-! # What a swap changes in the pool and in the ticks -/

namespace Verif
open Service Spec

variable {s : Inv} {a : SwapArgs} {st st' : SwapState}

/-- the protocol's part of a fee -/
def protoPart (amount rate L : Nat) : Nat :=
  if L = 0 then 0 else (amount * rate + (10 ^ 12 - 1)) / 10 ^ 12

/-- everything `add_fee` does -/
theorem addFee_full {pool p : Pool} {amount pf : Nat} {inX : Bool}
    (h : pool.addFee amount inX pf = .ok p) :
    protoPart amount pf pool.liquidity ≤ amount ∧
    p = { pool with
      feeGrowthGlobalX := p.feeGrowthGlobalX
      feeGrowthGlobalY := p.feeGrowthGlobalY
      feeProtocolTokenX := pool.feeProtocolTokenX +
        if inX then protoPart amount pf pool.liquidity else 0
      feeProtocolTokenY := pool.feeProtocolTokenY +
        if inX then 0 else protoPart amount pf pool.liquidity } := by
  unfold Pool.addFee at h
  simp only [bind_ok_iff, subC_ok_iff] at h
  obtain ⟨pf', hpf, pool', ⟨hle, rfl⟩, h⟩ := h
  have hp : pf' = (amount * pf + (10 ^ 12 - 1)) / 10 ^ 12 := by
    unfold tokMulPctUp bigMulUp at hpf
    simp only [bind_ok_iff, mulC_ok_iff, addC_ok_iff, fit_ok_iff] at hpf
    obtain ⟨_, ⟨_, rfl⟩, _, ⟨_, rfl⟩, _, rfl⟩ := hpf
    rfl
  have hle' : protoPart amount pf pool.liquidity ≤ amount := by
    unfold protoPart
    split
    · omega
    · rw [← hp]; exact hle
  refine ⟨hle', ?_⟩
  rw [ite_ok_iff] at h
  rcases h with ⟨hc, h⟩ | ⟨hc, h⟩
  · simp only [pure_ok_iff] at h
    subst h
    have h0 : protoPart amount pf pool.liquidity = 0 := by
      unfold protoPart
      rcases hc with ⟨_, hc⟩ | hc
      · rw [← hp, hc]; simp
      · rw [if_pos hc]
    rw [h0]
    simp
  · have h0 : protoPart amount pf pool.liquidity = pf' := by
      unfold protoPart
      push Not at hc
      rw [if_neg hc.2, hp]
    rw [h0]
    rw [bind_ok_iff] at h
    obtain ⟨g, hg, h⟩ := h
    cases inX with
    | true =>
      simp only [if_true, bind_ok_iff, addC_ok_iff, pure_ok_iff] at h
      obtain ⟨_, ⟨_, rfl⟩, rfl⟩ := h
      simp
    | false =>
      simp only [Bool.false_eq_true, if_false, bind_ok_iff, addC_ok_iff, pure_ok_iff] at h
      obtain ⟨_, ⟨_, rfl⟩, rfl⟩ := h
      simp

/-- everything `cross` does -/
theorem cross_full {t t' : Tick} {pool p : Pool} {now : Nat} (h : t.cross pool now = .ok (t', p)) :
    t' = { t with feeGrowthOutsideX := t'.feeGrowthOutsideX
                  feeGrowthOutsideY := t'.feeGrowthOutsideY
                  secondsOutside := t'.secondsOutside } ∧
    p = { pool with liquidity := p.liquidity, lastTimestamp := p.lastTimestamp } ∧
    (if xor (decide (pool.currentTickIndex ≥ t.index)) t.sign
      then pool.liquidity + t.liquidityChange < 2 ^ 256 ∧ p.liquidity = pool.liquidity + t.liquidityChange
      else t.liquidityChange ≤ pool.liquidity ∧ p.liquidity = pool.liquidity - t.liquidityChange) := by
  simp only [Tick.cross, bind_ok_iff, pure_ok_iff, subC_ok_iff] at h
  obtain ⟨_, _, l, hl, e⟩ := h
  cases e
  refine ⟨rfl, rfl, ?_⟩
  split at hl
  · next hc => rw [if_pos hc]; simpa using hl
  · next hc => rw [if_neg hc]; simpa using hl

/-- the fields of a pool that a swap never changes, and the protocol fees, which only grow -/
structure PoolGrows (p q : Pool) : Prop where
  receiver : q.feeReceiver = p.feeReceiver
  start : q.startTimestamp = p.startTimestamp
  protoX : p.feeProtocolTokenX ≤ q.feeProtocolTokenX
  protoY : p.feeProtocolTokenY ≤ q.feeProtocolTokenY

theorem PoolGrows.refl (p : Pool) : PoolGrows p p := ⟨rfl, rfl, le_rfl, le_rfl⟩

theorem PoolGrows.trans {p q r : Pool} (h1 : PoolGrows p q) (h2 : PoolGrows q r) : PoolGrows p r :=
  ⟨h2.1.trans h1.1, h2.2.trans h1.2, h1.3.trans h2.3, h1.4.trans h2.4⟩

theorem poolGrows_addFee {pool p : Pool} {amount pf : Nat} {inX : Bool}
    (h : pool.addFee amount inX pf = .ok p) : PoolGrows pool p := by
  rw [(addFee_full h).2]
  exact ⟨rfl, rfl, Nat.le_add_right _ _, Nat.le_add_right _ _⟩

theorem poolGrows_iter (h : swapIter s a st = .ok st') : PoolGrows st.pool st'.pool := by
  obtain ⟨target, info, r, remaining, pool, tick, u, h⟩ := swapIter_ok h
  have h1 := poolGrows_addFee h.fee
  rw [h.res]
  refine h1.trans ?_
  cases h.upd with
  | inside => exact ⟨rfl, rfl, le_rfl, le_rfl⟩
  | cross _ _ _ _ hx =>
    dsimp only
    rw [(cross_full hx).2.1]
    exact ⟨rfl, rfl, le_rfl, le_rfl⟩
  | dust _ _ _ _ _ _ hf =>
    obtain ⟨a, b, c, d⟩ := poolGrows_addFee hf
    exact ⟨a, b, c, d⟩
  | drop => exact ⟨rfl, rfl, le_rfl, le_rfl⟩
  | done => exact ⟨rfl, rfl, le_rfl, le_rfl⟩
  | uninit => exact ⟨rfl, rfl, le_rfl, le_rfl⟩

theorem poolGrows_swap {now : Nat} {key : PoolKey} {xToY byIn : Bool} {amount limit : Nat}
    {r : CalculateSwapResult} {pool : Pool}
    (h : calculateSwap s now key xToY amount byIn limit = .ok r) (hp : s.pools.get key = some pool) :
    PoolGrows pool r.pool := by
  obtain ⟨st, h1, _, _, e⟩ := calculateSwap_ind (P := fun st => PoolGrows pool st.pool) h hp
    (PoolGrows.refl _) (fun st st' hP _ hi => hP.trans (poolGrows_iter hi))
  rw [e]
  exact h1

/-- a tick after some crossings: only the accumulators differ -/
structure SameLiq (t t' : Tick) : Prop where
  index : t'.index = t.index
  sign : t'.sign = t.sign
  change : t'.liquidityChange = t.liquidityChange
  gross : t'.liquidityGross = t.liquidityGross
  price : t'.sqrtPrice = t.sqrtPrice

theorem SameLiq.refl (t : Tick) : SameLiq t t := ⟨rfl, rfl, rfl, rfl, rfl⟩

theorem SameLiq.trans {t u v : Tick} (h1 : SameLiq t u) (h2 : SameLiq u v) : SameLiq t v :=
  ⟨h2.1.trans h1.1, h2.2.trans h1.2, h2.3.trans h1.3, h2.4.trans h1.4, h2.5.trans h1.5⟩

/-- every tick listed as crossed stems from a stored tick of the pool -/
theorem ticks_iter (h : swapIter s a st = .ok st')
    (hP : ∀ t ∈ st.ticks, ∃ i q, s.ticks.get (a.key, i) = some q ∧ SameLiq q t) :
    ∀ t ∈ st'.ticks, ∃ i q, s.ticks.get (a.key, i) = some q ∧ SameLiq q t := by
  obtain ⟨target, info, r, remaining, pool, tick, u, h⟩ := swapIter_ok h
  rw [h.res]
  intro t ht
  have hk := h.htick
  cases h.upd with
  | cross ht' _ _ _ hx =>
    simp only [if_true, List.mem_append, List.mem_singleton] at ht
    rcases ht with ht | rfl
    · exact hP t ht
    · subst ht'
      have e := (cross_full hx).1
      match info, hk with
      | some (i, true), hk =>
        simp only [limitingTick, bind_ok_iff, ticksGet_ok, pure_ok_iff] at hk
        obtain ⟨q, hq, e'⟩ := hk
        cases e'
        exact ⟨i, _, hq, by rw [e]; exact ⟨rfl, rfl, rfl, rfl, rfl⟩⟩
      | some (i, false), hk => simp [limitingTick] at hk
      | none, hk => simp [limitingTick] at hk
  | _ =>
    simp only [Bool.false_eq_true, if_false] at ht
    refine hP t ?_
    revert ht
    cases tick <;> exact id

theorem ticks_swap {now : Nat} {key : PoolKey} {xToY byIn : Bool} {amount limit : Nat}
    {r : CalculateSwapResult}
    (h : calculateSwap s now key xToY amount byIn limit = .ok r) :
    ∀ t ∈ r.ticks, ∃ i q, s.ticks.get (key, i) = some q ∧ SameLiq q t := by
  obtain ⟨p, hp, _⟩ := calculateSwap_pool h
  obtain ⟨st, h1, _, _, e⟩ := calculateSwap_ind
    (P := fun st => ∀ t ∈ st.ticks, ∃ i q, s.ticks.get (key, i) = some q ∧ SameLiq q t) h hp
    (by intro t ht; simp at ht) (fun st st' hP _ hi => ticks_iter hi hP)
  rw [e]
  exact h1

theorem updateTicks_other {key : PoolKey} : ∀ (l : List Tick) (m m' : Map (PoolKey × Int) Tick),
    updateTicks key l m = .ok m' → ∀ k, k.1 ≠ key → m'.get k = m.get k := by
  intro l
  induction l with
  | nil => intro m m' h k _; simp only [updateTicks, Except.ok.injEq] at h; rw [h]
  | cons t l ih =>
    intro m m' h k hk
    simp only [updateTicks, bind_ok_iff, ticksUpdate_ok] at h
    obtain ⟨_, ⟨_, rfl⟩, h⟩ := h
    rw [ih _ _ h k hk, Map.get_insert_ne _ _ (by rintro rfl; exact hk rfl)]

/-- ticks stored under their own index -/
def TickIndexed (m : Map (PoolKey × Int) Tick) : Prop :=
  ∀ k i t, m.get (k, i) = some t → t.index = i

/-- two tick maps with the same ticks up to accumulators -/
def TicksSame (m m' : Map (PoolKey × Int) Tick) : Prop :=
  ∀ k, (m.get k = none ∧ m'.get k = none) ∨
    ∃ t t', m.get k = some t ∧ m'.get k = some t' ∧ SameLiq t t'

theorem TicksSame.refl (m : Map (PoolKey × Int) Tick) : TicksSame m m := by
  intro k
  cases h : m.get k with
  | none => exact .inl ⟨rfl, rfl⟩
  | some t => exact .inr ⟨t, t, rfl, rfl, SameLiq.refl t⟩

theorem TicksSame.trans {a b c : Map (PoolKey × Int) Tick} (h1 : TicksSame a b) (h2 : TicksSame b c) :
    TicksSame a c := by
  intro k
  rcases h1 k with ⟨x, y⟩ | ⟨t, t', x, y, z⟩
  · rcases h2 k with ⟨x', y'⟩ | ⟨u, u', x', y', z'⟩
    · exact .inl ⟨x, y'⟩
    · rw [y] at x'; cases x'
  · rcases h2 k with ⟨x', y'⟩ | ⟨u, u', x', y', z'⟩
    · rw [y] at x'; cases x'
    · rw [y] at x'; cases x'
      exact .inr ⟨t, u', x, y', z.trans z'⟩

theorem TicksSame.indexed {a b : Map (PoolKey × Int) Tick} (h : TicksSame a b) (ha : TickIndexed a) :
    TickIndexed b := by
  intro k i t ht
  rcases h (k, i) with ⟨_, y⟩ | ⟨u, u', x, y, z⟩
  · rw [ht] at y; cases y
  · rw [ht] at y; cases y
    rw [z.index]; exact ha k i u x

theorem updateTicks_same {key : PoolKey} {m0 : Map (PoolKey × Int) Tick} (hi0 : TickIndexed m0) :
    ∀ (l : List Tick) (m m' : Map (PoolKey × Int) Tick), TicksSame m0 m →
    (∀ t ∈ l, ∃ i q, m0.get (key, i) = some q ∧ SameLiq q t) →
    updateTicks key l m = .ok m' → TicksSame m0 m' := by
  intro l
  induction l with
  | nil =>
    intro m m' hs _ h
    simp only [updateTicks, Except.ok.injEq] at h
    rw [← h]; exact hs
  | cons t l ih =>
    intro m m' hs hl h
    simp only [updateTicks, bind_ok_iff, ticksUpdate_ok] at h
    obtain ⟨_, ⟨_, rfl⟩, h⟩ := h
    refine ih _ _ ?_ (fun u hu => hl u (List.mem_cons_of_mem _ hu)) h
    intro k
    rw [Map.get_insert]
    split
    · next e =>
      subst e
      obtain ⟨i, q, hq, hsame⟩ := hl t List.mem_cons_self
      have : t.index = i := by rw [hsame.index]; exact hi0 key i q hq
      right
      exact ⟨q, t, by rw [this]; exact hq, rfl, hsame⟩
    · exact hs k

/-- a swap leaves every tick's liquidity data unchanged -/
theorem swap_ticksSame {env : Env} {key : PoolKey} {xToY byIn : Bool} {amount limit : Nat}
    {r : Inv × CalculateSwapResult} (hi : TickIndexed s.ticks)
    (h : swap env s key xToY amount byIn limit = .ok r) : TicksSame s.ticks r.1.ticks := by
  obtain ⟨ticks, _, _, h1, h2, _, _, e⟩ := swap_ok h
  rw [e]
  exact updateTicks_same hi _ _ _ (TicksSame.refl _) (ticks_swap h1) h2

end Verif
