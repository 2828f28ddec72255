import Verif.Proofs.TickInv
import Verif.Proofs.FeeGrowth

/-! # Accumulators are 128-bit numbers in reachable states; stored positions owe nothing -/

namespace Verif
open Service Spec

variable {env : Env} {s s' : Inv}

/-- the accumulators of a pool -/
def PoolAcc (p : Pool) : Prop := p.feeGrowthGlobalX < 2 ^ 128 ∧ p.feeGrowthGlobalY < 2 ^ 128
def TickAcc (t : Tick) : Prop := t.feeGrowthOutsideX < 2 ^ 128 ∧ t.feeGrowthOutsideY < 2 ^ 128
def PosAcc (p : Position) : Prop :=
  p.feeGrowthInsideX < 2 ^ 128 ∧ p.feeGrowthInsideY < 2 ^ 128 ∧ p.tokensOwedX = 0 ∧ p.tokensOwedY = 0

structure AccWF (s : Inv) : Prop where
  pool : ∀ k p, s.pools.get k = some p → PoolAcc p
  tick : ∀ k t, s.ticks.get k = some t → TickAcc t
  pos : ∀ k p, s.positions.map.get k = some p → PosAcc p

theorem poolAcc_addFee {pool p : Pool} {amount pf : Nat} {inX : Bool} (hp : PoolAcc pool)
    (h : pool.addFee amount inX pf = .ok p) : PoolAcc p := by
  obtain ⟨g, hg, _, h1, h2, _⟩ := addFee_ok h
  refine ⟨?_, ?_⟩
  · rw [h1]; split
    · exact fgAdd_lt hp.1 hg
    · exact hp.1
  · rw [h2]; split
    · exact hp.2
    · exact fgAdd_lt hp.2 hg

theorem acc_cross {t t' : Tick} {pool p : Pool} {now : Nat} (ht : TickAcc t) (hp : PoolAcc pool)
    (h : t.cross pool now = .ok (t', p)) : TickAcc t' ∧ PoolAcc p := by
  obtain ⟨_, h1, h2, h3, h4, _⟩ := cross_ok h
  exact ⟨⟨by rw [h1]; exact fgSub_lt hp.1 ht.1, by rw [h2]; exact fgSub_lt hp.2 ht.2⟩,
    by rw [h3]; exact hp.1, by rw [h4]; exact hp.2⟩

theorem acc_iter {a : SwapArgs} {st st' : SwapState} (hw : AccWF s) (h : swapIter s a st = .ok st')
    (hP : PoolAcc st.pool ∧ ∀ t ∈ st.ticks, TickAcc t) :
    PoolAcc st'.pool ∧ ∀ t ∈ st'.ticks, TickAcc t := by
  obtain ⟨target, info, r, remaining, pool, tick, u, h⟩ := swapIter_ok h
  have h1 : PoolAcc { pool with sqrtPrice := r.nextSqrtPrice } := by
    have := poolAcc_addFee hP.1 h.fee
    exact ⟨this.1, this.2⟩
  have hk := h.htick
  rw [h.res]
  have htk : ∀ q, tick = .initialized q → TickAcc q := by
      rintro q rfl
      match info, hk with
      | some (i, true), hk =>
        simp only [limitingTick, bind_ok_iff, ticksGet_ok, pure_ok_iff] at hk
        obtain ⟨q, hq, e'⟩ := hk
        cases e'
        exact hw.tick _ _ hq
      | some (i, false), hk => simp [limitingTick] at hk
      | none, hk => simp [limitingTick] at hk
  cases h.upd with
  | cross ht' _ _ _ hx =>
    obtain ⟨a1, a2⟩ := acc_cross (htk _ ht') h1 hx
    subst ht'
    refine ⟨a2, ?_⟩
    intro t ht
    simp only [if_true, List.mem_append, List.mem_singleton] at ht
    rcases ht with ht | rfl
    · exact hP.2 t ht
    · exact a1
  | dust ht' _ _ _ _ _ hf =>
    subst ht'
    have h2 := poolAcc_addFee h1 hf
    refine ⟨⟨h2.1, h2.2⟩, ?_⟩
    intro t ht
    simp only [Bool.false_eq_true, if_false] at ht
    exact hP.2 t ht
  | _ =>
    refine ⟨h1, ?_⟩
    intro t ht
    simp only [Bool.false_eq_true, if_false] at ht
    refine hP.2 t ?_
    revert ht
    cases tick <;> exact id

theorem updateTicks_mem {key : PoolKey} : ∀ (l : List Tick) (m m' : Map (PoolKey × Int) Tick),
    updateTicks key l m = .ok m' → ∀ k t, m'.get k = some t → t ∈ l ∨ m.get k = some t := by
  intro l
  induction l with
  | nil => intro m m' h k t ht; simp only [updateTicks, Except.ok.injEq] at h; rw [h]; exact .inr ht
  | cons t l ih =>
    intro m m' h k q hq
    simp only [updateTicks, bind_ok_iff, ticksUpdate_ok] at h
    obtain ⟨_, ⟨_, rfl⟩, h⟩ := h
    rcases ih _ _ h k q hq with h1 | h1
    · exact .inl (List.mem_cons_of_mem _ h1)
    · rw [Map.get_insert] at h1
      split at h1
      · cases h1; exact .inl List.mem_cons_self
      · exact .inr h1

theorem acc_swap {key : PoolKey} {xToY byIn : Bool} {amount limit : Nat}
    {r : Inv × CalculateSwapResult} (hw : AccWF s)
    (h : swap env s key xToY amount byIn limit = .ok r) : AccWF r.1 := by
  obtain ⟨ticks, b1, b2, h1, h2, h3, h4, e⟩ := swap_ok h
  obtain ⟨p, hp, _⟩ := calculateSwap_pool h1
  obtain ⟨st, hst, _, _, er⟩ := calculateSwap_ind
    (P := fun st => PoolAcc st.pool ∧ ∀ t ∈ st.ticks, TickAcc t) h1 hp
    ⟨hw.pool _ _ hp, by intro t ht; simp at ht⟩ (fun st st' hP _ hi => acc_iter hw hi hP)
  rw [e]
  refine ⟨?_, ?_, hw.pos⟩
  · intro k q hq
    dsimp only at hq
    rw [Map.get_insert] at hq
    split at hq
    · cases hq; rw [er]; exact hst.1
    · exact hw.pool k q hq
  · intro k t ht
    rcases updateTicks_mem _ _ _ h2 k t ht with hm | hm
    · rw [er] at hm; exact hst.2 t hm
    · exact hw.tick k t hm

theorem modify_acc {p : Position} {pool : Pool} {u l : Tick} {delta now sp : Nat} {add : Bool}
    {m : ModifyResult} (h : ModifyOk p pool u l delta add now sp m) (hp : PoolAcc pool)
    (hu : TickAcc u) (hl : TickAcc l) :
    PoolAcc m.pool ∧ TickAcc m.upper ∧ TickAcc m.lower ∧ m.position.feeGrowthInsideX < 2 ^ 128 ∧
    m.position.feeGrowthInsideY < 2 ^ 128 := by
  refine ⟨?_, ?_, ?_, ?_, ?_⟩
  · rw [h.pool.eq]; exact hp
  · rw [h.upper.eq]; exact hu
  · rw [h.lower.eq]; exact hl
  · rw [h.pos.eq]; exact feeGrowthInside1_lt hl.1 hu.1 hp.1
  · rw [h.pos.eq]; exact feeGrowthInside1_lt hl.2 hu.2 hp.2

theorem getOrCreate_acc {key : PoolKey} {i : Int} {now : Nat} {r : Tick × Bool} (hw : AccWF s)
    (h : getOrCreateTick s now key i = .ok r) : TickAcc r.1 := by
  rcases getOrCreateTick_ok.1 h with ⟨t, ht, rfl⟩ | ⟨_, t, ht, rfl⟩
  · exact hw.tick _ _ ht
  · obtain ⟨_, pool, hp, hc, _⟩ := createTick_ok ht
    obtain ⟨_, h1, h2⟩ := tick_create_ok hc
    have hP := hw.pool _ _ hp
    refine ⟨?_, ?_⟩ <;> dsimp only
    · rw [h1]; split
      · exact hP.1
      · positivity
    · rw [h2]; split
      · exact hP.2
      · positivity

theorem acc_insert {α β : Type} [DecidableEq α] {P : β → Prop} {m : Map α β} {k : α} {v : β}
    (hm : ∀ k v, m.get k = some v → P v) (hv : P v) : ∀ k' v', (m.insert k v).get k' = some v' → P v' := by
  intro k' v' h
  rw [Map.get_insert] at h
  split at h
  · cases h; exact hv
  · exact hm k' v' h

theorem acc_erase {α β : Type} [DecidableEq α] {P : β → Prop} {m : Map α β} {k : α}
    (hm : ∀ k v, m.get k = some v → P v) : ∀ k' v', (m.erase k).get k' = some v' → P v' := by
  intro k' v' h
  rw [Map.get_erase] at h
  split at h
  · cases h
  · exact hm k' v' h

theorem acc_eraseIf {α β : Type} [DecidableEq α] {P : β → Prop} {m : Map α β} {k : α} {v : β}
    {c : Prop} [Decidable c] (hm : ∀ k v, m.get k = some v → P v) (hv : P v) :
    ∀ k' v', (if c then m.erase k else m.insert k v).get k' = some v' → P v' := by
  split
  · exact acc_erase hm
  · exact acc_insert hm hv

theorem reach_acc : ∀ s, Reach s → AccWF s := by
  refine reach_ind ?_ ?_ ?_
  · intro a f
    refine ⟨?_, ?_, ?_⟩ <;> intro k p h <;> simp [Inv.init] at h
  · intro s b aw h
    exact ⟨h.pool, h.tick, h.pos⟩
  · intro env s s' hr hw he
    cases he with
    | other => exact ⟨hw.pool, hw.tick, hw.pos⟩
    | newPool _ _ _ hp =>
      refine ⟨acc_insert hw.pool ?_, hw.tick, hw.pos⟩
      simp only [Pool.create, bind_ok_iff, pure_ok_iff] at hp
      obtain ⟨_, _, _, _, _, _, rfl⟩ := hp
      exact ⟨by dsimp only; positivity, by dsimp only; positivity⟩
    | poolField hp hq =>
      refine ⟨acc_insert hw.pool ?_, hw.tick, hw.pos⟩
      rw [hq]
      have := hw.pool _ _ hp
      exact ⟨this.1, this.2⟩
    | create h =>
      obtain ⟨pool, lt, ut, m, b, tm1, tm2, h, _⟩ := createPosition_full (reach_wf s hr).indexed h
      obtain ⟨m1, m2, m3, m4, m5⟩ := modify_acc h.mod (hw.pool _ _ h.hpool) (getOrCreate_acc hw h.hut)
        (getOrCreate_acc hw h.hlt)
      rw [h.res]
      refine ⟨acc_insert hw.pool m1, acc_insert (acc_insert hw.tick m3) m2, ?_⟩
      intro k p hp
      rcases posAdd_mem hp with rfl | hp
      · refine ⟨m4, m5, ?_, ?_⟩
        · rw [h.mod.pos.owedX]; simp
        · rw [h.mod.pos.owedY]; simp
      · exact hw.pos k p hp
    | remove h =>
      obtain ⟨p, lower, upper, pool, m, ps, b, tm1, tm2, h, _⟩ :=
        removePosition_full (reach_wf s hr).indexed h
      obtain ⟨m1, m2, m3, m4, m5⟩ := modify_acc h.mod (hw.pool _ _ h.hpool) (hw.tick _ _ h.hut)
        (hw.tick _ _ h.hlt)
      rw [h.res]
      refine ⟨acc_insert hw.pool m1, acc_eraseIf (acc_eraseIf hw.tick m3) m2, ?_⟩
      intro k q hq
      obtain ⟨k', hk'⟩ := posRemove_mem h.rem hq
      exact hw.pos k' q hk'
    | claim h =>
      obtain ⟨p, lower, upper, pool, m, ps, b, h, _⟩ := claimFee_full (reach_wf s hr).indexed h
      obtain ⟨m1, m2, m3, m4, m5⟩ := modify_acc h.mod (hw.pool _ _ h.hpool) (hw.tick _ _ h.hut)
        (hw.tick _ _ h.hlt)
      rw [h.res]
      refine ⟨acc_insert hw.pool m1, acc_insert (acc_insert hw.tick m2) m3, ?_⟩
      intro k q hq
      rcases posUpdate_mem h.upd hq with rfl | hq
      · exact ⟨m4, m5, rfl, rfl⟩
      · exact hw.pos k q hq
    | transfer h =>
      refine ⟨hw.pool, hw.tick, ?_⟩
      intro k q hq
      rcases posAdd_mem hq with rfl | hq
      · exact hw.pos _ _ (posGet_ok.1 (remove_get h))
      · obtain ⟨k', hk'⟩ := posRemove_mem h hq
        exact hw.pos k' q hk'
    | swap h => exact acc_swap hw h

end Verif
