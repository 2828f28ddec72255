import Verif.Proofs.Traceless
import Verif.Props.Market
import Verif.Props.Deposit

/-!
# C101: a position that was opened and closed again leaves no trace
-/

set_option exponentiation.threshold 1000

namespace Verif
open Service Spec

variable {s a b : Inv} {e e' : Env} {key : PoolKey} {lower upper : Int} {L ll lu x y : Nat} {p : Position}

namespace Trace

theorem created (hr : Reach s) (h : createPosition e s key lower upper L ll lu = .ok (a, p)) : Reach a := by
  refine .call hr (env := e) (c := .createPosition key lower upper L ll lu) ?_
  show (do let r ← createPosition e s key lower upper L ll lu; pure r.1) = Except.ok a
  rw [h]; rfl

theorem removed {i : Nat} (hr : Reach a) (h : removePosition e' a i = .ok (b, x, y)) : Reach b := by
  refine .call hr (env := e') (c := .removePosition i) ?_
  show (do let r ← removePosition e' a i; pure r.1) = Except.ok b
  rw [h]; rfl

theorem bal_eq (b : Balances) (w t : ActorId) : bal b w t = balOf b w t := by
  unfold bal balOf
  cases b.get (w, t) <;> rfl

/-- both credits of a withdrawal -/
theorem credits {b b1 b2 : Balances} {tx ty who : ActorId} {x y : Nat} (hne : tx ≠ ty)
    (h1 : increaseTokenBalance b tx who x = .ok b1) (h2 : increaseTokenBalance b1 ty who y = .ok b2) :
    bal b2 who tx = bal b who tx + x ∧ bal b2 who ty = bal b who ty + y ∧
      ∀ t, t ≠ tx → t ≠ ty → bal b2 who t = bal b who t := by
  simp only [bal_eq]
  have a1 := increase_bal h1 who tx
  have a2 := increase_bal h1 who ty
  have a3 := increase_bal h2 who tx
  have a4 := increase_bal h2 who ty
  rw [if_pos ⟨rfl, rfl⟩] at a1 a4
  rw [if_neg fun h => hne h.2.symm] at a2
  rw [if_neg fun h => hne h.2] at a3
  refine ⟨by omega, by omega, fun t h h' => ?_⟩
  have a5 := increase_bal h1 who t
  have a6 := increase_bal h2 who t
  rw [if_neg fun z => h z.2] at a5
  rw [if_neg fun z => h' z.2] at a6
  omega

/-- what becomes of a tick that was there before, or was not -/
theorem slot {i : Int} {n : Nat} {r : Tick × Bool} {u : Tick} (hw : StoreWF s) (h : getOrCreateTick s n key i = .ok r)
    (hs : SameTick r.1 u) (hg : u.liquidityGross = r.1.liquidityGross) :
    Option.Rel SameTick (s.ticks.get (key, i)) (if u.liquidityGross = 0 then none else some u) := by
  rcases getOrCreateTick_ok.1 h with ⟨t, ht, rfl⟩ | ⟨ht, t, hc, rfl⟩
  · have := (hw.tick _ _ _ ht).1.pos
    rw [ht, if_neg (by rw [hg]; exact this)]
    exact .some hs
  · obtain ⟨-, -, -, -, -, -, -, h0, -⟩ := createTick_ok hc
    rw [ht, if_pos (by rw [hg]; exact h0)]
    exact .none

theorem rel_isSome {α : Type} {S : α → α → Prop} {x y : Option α} (h : Option.Rel S x y) : y.isSome = x.isSome := by
  cases h <;> rfl

theorem get_slot {m : Map (PoolKey × Int) Tick} {k k' : PoolKey × Int} {u : Tick} :
    (if u.liquidityGross = 0 then m.erase k else m.insert k u).get k' =
      if k' = k then (if u.liquidityGross = 0 then none else some u) else m.get k' := by
  by_cases h : k' = k
  · subst h
    rw [if_pos rfl]
    split
    · rw [Map.get_erase_self]
    · rw [Map.get_insert_self]
  · rw [if_neg h]
    split
    · rw [Map.get_erase_ne _ h]
    · rw [Map.get_insert_ne _ _ h]

theorem fgSub_self (n : Nat) : fgSub n n = 0 := by
  unfold fgSub
  split <;> omega

theorem flip_other {bb v : Bool} {tm tm' : Tickmap} {j : Int} {k k' : PoolKey} {c : Nat} (h : flipIf bb tm v j k tm')
    (hk : k' ≠ k) : tm'.get (c, k') = tm.get (c, k') := by
  cases bb
  · rw [h.2 rfl]
  · have h := h.1 rfl
    unfold tickmapFlip at h
    simp only [bind_ok_iff, pure_ok_iff] at h
    obtain ⟨r, -, _, -, rfl⟩ := h
    exact Map.get_insert_ne _ _ fun z => hk (Prod.mk.inj z).2

end Trace

/-- C101, the state: an account that opens a position and closes it again leaves everything as it was for everybody else.
Its own positions are as before. It has the same balances, except for what the roundings take of the two tokens: not
more than one unit of Y, and of X not more than three units and 2·10^-14 of what it gets back. -/
theorem C101_restored (hr : Reach32 s) (h : createPosition e s key lower upper L ll lu = .ok (a, p))
    (h' : removePosition e' a (s.positions.getLength e.caller) = .ok (b, x, y)) (hc : e'.caller = e.caller) :
    Traceless e.caller s b ∧
      (∀ z, b.positions.getLength z = s.positions.getLength z) ∧ (∀ z i, b.positions.get z i = s.positions.get z i) ∧
      (∀ t, t ≠ key.tokenX → t ≠ key.tokenY → bal b.balances e.caller t = bal s.balances e.caller t) ∧
      bal b.balances e.caller key.tokenX ≤ bal s.balances e.caller key.tokenX ∧
      bal b.balances e.caller key.tokenY ≤ bal s.balances e.caller key.tokenY ∧
      (bal s.balances e.caller key.tokenX : ℚ) ≤ bal b.balances e.caller key.tokenX + 3 + x / (5 * 10 ^ 13) ∧
      bal s.balances e.caller key.tokenY ≤ bal b.balances e.caller key.tokenY + 1 := by
  have hl := reach32_listed s hr
  obtain ⟨hr, hf⟩ := reach32_reach s hr
  have hn := hf e.caller
  have h0 : s.positions.map.get (e.caller, s.positions.getLength e.caller) = none := by
    obtain ⟨P, hP⟩ := hl
    rw [(hP e.caller).2, (hP e.caller).1]
    exact List.getElem?_eq_none le_rfl
  have hw := reach_wf s hr
  have hra := Trace.created hr h
  have hrb := Trace.removed hra h'
  have hwa := reach_wf a hra
  have hwb := reach_wf b hrb
  obtain ⟨pool, lt, ut, m, bl, tm1, tm2, E, ep, -, -, bx, by_, d1, d2, rfl⟩ := createPosition_full hw.indexed h
  obtain ⟨q, lo, up, pool', m', ps, bl', tm1', tm2', R, exy, b1, k1, k2⟩ := removePosition_full hwa.indexed h'
  dsimp only at E R ep exy k1 k2
  have tne := poolKey_ne hr E.hpool
  have hne := E.ne
  have rem := R.rem
  have ea : a.positions = s.positions.add e.caller m.position := by rw [E.res]
  rw [hc, ea] at rem
  obtain ⟨rfl, len, pos⟩ := Trace.add_remove hn h0 rem
  have eq := E.mod.pos.eq
  have kq : m.position.poolKey = key := by rw [eq]
  have lq : m.position.lowerTickIndex = lower := by rw [eq]
  have uq : m.position.upperTickIndex = upper := by rw [eq]
  have Lq : m.position.liquidity = L := by
    have := (E.mod.pos.add rfl).1
    dsimp only at this
    omega
  have g1 := R.hlt
  have g2 := R.hut
  have g3 := R.hpool
  have res := R.res
  have hm := R.mod
  rw [kq] at g1 g2 g3 res k1 k2
  rw [lq] at g1 res
  rw [uq] at g2 res
  rw [Lq] at hm
  rw [E.res] at g1 g2 g3
  dsimp only at g1 g2 g3
  rw [Map.get_insert_ne _ _ (fun h => hne (Prod.mk.inj h).2), Map.get_insert_self] at g1
  rw [Map.get_insert_self] at g2 g3
  cases g1; cases g2; cases g3
  obtain ⟨sl, gl⟩ := Trace.tick_back E.mod.lower hm.lower
  obtain ⟨su, gu⟩ := Trace.tick_back E.mod.upper hm.upper
  have P := hm.pool
  rw [E.mod.lower.index, E.mod.upper.index] at P
  have hP := Trace.pool_back E.mod.pool P
  have tick : ∀ k, Option.Rel SameTick (s.ticks.get k) (b.ticks.get k) := by
    intro k
    rw [res, E.res]
    dsimp only
    rw [Trace.get_slot, Trace.get_slot]
    by_cases ku : k = (key, upper)
    · rw [if_pos ku, ku]
      exact Trace.slot hw E.hut su gu
    · rw [if_neg ku]
      by_cases kl : k = (key, lower)
      · rw [if_pos kl, kl]
        exact Trace.slot hw E.hlt sl gl
      · rw [if_neg kl, Map.get_insert_ne _ _ ku, Map.get_insert_ne _ _ kl]
        cases s.ticks.get k with
        | none => exact .none
        | some t => exact .some ⟨rfl, rfl⟩
  rw [hc] at k1 k2
  have eb : a.balances = by_.1 := by rw [E.res]
  rw [eb] at k1
  obtain ⟨c1, c2⟩ := Parts.debits tne d1 d2
  obtain ⟨c3, c4, c5⟩ := Trace.credits tne k1 k2
  have rb : b.balances = bl' := by rw [res]
  obtain ⟨i1, a1⟩ := E.mod.pool.amounts
  obtain ⟨i2, a2⟩ := P.amounts
  dsimp only at a1 a2
  have pe := E.mod.pool.eq
  have a2 : calculateAmountDelta pool.currentTickIndex pool.sqrtPrice L false ut.1.index lt.1.index =
      .ok (m'.amountX, m'.amountY, i2) := by
    rw [pe] at a2; exact a2
  -- no fees
  have fx := hm.pos.owedX
  have fy := hm.pos.owedY
  have ox := E.mod.pos.owedX
  have oy := E.mod.pos.owedY
  dsimp only at ox oy
  rw [Nat.mul_zero, Nat.zero_div] at ox oy
  have ix : m.position.feeGrowthInsideX = _ := congrArg Position.feeGrowthInsideX eq
  have iy : m.position.feeGrowthInsideY = _ := congrArg Position.feeGrowthInsideY eq
  dsimp only at ix iy
  rw [ox, E.mod.lower.index, E.mod.upper.index, E.mod.lower.outX, E.mod.upper.outX, pe] at fx
  rw [oy, E.mod.lower.index, E.mod.upper.index, E.mod.lower.outY, E.mod.upper.outY, pe] at fy
  dsimp only at fx fy
  rw [← ix, Trace.fgSub_self, Nat.zero_mul, Nat.zero_div] at fx
  rw [← iy, Trace.fgSub_self, Nat.zero_mul, Nat.zero_div] at fy
  have ex : x = m'.amountX := by
    have := (Prod.mk.inj exy).1
    omega
  have ey : y = m'.amountY := by
    have := (Prod.mk.inj exy).2
    omega
  obtain ⟨n1, n2⟩ := C05_no_profit a1 a2
  dsimp only at n1 n2
  have hap : a.pools.get key = some m.pool := by rw [E.res]; exact Map.get_insert_self _ _ _
  have hg : a.positions.map.get (e'.caller, s.positions.getLength e.caller) = some m.position := by
    rw [hc, ea]
    exact Map.get_insert_self _ _ _
  obtain ⟨u1, u2⟩ := C84_back_partial hr hra E.hpool h (x := m.amountX) (y := m.amountY)
    ⟨by rw [eb]; omega, by rw [eb]; omega⟩ hg kq lq uq Lq h' hap (by rw [pe])
  dsimp only at u1 u2
  refine ⟨⟨?_, ?_, ?_, ?_, ?_, ?_, tick, ?_, ?_, ?_, ?_⟩, ?_, ?_, ?_, ?_, ?_, ?_, ?_⟩
  · rw [res, E.res]
  · rw [res, E.res]
  · rw [res, E.res]
  · rw [res, E.res]
  · intro k; rw [res, E.res]
  · intro k
    rw [res, E.res]
    dsimp only
    rw [Map.get_insert]
    split
    · next ek => rw [ek, E.hpool]; exact .some hP
    · next ek =>
      rw [Map.get_insert_ne _ _ ek]
      cases s.pools.get k with
      | none => exact .none
      | some p => exact .some rfl
  · rintro ⟨c, k⟩
    by_cases hk : k = key
    · rw [hk]
      have ht := (reach_tiers hr).pools key (by rw [E.hpool]; rfl)
      exact Market.word_eq hw hwb rfl ht.1.1 (fun i => Trace.rel_isSome (tick (key, i))) c
    · have f1 := Trace.flip_other E.flip1 hk (c := c)
      have f2 := Trace.flip_other E.flip2 hk (c := c)
      have f3 := Trace.flip_other R.flip1 (by rw [kq]; exact hk) (c := c)
      have f4 := Trace.flip_other R.flip2 (by rw [kq]; exact hk) (c := c)
      have ta : a.tickmap = tm2 := by rw [E.res]
      have tb : b.tickmap = tm2' := by rw [res]
      rw [tb, f4, f3, ta, f2, f1]
  · intro z _; rw [res]; exact len z
  · intro z _ j; rw [res]; exact pos z j
  · intro z hz k
    rw [rb, Parts.credit_others k2 hz, Parts.credit_others k1 hz, Parts.debit_others d2 hz, Parts.debit_others d1 hz]
  · intro z; rw [res]; exact len z
  · intro z j; rw [res]; exact pos z j
  · intro t t1 t2
    rw [rb, c5 t t1 t2, Trace.bal_eq, Trace.bal_eq]
    have v1 := (decrease_bal d1 e.caller t).1
    have v2 := (decrease_bal d2 e.caller t).1
    rw [if_neg fun z => t1 z.2] at v1
    rw [if_neg fun z => t2 z.2] at v2
    omega
  · rw [rb]; omega
  · rw [rb]; omega
  · rw [rb, c1, c3]
    push_cast
    linarith
  · rw [rb]; omega

/-- C101, one message of others: on such states it has the same outcome, and the states stay such. -/
theorem C101_message {o : ActorId} {t : Inv} {c : Call} (hr : Reach s) (h : Traceless o s t) (ho : o ∉ parties e c) :
    SameOutcome (Traceless o) (step e s c) (step e t c) := by
  have h0 : e.caller ≠ o := fun h => ho (h ▸ Trace.caller_mem)
  have := Twin.step_sim (e := e) (e' := e) (Trace.toSim hr h e.now) rfl rfl c (fun _ => ⟨rfl, rfl⟩) h0
    (fun i r hc hr => ho (by subst hc; subst hr; exact List.mem_cons_of_mem _ List.mem_cons_self)) fun _ _ => trivial
  rw [Trace.renameCall_id] at this
  exact this.mono fun _ _ => Trace.ofSim

/-- C101, the replies: others are answered with the same amounts. -/
theorem C101_replies {o : ActorId} {t : Inv} (hr : Reach s) (h : Traceless o s t) (ho : e.caller ≠ o) :
    (∀ k d v b l, SameOutcome (fun x y => SameTrade x.2 y.2) (swap e s k d v b l) (swap e t k d v b l)) ∧
    (∀ v w x l, SameOutcome (fun x y => y.2 = x.2) (swapRoute e s v w x l) (swapRoute e t v w x l)) ∧
    (∀ k l u d a b, SameOutcome (fun x y => y.2 = x.2) (createPosition e s k l u d a b)
      (createPosition e t k l u d a b)) ∧
    (∀ i, SameOutcome (fun x y => y.2 = x.2) (removePosition e s i) (removePosition e t i)) ∧
    (∀ i, SameOutcome (fun x y => y.2 = x.2) (claimFee e s i) (claimFee e t i)) ∧
    (∀ k, SameOutcome (fun x y => y.2 = x.2) (withdrawProtocolFee e s k) (withdrawProtocolFee e t k)) := by
  have hs := Trace.toSim hr h e.now
  exact ⟨fun k d v b l => (Twin.swap_sim hs rfl ho trivial).mono fun _ _ h => ⟨h.2.amountIn, h.2.amountOut, h.2.start,
      h.2.target, h.2.fee⟩,
    fun v w x l => (Twin.swapRoute_sim hs rfl ho fun _ _ => trivial).mono fun _ _ h => h.2,
    fun k l u d a b => (Twin.createPosition_sim hs rfl ho (fun _ => ⟨rfl, rfl⟩) trivial).mono fun _ _ h => Trace.pos_eq h.2,
    fun i => (Twin.removePosition_sim hs rfl ho (fun _ => ⟨rfl, rfl⟩) fun _ _ => trivial).mono fun _ _ h => h.2,
    fun i => (Twin.claimFee_sim hs rfl ho (fun _ => ⟨rfl, rfl⟩) fun _ _ => trivial).mono fun _ _ h => h.2,
    fun k => (Twin.withdrawProtocolFee_sim hs rfl ho trivial).mono fun _ _ h => h.2⟩

theorem Trace.history {o : ActorId} : ∀ {l : List (Env × Call)} {s t : Inv}, Reach s → Traceless o s t →
    (∀ x ∈ l, o ∉ parties x.1 x.2) → Traceless o (runAll s l) (runAll t l)
  | [], _, _, _, h, _ => h
  | (e, c) :: l, s, t, hr, h, ho => by
    have hr' : Reach (run e s c) := by
      unfold run
      cases h : step e s c with
      | error _ => exact hr
      | ok t => exact .call hr h
    refine Trace.history (l := l) hr' ?_ fun x hx => ho x (List.mem_cons_of_mem _ hx)
    have := C101_message hr h (ho _ List.mem_cons_self)
    unfold run
    revert this
    generalize step e s c = x
    generalize step e t c = y
    intro this
    cases this with
    | error => exact h
    | ok h => exact h

/-- C101, histories: whatever others do after a position was opened and closed, they do it with the same outcomes as if
it had not been; the states at the end are the same for everybody but its owner. -/
theorem C101_history (hr : Reach32 s) (h : createPosition e s key lower upper L ll lu = .ok (a, p))
    (h' : removePosition e' a (s.positions.getLength e.caller) = .ok (b, x, y)) (hc : e'.caller = e.caller)
    {l : List (Env × Call)} (ho : ∀ m ∈ l, e.caller ∉ parties m.1 m.2) :
    Traceless e.caller (runAll s l) (runAll b l) :=
  Trace.history (reach32_reach s hr).1 (C101_restored hr h h' hc).1 ho

/-- C101, the removal is accepted: whoever has opened a position can close it in the next message, whatever the time. -/
theorem C101_accepted (hr : Reach32 s) (hn : s.positions.getLength e.caller + 2 < 2 ^ 32)
    (hx : bal s.balances e.caller key.tokenX < 2 ^ 254) (hy : bal s.balances e.caller key.tokenY < 2 ^ 254)
    (h : createPosition e s key lower upper L ll lu = .ok (a, p)) (hc : e'.caller = e.caller) :
    ∃ b x y, removePosition e' a (s.positions.getLength e.caller) = .ok (b, x, y) := by
  obtain ⟨hr0, hf⟩ := reach32_reach s hr
  have hw := reach_wf s hr0
  have hra := Trace.created hr0 h
  have hwa := reach_wf a hra
  obtain ⟨pool, lt, ut, m, bl, tm1, tm2, E, ep, -, -, bx, by_, d1, d2, rfl⟩ := createPosition_full hw.indexed h
  dsimp only at E ep
  have tne := poolKey_ne hr0 E.hpool
  have ea : a.positions = s.positions.add e.caller m.position := by rw [E.res]
  have hr' : Reach32 a := by
    refine .call hr (env := e) (c := .createPosition key lower upper L ll lu) ?_ fun z => ?_
    · show (do let r ← createPosition e s key lower upper L ll lu; pure r.1) = Except.ok a
      rw [h]; rfl
    · rw [ea]
      show ((s.positions.length.insert e.caller (u32Succ (s.positions.getLength e.caller))).get z).getD 0 + 1 < _
      by_cases hz : z = e.caller
      · rw [hz, Map.get_insert_self, u32Succ_eq (hf _)]
        exact hn
      · rw [Map.get_insert_ne _ _ hz]
        exact hf z
  have eq := E.mod.pos.eq
  have kq : m.position.poolKey = key := by rw [eq]
  have lq : m.position.lowerTickIndex = lower := by rw [eq]
  have uq : m.position.upperTickIndex = upper := by rw [eq]
  have Lq : m.position.liquidity = L := by
    have := (E.mod.pos.add rfl).1
    dsimp only at this
    omega
  have hg : a.positions.map.get (e'.caller, s.positions.getLength e.caller) = some m.position := by
    rw [hc, ea]
    exact Map.get_insert_self _ _ _
  have hap : a.pools.get m.position.poolKey = some m.pool := by rw [kq, E.res]; exact Map.get_insert_self _ _ _
  obtain ⟨wx, wy, fx, fy, W⟩ := C36_worth (env := e') hr' (posGet_ok.2 hg) hap
  have pe := E.mod.pool.eq
  have eb : a.balances = by_.1 := by rw [E.res]
  obtain ⟨c1, c2⟩ := Parts.debits tne d1 d2
  have W' := W
  obtain ⟨pl, pu, ix, iy, w1, w2, w3, w4, w5, w6, w7, w8⟩ := W'
  have gl : a.ticks.get (m.position.poolKey, m.position.lowerTickIndex) = some m.lower := by
    rw [kq, lq, E.res]; dsimp only
    rw [Map.get_insert_ne _ _ (fun h => E.ne (Prod.mk.inj h).2), Map.get_insert_self]
  have gu : a.ticks.get (m.position.poolKey, m.position.upperTickIndex) = some m.upper := by
    rw [kq, uq, E.res]; dsimp only
    rw [Map.get_insert_self]
  simp only [FeeWorld.insideX, FeeWorld.insideY, world, gl, gu, Option.pure_def, Option.bind_eq_bind,
    Option.bind_some, Option.some.injEq, E.mod.lower.index, E.mod.upper.index, E.mod.lower.outX, E.mod.upper.outX,
    E.mod.lower.outY, E.mod.upper.outY] at w3 w4
  have jx : m.position.feeGrowthInsideX = _ := congrArg Position.feeGrowthInsideX eq
  have jy : m.position.feeGrowthInsideY = _ := congrArg Position.feeGrowthInsideY eq
  dsimp only at jx jy
  have pt : m.pool.currentTickIndex = pool.currentTickIndex := by rw [pe]
  have px : m.pool.feeGrowthGlobalX = pool.feeGrowthGlobalX := by rw [pe]
  have py : m.pool.feeGrowthGlobalY = pool.feeGrowthGlobalY := by rw [pe]
  rw [pt, px, ← jx] at w3
  rw [pt, py, ← jy] at w4
  obtain ⟨v1, v2, -, -⟩ := (reach_acc a hra).pos _ _ hg
  have z0 : ∀ {n : Nat}, n < 2 ^ 128 → (n + (2 ^ 128 - n)) % 2 ^ 128 = 0 := by
    intro n hn
    have : n + (2 ^ 128 - n) = 2 ^ 128 := by omega
    rw [this, Nat.mod_self]
  rw [← w3, z0 v1, Nat.zero_mul, Nat.zero_div] at w7
  rw [← w4, z0 v2, Nat.zero_mul, Nat.zero_div] at w8
  have hok := (hwa.pos _ _ hg).1
  have hprice := reach_price a hra _ _ hap
  obtain ⟨j, A⟩ := E.mod.pool.amounts
  dsimp only at A
  rw [E.lidx, E.uidx] at A
  obtain ⟨pl', pu', f1, f2, -, f3, f4, -, -, -, hD⟩ := calculateAmountDelta_ok A
  rw [lq] at w1
  rw [uq] at w2
  rw [w1] at f1; cases f1
  rw [w2] at f2; cases f2
  have ecut : cutPrice m.pool m.position.lowerTickIndex m.position.upperTickIndex pl pu =
      clampPrice pool.currentTickIndex lower upper pool.sqrtPrice pl pu := by
    rw [lq, uq]
    unfold cutPrice
    rw [pe]
    rfl
  rw [ecut, Lq] at w5 w6
  have hpu : MIN_SQRT_PRICE ≤ pu := calculateSqrtPrice_ge_min w2
  have hcl : MIN_SQRT_PRICE ≤ clampPrice pool.currentTickIndex lower upper pool.sqrtPrice pl pu :=
    clampPrice_ge (reach_price s hr0 _ _ E.hpool).1 w1 w2
  have hab : 23 * 10 ^ 37 ≤ clampPrice pool.currentTickIndex lower upper pool.sqrtPrice pl pu * pu := by
    refine le_trans ?_ (Nat.mul_le_mul hcl hpu)
    norm_num [MIN_SQRT_PRICE]
  have x1 : wx ≤ (1 + relX) * (m.amountX + 1) := by
    have := le_dxDown (L := L) hab
    rw [← w5] at this
    refine this.trans ?_
    rw [f3, dxR_true]
    have h3 : (dxDown (clampPrice pool.currentTickIndex lower upper pool.sqrtPrice pl pu) pu L : ℚ) ≤
        dxUp (clampPrice pool.currentTickIndex lower upper pool.sqrtPrice pl pu) pu L := by
      exact_mod_cast dxDown_le_dxUp L (hD rfl)
    have := relX_pos
    gcongr
  have y1 : wy ≤ m.amountY := by
    rw [w6, f4, dyR_true, dyUp_eq_ceil]
    exact Nat.le_ceil _
  have b1 : (bal by_.1 e.caller key.tokenX : ℚ) + m.amountX < 2 ^ 254 := by
    have : bal by_.1 e.caller key.tokenX + m.amountX < 2 ^ 254 := by omega
    exact_mod_cast this
  have b2 : (bal by_.1 e.caller key.tokenY : ℚ) + m.amountY < 2 ^ 254 := by
    have : bal by_.1 e.caller key.tokenY + m.amountY < 2 ^ 254 := by omega
    exact_mod_cast this
  have n1 : (0 : ℚ) ≤ bal by_.1 e.caller key.tokenX := Nat.cast_nonneg _
  have n2 : (0 : ℚ) ≤ m.amountX := Nat.cast_nonneg _
  have e1 : (1 + relX : ℚ) = 1 + 5 / 10 ^ 15 := by norm_num [relX]
  rw [e1] at x1
  refine (C36_exit_partial hr' (posGet_ok.2 hg) hap W ?_ ?_).2 fun h1 h2 => ?_
  · rw [w7, hc, kq, eb]
    push_cast
    norm_num at b1 ⊢
    linarith
  · rw [w8, hc, kq, eb]
    push_cast
    norm_num at b2 ⊢
    linarith
  · rw [lq, pt] at h1
    rw [uq, pt] at h2
    have := (E.mod.pool.add rfl (by rw [E.lidx]; exact h1) (by rw [E.uidx]; exact h2)).1
    dsimp only at this
    omega

namespace TraceDemo

/-- account 2 opens a position over a wide range -/
def opened : Inv := runAll Demo.start [(Demo.by_ 2, .createPosition Demo.key (-3000) 3000 (10 ^ 15 + 7) 0 (10 ^ 25))]
/-- and closes it later -/
def closed : Inv := runAll opened [(⟨2, 900, 8, 0⟩, .removePosition 1)]

/-- what account 3 does then -/
def more : List (Env × Call) :=
  [(Demo.by_ 3, .swap Demo.key true (22 * 10 ^ 6) true MIN_SQRT_PRICE), (Demo.by_ 3, .claimFee 0),
   (Demo.by_ 3, .createPosition Demo.key (-3000) 10 (10 ^ 14) 0 (10 ^ 25))]

end TraceDemo

/-- the position made two ticks and added to the active liquidity; afterwards its two ticks are gone, account 2
has lost one unit of each token, the word of its lower tick is zero but stored; account 3 gets the same -/
example :
    let s := Demo.start
    let a := TraceDemo.opened
    let b := TraceDemo.closed
    (s.pools.get Demo.key).map (fun p => (p.sqrtPrice, p.liquidity)) = some (10 ^ 24, 4 * 10 ^ 15) ∧
      (a.pools.get Demo.key).map (fun p => (p.sqrtPrice, p.liquidity)) = some (10 ^ 24, 5 * 10 ^ 15 + 7) ∧
      (b.pools.get Demo.key).map (fun p => (p.sqrtPrice, p.liquidity)) = some (10 ^ 24, 4 * 10 ^ 15) ∧
      s.positions.getLength 2 = 1 ∧ a.positions.getLength 2 = 2 ∧ b.positions.getLength 2 = 1 ∧
      (a.ticks.get (Demo.key, -3000)).isSome ∧ (b.ticks.get (Demo.key, -3000)).isNone ∧
      s.tickmap.get (341, Demo.key) = none ∧ b.tickmap.get (341, Demo.key) = some 0 ∧
      bal s.balances 2 5 = bal b.balances 2 5 + 1 ∧ bal s.balances 2 7 = bal b.balances 2 7 + 1 ∧
      bal s.balances 2 5 = bal a.balances 2 5 + 1392855687 ∧
      (let s' := runAll s TraceDemo.more
       let b' := runAll b TraceDemo.more
       bal s'.balances 3 5 = bal b'.balances 3 5 ∧ bal s'.balances 3 7 = bal b'.balances 3 7 ∧
       (s'.ticks.get (Demo.key, -3000)).isSome ∧ (b'.ticks.get (Demo.key, -3000)).isSome ∧
       (s'.pools.get Demo.key).map (·.sqrtPrice) = (b'.pools.get Demo.key).map (·.sqrtPrice)) := by
  decide +kernel

end Verif
