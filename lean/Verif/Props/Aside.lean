import Verif.Spec.Aside
import Verif.Props.Quiet
import Verif.Proofs.Crossed

/-!
# C96: while the price is outside its range, a position neither earns nor changes
-/

set_option exponentiation.threshold 1000

namespace Verif
open Service Spec

namespace Sidelined

variable {o : ActorId} {key : PoolKey} {s t t' : Inv} {e e' : Env} {c : Call} {p : Position} {up : Bool}

private theorem aside_reach (hr : Reach32 s) (h : Aside o p up s t) : Reach32 t := by
  induction h with
  | start => exact hr
  | call _ h _ _ hf _ ih => exact .call ih h hf
  | transfers _ hb _ ih => exact .transfers ih hb

/-- the account keeps its balances and positions -/
private theorem aside_own (h : Aside o p up s t) :
    (∀ token, bal t.balances o token = bal s.balances o token) ∧ ∀ i, t.positions.get o i = s.positions.get o i := by
  induction h with
  | start => exact ⟨fun _ => rfl, fun _ => rfl⟩
  | @call t t' env c _ h hp _ _ _ ih =>
    have hne : o ≠ env.caller := by
      rintro rfl
      exact hp (by cases c <;> simp [parties])
    refine ⟨fun tk => (C26_balances h o tk hne).trans (ih.1 tk), fun i => ?_⟩
    rcases C26_positions h o hne with h1 | ⟨j, p, rfl, -⟩
    · exact (h1.2 i).trans (ih.2 i)
    · exact absurd (List.mem_cons_of_mem _ List.mem_cons_self) hp
  | @transfers t b aw _ _ hb ih =>
    refine ⟨fun tk => ?_, ih.2⟩
    rw [← ih.1 tk]
    unfold bal
    dsimp only
    rw [hb tk]

private theorem aside_beyond (h : Aside o p up s t) : Beyond p up t := by
  induction h with
  | start h => exact h
  | call _ _ _ _ _ h _ => exact h
  | transfers _ _ _ ih => exact ih

/-- the current tick is on the side of the price -/
private def OnSide (p : Position) (up : Bool) (i : Int) : Prop :=
  if up then p.upperTickIndex ≤ i else i < p.lowerTickIndex

private theorem beyond_side (hr : Reach s) {k : ActorId × Nat} (hp : s.positions.map.get k = some p)
    (h : Beyond p up s) {pool : Pool} (hpl : s.pools.get p.poolKey = some pool) :
    OnSide p up pool.currentTickIndex ∧
      if up then priceOf p.upperTickIndex < pool.sqrtPrice else pool.sqrtPrice < priceOf p.lowerTickIndex := by
  obtain ⟨q, b, hq, hb, h⟩ := h
  rw [hpl] at hq; cases hq
  have hok := ((reach_wf s hr).pos _ _ hp).1
  have ha := reach_agree s hr _ _ hpl
  have hsp := ((reach_tiers hr).pools p.poolKey (by rw [hpl]; rfl)).1
  have hs1 := hsp.1
  unfold OnSide
  cases up
  · rw [if_neg (by decide)] at hb h
    rw [if_neg (by decide), if_neg (by decide)]
    rw [calculateSqrtPrice_eq hok.lower.min hok.lower.max] at hb
    cases hb
    refine ⟨?_, h⟩
    by_contra hc
    have := priceOf_le hok.lower.min ha.grid.max (not_lt.1 hc)
    have := ha.low
    omega
  · rw [if_pos rfl] at hb h
    rw [if_pos rfl, if_pos rfl]
    rw [calculateSqrtPrice_eq hok.upper.min hok.upper.max] at hb
    cases hb
    refine ⟨?_, h⟩
    by_contra hc
    have h1 := grid_next ha.grid.1 hok.upper.1 (not_le.1 hc)
    have h2 := ha.high (h1.trans hok.upper.max)
    have h3 := priceOf_le (le_trans ha.grid.min (by omega)) hok.upper.max h1
    omega

/-- the bounds of the position are not touched -/
private theorem step_bounds (hr : Reach32 t) (hr' : Reach32 t') {k : ActorId × Nat} (hp : t.positions.map.get k = some p)
    (hp' : t'.positions.map.get k = some p) (hb : Beyond p up t) (hb' : Beyond p up t') (h : step e t c = .ok t')
    (hroute : ∀ a x sl hops, c = .swapRoute a x sl hops → ¬ SwapsIn p.poolKey c)
    {i : Int} (hi : i = p.lowerTickIndex ∨ i = p.upperTickIndex) {x x' : Tick}
    (h1 : t.ticks.get (p.poolKey, i) = some x) (h2 : t'.ticks.get (p.poolKey, i) = some x') : TickSame x x' := by
  have hre := (reach32_reach t hr).1
  have hre' := (reach32_reach t' hr').1
  by_cases hc : SwapsIn p.poolKey c
  · cases c with
    | swapRoute a x sl hops => exact absurd hc (hroute _ _ _ _ rfl)
    | swap key d a b l =>
      have hc : key = p.poolKey := hc
      subst hc
      have hstep : (do let r ← Service.swap e t p.poolKey d a b l; pure r.1) = Except.ok t' := h
      simp only [bind_ok_iff, pure_ok_iff] at hstep
      obtain ⟨r, hsw, rfl⟩ := hstep
      obtain ⟨ticks, b1, b2, g1, g2, -, -, g5⟩ := swap_ok hsw
      obtain ⟨pool, hpl⟩ := Option.isSome_iff_exists.1 ((reach_wf t hre).pos _ _ hp).2
      obtain ⟨-, -, g6⟩ := calculateSwap_crossed hre g1 hpl
      obtain ⟨q, st, k1, -, -, -, -, -, k2⟩ := calculateSwap_ok g1
      rw [hpl] at k1; cases k1
      have hpl' : r.1.pools.get p.poolKey = some r.2.pool := by rw [g5]; exact Map.get_insert_self _ _ _
      have ht : r.2.targetSqrtPrice = r.2.pool.sqrtPrice := by rw [k2]
      have s1 := (beyond_side hre hp hb hpl).2
      have s2 := (beyond_side hre' hp' hb' hpl').2
      have hok := ((reach_wf t hre).pos _ _ hp).1
      have hle := priceOf_lt hok.lower.min hok.upper.max hok.lt
      have hne : ∀ u ∈ r.2.ticks, u.index ≠ i := by
        rintro u hu rfl
        have := (g6 u hu).2
        rw [ht] at this
        rcases hi with hi | hi <;> rw [hi] at this <;> cases up <;> cases d <;>
          simp only [Bool.false_eq_true, if_false, if_true] at s1 s2 this <;> omega
      rw [g5] at h2
      dsimp only at h2
      rw [updateTicks_eq _ _ _ g2, crossed_get _ _ hne, h1] at h2
      cases h2
      exact .refl _
    | _ => exact absurd hc (by simp [SwapsIn])
  · exact (Quietly.calm_step hre h hc).tick _ _ _ h1 h2

/-- as long as the price stays aside, the ticks at the bounds keep their growths and the current tick its side -/
private theorem aside_keeps (hr : Reach32 s) {i : Nat} (hp : s.positions.get o i = .ok p) (h : Aside o p up s t) :
    ∃ l u l' u' pool, s.ticks.get (p.poolKey, p.lowerTickIndex) = some l ∧
      s.ticks.get (p.poolKey, p.upperTickIndex) = some u ∧ t.ticks.get (p.poolKey, p.lowerTickIndex) = some l' ∧
      t.ticks.get (p.poolKey, p.upperTickIndex) = some u' ∧ t.pools.get p.poolKey = some pool ∧
      TickSame l l' ∧ TickSame u u' ∧ OnSide p up pool.currentTickIndex := by
  induction h with
  | start hb =>
    obtain ⟨q, l, u, h1, h2, h3⟩ := stored_has hr (posGet_ok.1 hp)
    exact ⟨l, u, l, u, q, h2, h3, h2, h3, h1, .refl _, .refl _,
      (beyond_side (reach32_reach s hr).1 (posGet_ok.1 hp) hb h1).1⟩
  | @call v v' env c hq h hn hc hf hb ih =>
    have hr1 := aside_reach hr hq
    have hr2 := aside_reach hr (.call hq h hn hc hf hb)
    have hp1 := (aside_own hq).2 i
    have hp2 := (aside_own (.call hq h hn hc hf hb)).2 i
    rw [hp] at hp1 hp2
    obtain ⟨l, u, l', u', pool, h1, h2, h3, h4, h5, h6, h7, -⟩ := ih
    obtain ⟨q, l2, u2, g1, g2, g3⟩ := stored_has hr2 (posGet_ok.1 hp2)
    have key : ∀ {j x x'}, j = p.lowerTickIndex ∨ j = p.upperTickIndex → v.ticks.get (p.poolKey, j) = some x →
        v'.ticks.get (p.poolKey, j) = some x' → TickSame x x' :=
      fun hj => step_bounds hr1 hr2 (posGet_ok.1 hp1) (posGet_ok.1 hp2) (aside_beyond hq) hb h hc hj
    exact ⟨l, u, l2, u2, q, h1, h2, g2, g3, g1, h6.trans (key (.inl rfl) h3 g2), h7.trans (key (.inr rfl) h4 g3),
      (beyond_side (reach32_reach _ hr2).1 (posGet_ok.1 hp2) hb g1).1⟩
  | transfers _ _ _ ih => exact ih

/-- outside the range the growth inside does not depend on the growth of the pool -/
private theorem inside_aside {lo hi cur cur' : Int} {a b g g' : Nat} (hlt : lo < hi) (ha : a < 2 ^ 128) (hb : b < 2 ^ 128)
    (hg : g < 2 ^ 128) (hg' : g' < 2 ^ 128) (h : if up then hi ≤ cur ∧ hi ≤ cur' else cur < lo ∧ cur' < lo) :
    feeGrowthInside1 lo a hi b cur g = feeGrowthInside1 lo a hi b cur' g' := by
  have one : ∀ a b g, a < 2 ^ 128 → b < 2 ^ 128 → g < 2 ^ 128 → fgSub (fgSub g (fgSub g a)) b = fgSub a b := by
    intro a b g ha hb hg
    have : fgSub g (fgSub g a) = a := by
      unfold fgSub
      split_ifs <;> omega
    rw [this]
  have two : ∀ a b g, a < 2 ^ 128 → b < 2 ^ 128 → g < 2 ^ 128 → fgSub (fgSub g a) (fgSub g b) = fgSub b a := by
    intro a b g ha hb hg
    unfold fgSub
    split_ifs <;> omega
  unfold feeGrowthInside1
  cases up
  · rw [if_neg (by decide)] at h
    simp only [ge_iff_le, if_neg (not_le.2 h.1), if_neg (not_le.2 h.2), if_pos (h.1.trans hlt), if_pos (h.2.trans hlt)]
    rw [one a b g ha hb hg, one a b g' ha hb hg']
  · rw [if_pos rfl] at h
    simp only [ge_iff_le, if_pos (hlt.le.trans h.1), if_pos (hlt.le.trans h.2), if_neg (not_lt.2 h.1), if_neg (not_lt.2 h.2)]
    rw [two a b g ha hb hg, two a b g' ha hb hg']

variable {i : Nat} {wx wy : ℚ} {fx fy : Nat}

/-- C96: while the price is on one side of its range, a position keeps its amounts on the curve, which are of one token
only, and the fees it has accrued, however much is traded in the pool. -/
theorem C96_worth (hr : Reach32 s) (hp : s.positions.get o i = .ok p) (h : Aside o p up s t) {pool : Pool}
    (hpl : s.pools.get p.poolKey = some pool) (hW : Worth s p pool wx wy fx fy) :
    (if up then wx = 0 else wy = 0) ∧ t.positions.get o i = .ok p ∧
    ∃ pool', t.pools.get p.poolKey = some pool' ∧ Worth t p pool' wx wy fx fy := by
  have hre := (reach32_reach s hr).1
  have ht := aside_reach hr h
  have hb : Beyond p up s := by
    clear hW ht
    induction h with
    | start h => exact h
    | call _ _ _ _ _ _ ih => exact ih
    | transfers _ _ _ ih => exact ih
  have s1 := (beyond_side hre (posGet_ok.1 hp) hb hpl).1
  obtain ⟨l, u, l', u', pool', h1, h2, h3, h4, h5, ⟨b1, b2, b3⟩, ⟨c1, c2, c3⟩, s2⟩ := aside_keeps hr hp h
  have hw := reach_wf s hre
  have hlt := (hw.pos _ _ (posGet_ok.1 hp)).1.lt
  have hac := reach_acc s hre
  have A := hac.pool _ _ hpl
  have A' := (reach_acc t (reach32_reach t ht).1).pool _ _ h5
  have B := hac.tick _ _ h1
  have C := hac.tick _ _ h2
  have i1 := hw.indexed _ _ _ h1
  have i2 := hw.indexed _ _ _ h2
  have sd : if up then p.upperTickIndex ≤ pool'.currentTickIndex ∧ p.upperTickIndex ≤ pool.currentTickIndex
      else pool'.currentTickIndex < p.lowerTickIndex ∧ pool.currentTickIndex < p.lowerTickIndex := by
    unfold OnSide at s1 s2
    cases up <;> simp only [Bool.false_eq_true, if_false, if_true] at s1 s2 ⊢ <;> exact ⟨s2, s1⟩
  have cut : ∀ a b, cutPrice pool' p.lowerTickIndex p.upperTickIndex a b =
      cutPrice pool p.lowerTickIndex p.upperTickIndex a b := by
    intro a b
    unfold cutPrice
    cases up <;> simp only [Bool.false_eq_true, if_false, if_true] at sd
    · rw [if_pos sd.1, if_pos sd.2]
    · rw [if_neg (by omega), if_neg (by omega), if_neg (by omega), if_neg (by omega)]
  obtain ⟨pl, pu, ix, iy, e1, e2, e3, e4, e5, e6, e7, e8⟩ := hW
  refine ⟨?_, ((aside_own h).2 i).trans hp, pool', h5, pl, pu, ix, iy, e1, e2, ?_, ?_, ?_, ?_, e7, e8⟩
  · unfold cutPrice at e5 e6
    cases up <;> simp only [Bool.false_eq_true, if_false, if_true] at sd ⊢
    · rw [e6, if_pos sd.2]; simp [amountY]
    · rw [e5, if_neg (by omega), if_neg (by omega)]; simp [amountX]
  · rw [← e3]
    simp only [FeeWorld.insideX, world, h1, h2, h3, h4, Option.pure_def, Option.bind_eq_bind, Option.bind_some, b1, b2, c1,
      c2, i1, i2]
    rw [inside_aside (up := up) hlt B.1 C.1 A'.1 A.1 sd]
  · rw [← e4]
    simp only [FeeWorld.insideY, world, h1, h2, h3, h4, Option.pure_def, Option.bind_eq_bind, Option.bind_some, b1, b3, c1,
      c3, i1, i2]
    rw [inside_aside (up := up) hlt B.2 C.2 A'.2 A.2 sd]
  · rw [e5, cut]
  · rw [e6, cut]

/-- C96, claims: a claim that would have been accepted before is accepted after it, with the same amounts. -/
theorem C96_claim (hr : Reach32 s) (hp : s.positions.get e.caller i = .ok p) (h : Aside e.caller p up s t)
    (he : e'.caller = e.caller) {s' : Inv} {x y : Nat} (hc : claimFee e s i = .ok (s', x, y)) :
    ∃ t', claimFee e' t i = .ok (t', x, y) := by
  have hre := (reach32_reach s hr).1
  obtain ⟨pool, hpl⟩ := Option.isSome_iff_exists.1 ((reach_wf s hre).pos _ _ (posGet_ok.1 hp)).2
  obtain ⟨wx, wy, fx, fy, hW⟩ := C36_worth hr hp hpl
  have h1 := C70_amount hre hp hpl hW hc
  cases h1
  obtain ⟨-, hp', pool', hpl', hW'⟩ := C96_worth hr hp h hpl hW
  have ht := aside_reach hr h
  have h2 := (C70_claim hr hp hpl hW).1 ⟨_, hc⟩
  rw [← (aside_own h).1, ← (aside_own h).1, ← he] at h2
  rw [← he] at hp'
  obtain ⟨⟨t', x', y'⟩, hc'⟩ := (C70_claim ht hp' hpl' hW').2 h2
  have h3 := C70_amount (reach32_reach _ ht).1 hp' hpl' hW' hc'
  cases h3
  exact ⟨t', hc'⟩

/-- C96, leaving: the position pays the same, before and after. -/
theorem C96_leave (hr : Reach32 s) (hp : s.positions.get e.caller i = .ok p) (h : Aside e.caller p up s t)
    (he : e'.caller = e.caller) {s' t' : Inv} {x y x' y' : Nat} (h1 : removePosition e s i = .ok (s', x, y))
    (h2 : removePosition e' t i = .ok (t', x', y')) : x' = x ∧ y' = y := by
  have hre := (reach32_reach s hr).1
  have ht := aside_reach hr h
  have hre' := (reach32_reach t ht).1
  have hw := reach_wf s hre
  have hw' := reach_wf t hre'
  have hp' := (aside_own h).2 i
  rw [hp] at hp'
  obtain ⟨p1, lo, hi, pool, m, ps, b, tm1, tm2, f, hxy, -⟩ := removePosition_full hw.indexed h1
  obtain ⟨p2, lo', hi', pool', m', ps', b', tm1', tm2', f', hxy', -⟩ := removePosition_full hw'.indexed h2
  have g := f.get
  rw [hp] at g; cases g
  have g := f'.get
  rw [he, hp'] at g; cases g
  obtain ⟨wx, wy, fx, fy, hW⟩ := C36_worth hr hp f.hpool
  obtain ⟨-, -, q, hq, hW'⟩ := C96_worth hr hp h f.hpool hW
  rw [f'.hpool] at hq; cases hq
  -- the fees
  have fee : ∀ {s : Inv} {e : Env} {pool : Pool} {lo hi : Tick} {m : ModifyResult} {ps : Positions} {b : Balances}
      {tm1 tm2 : Tickmap} {s' : Inv}, Reach s → RemoveEff e s i p lo hi pool m ps b tm1 tm2 s' →
      Worth s p pool wx wy fx fy → m.position.tokensOwedX = fx ∧ m.position.tokensOwedY = fy := by
    intro s e pool lo hi m ps b tm1 tm2 s' hr f hW
    have hac := reach_acc s hr
    have A := hac.pool _ _ f.hpool
    have B := hac.tick _ _ f.hlt
    have C := hac.tick _ _ f.hut
    have D := hac.pos _ _ (posGet_ok.1 f.get)
    obtain ⟨pl, pu, ix, iy, -, -, e3, e4, -, -, e7, e8⟩ := hW
    simp only [FeeWorld.insideX, FeeWorld.insideY, world, f.hlt, f.hut, Option.pure_def, Option.bind_eq_bind,
      Option.bind_some, Option.some.injEq] at e3 e4
    rw [f.mod.pos.owedX, f.mod.pos.owedY, D.2.2.1, D.2.2.2, Nat.zero_add, Nat.zero_add,
      fgSub_eq (feeGrowthInside1_lt B.1 C.1 A.1) D.1, fgSub_eq (feeGrowthInside1_lt B.2 C.2 A.2) D.2.1, e3, e4, e7, e8]
    exact ⟨rfl, rfl⟩
  obtain ⟨o1, o2⟩ := fee hre f hW
  obtain ⟨o1', o2'⟩ := fee hre' f' hW'
  -- the amounts
  have hb : Beyond p up s := by
    clear hW' hp' h2 f' hxy' ht hre' hw' o1' o2'
    induction h with
    | start h => exact h
    | call _ _ _ _ _ _ ih => exact ih
    | transfers _ _ _ ih => exact ih
  have s1 := (beyond_side hre (posGet_ok.1 hp) hb f.hpool).1
  have s2 := (beyond_side hre' (posGet_ok.1 hp') (aside_beyond h) f'.hpool).1
  obtain ⟨z, hz⟩ := f.mod.pool.amounts
  obtain ⟨z', hz'⟩ := f'.mod.pool.amounts
  dsimp only at hz hz'
  rw [hw.indexed _ _ _ f.hlt, hw.indexed _ _ _ f.hut] at hz
  rw [hw'.indexed _ _ _ f'.hlt, hw'.indexed _ _ _ f'.hut] at hz'
  obtain ⟨pl, pu, a1, a2, a3, a4, a5, -⟩ := calculateAmountDelta_ok hz
  obtain ⟨pl', pu', a1', a2', -, a4', a5', -⟩ := calculateAmountDelta_ok hz'
  rw [a1] at a1'; cases a1'
  rw [a2] at a2'; cases a2'
  have cl : clampPrice pool'.currentTickIndex p.lowerTickIndex p.upperTickIndex pool'.sqrtPrice pl pu =
      clampPrice pool.currentTickIndex p.lowerTickIndex p.upperTickIndex pool.sqrtPrice pl pu := by
    unfold clampPrice
    unfold OnSide at s1 s2
    cases up <;> simp only [Bool.false_eq_true, if_false, if_true] at s1 s2
    · rw [if_pos s1, if_pos s2]
    · rw [if_neg (by omega), if_neg (by omega), if_neg (by omega), if_neg (by omega)]
  rw [cl, ← a4] at a4'
  rw [cl, ← a5] at a5'
  simp only [Prod.mk.injEq] at hxy hxy'
  rw [hxy.1, hxy.2, hxy'.1, hxy'.2, o1, o1', o2, o2', a4', a5']
  exact ⟨rfl, rfl⟩

/-! ### an example -/

private def trades : List (Env × Call) :=
  [(Demo.by_ 2, .swap Demo.key true (10 ^ 6) true MIN_SQRT_PRICE), (Demo.by_ 2, .claimFee 0),
   (Demo.by_ 2, .swap Demo.key false (12 * 10 ^ 5) true MAX_SQRT_PRICE)]

private theorem aside_run (h : Aside o p up s t) (h1 : o ∉ parties e c) (h2 : ∀ a x sl hops, c ≠ .swapRoute a x sl hops)
    (hf : (run e t c).positions.length.entries.all (fun x => decide (x.2 + 1 < 2 ^ 32)) = true)
    (hb : Beyond p up (run e t c)) : Aside o p up s (run e t c) := by
  have hf := few_of_all hf
  unfold run at hf hb ⊢
  split
  · next s' hs =>
    rw [hs] at hf hb
    exact .call h hs h1 (fun _ _ _ _ e => absurd e (h2 _ _ _ _)) hf hb
  · exact h

/-- the position of user 3 between the ticks -10 and 10 -/
private def theirs : Position := ⟨Demo.key, 3 * 10 ^ 15, -10, 10, 0, 0, 1, 0, 0⟩

private theorem below {s : Inv} {n : Nat} (h : (s.pools.get Demo.key).map (·.sqrtPrice) = some n)
    (hn : n < 999500149965000000000000) : Beyond theirs false s := by
  cases hp : s.pools.get Demo.key with
  | none => rw [hp] at h; cases h
  | some q =>
    rw [hp] at h
    refine ⟨q, 999500149965000000000000, hp, by decide +kernel, ?_⟩
    rw [if_neg (by decide)]
    cases h
    exact hn

/-- User 2 trades to and fro below the range of user 3; the history is one of those the theorems are about, ... -/
example : Demo.traded.positions.get 3 0 = .ok theirs ∧ Aside 3 theirs false Demo.traded (runAll Demo.traded trades) := by
  refine ⟨by decide +kernel, ?_⟩
  have n2 : ∀ {c : Call}, parties (Demo.by_ 2) c = [2] → ¬ (3 : ActorId) ∈ parties (Demo.by_ 2) c := by
    intro c h; rw [h]; decide
  unfold trades
  simp only [runAll]
  have q0 : Aside 3 theirs false Demo.traded Demo.traded :=
    .start (below (n := 999302984359663232683739) (by decide +kernel) (by decide))
  have q1 := aside_run (e := Demo.by_ 2) (c := .swap Demo.key true (10 ^ 6) true MIN_SQRT_PRICE) q0 (n2 rfl)
    (fun _ _ _ _ h => by cases h) (by decide +kernel)
    (below (n := 999203233533015421036739) (by decide +kernel) (by decide))
  have q2 := aside_run (e := Demo.by_ 2) (c := .claimFee 0) q1 (n2 rfl)
    (fun _ _ _ _ h => by cases h) (by decide +kernel)
    (below (n := 999203233533015421036739) (by decide +kernel) (by decide))
  exact aside_run (e := Demo.by_ 2) (c := .swap Demo.key false (12 * 10 ^ 5) true MAX_SQRT_PRICE) q2 (n2 rfl)
    (fun _ _ _ _ h => by cases h) (by decide +kernel)
    (below (n := 999323113533015421036739) (by decide +kernel) (by decide))

/-- ... user 2 earns 1080 of Y, user 3 nothing, and their position pays what it paid before; once the price comes into
the range that changes. -/
example : (removePosition (Demo.by_ 3) Demo.traded 0).toOption.map (·.2) = some (30012004, 0) ∧
    (removePosition (Demo.by_ 3) (runAll Demo.traded trades) 0).toOption.map (·.2) = some (30012004, 0) ∧
    (claimFee (Demo.by_ 3) Demo.traded 0).toOption.map (·.2) = some (13503, 0) ∧
    (claimFee (Demo.by_ 3) (runAll Demo.traded trades) 0).toOption.map (·.2) = some (13503, 0) ∧
    (claimFee (Demo.by_ 2) (runAll Demo.traded trades) 0).toOption.map (·.2) = some (0, 1080) ∧
    (removePosition (Demo.by_ 3) (runAll Demo.traded (trades ++ [(Demo.by_ 2, .swap Demo.key false (10 ^ 7) true
      MAX_SQRT_PRICE)])) 0).toOption.map (·.2) = some (23842378, 6170280) := by
  decide +kernel

end Sidelined
end Verif
