import Verif.Spec.Quiet
import Verif.Spec.Demo
import Verif.Proofs.Solvent
import Verif.Props.Authority
import Verif.Props.Exit
import Verif.Props.ClaimAccept
import Verif.Props.Unseen
import Verif.Props.Parts
import Verif.Props.Active

/-!
# C95: only swaps in its pool change what a position is worth
-/

set_option exponentiation.threshold 1000

namespace Verif
open Service Spec

namespace Quietly

variable {o : ActorId} {key : PoolKey} {s t t' : Inv} {e e' : Env} {c : Call}

/-- what a call that does not swap in the pool leaves alone in it -/
structure Calm (key : PoolKey) (s s' : Inv) : Prop where
  pool : ∀ p, s.pools.get key = some p → ∃ p', s'.pools.get key = some p' ∧ Verif.PoolSame p p'
  tick : ∀ i t t', s.ticks.get (key, i) = some t → s'.ticks.get (key, i) = some t' → TickSame t t'

private theorem calm_pools {k : PoolKey} {p p' : Pool} {s' : Inv}
    (hp : s.pools.get k = some p) (h : Verif.PoolSame p p') (e1 : s'.pools = s.pools.insert k p') :
    ∀ q, s.pools.get key = some q → ∃ q', s'.pools.get key = some q' ∧ Verif.PoolSame q q' := by
  intro q hq
  rw [e1]
  by_cases e : key = k
  · subst e
    rw [hp] at hq; cases hq
    exact ⟨p', Map.get_insert_self _ _ _, h⟩
  · exact ⟨q, by rw [Map.get_insert_ne _ _ e]; exact hq, .refl _⟩

theorem calm_step (hr : Reach t) (h : step e t c = .ok t') (hc : ¬ SwapsIn key c) : Calm key t t' := by
  have hw := reach_wf t hr
  by_cases hk : key ∈ touched e t c
  · have hnr : ∀ a x sl hp, c ≠ .swapRoute a x sl hp := by
      rintro a x sl hp rfl
      obtain ⟨y, hy, e1⟩ := List.mem_map.1 hk
      exact hc ⟨y, hy, e1⟩
    have hf := step_effectIf hnr h
    have hns : ¬ ∃ k d a b l, c = .swap k d a b l := by
      rintro ⟨k, d, a, b, l, rfl⟩
      exact hc (List.mem_singleton.1 hk).symm
    cases hf with
    | other pf ft b => exact ⟨fun p hp => ⟨p, hp, .refl _⟩, fun i x x' h1 h2 => by rw [h1] at h2; cases h2; exact .refl _⟩
    | @newPool k p keys i sp ht hcc hn hp =>
      refine ⟨fun q hq => ⟨q, ?_, .refl _⟩, fun i x x' h1 h2 => by rw [h1] at h2; cases h2; exact .refl _⟩
      dsimp only
      rw [Map.get_insert_ne _ _ (by rintro rfl; rw [hn] at hq; cases hq)]
      exact hq
    | @poolField k p q b hp hq =>
      refine ⟨calm_pools hp (p' := q) ?_ rfl, fun i x x' h1 h2 => by rw [h1] at h2; cases h2; exact .refl _⟩
      rw [hq]; exact ⟨rfl, rfl, rfl, rfl⟩
    | create hx =>
      obtain ⟨pool, lt, ut, m, b, tm1, tm2, he, -⟩ := createPosition_full hw.indexed hx
      refine ⟨calm_pools he.hpool he.mod.pool.same (by rw [he.res]), fun i x x' h1 h2 => ?_⟩
      rw [he.res] at h2
      dsimp only at h2
      rw [Map.get_insert] at h2
      split at h2
      · next e1 =>
        cases h2
        rw [e1] at h1
        rcases getOrCreateTick_ok.1 he.hut with ⟨t1, h3, e⟩ | ⟨h3, _⟩
        · rw [h1] at h3; cases h3
          have := he.mod.upper.same
          rw [e] at this; exact this
        · rw [h1] at h3; cases h3
      · rw [Map.get_insert] at h2
        split at h2
        · next e1 =>
          cases h2
          rw [e1] at h1
          rcases getOrCreateTick_ok.1 he.hlt with ⟨t1, h3, e⟩ | ⟨h3, _⟩
          · rw [h1] at h3; cases h3
            have := he.mod.lower.same
            rw [e] at this; exact this
          · rw [h1] at h3; cases h3
        · rw [h1] at h2; cases h2; exact .refl _
    | remove hx =>
      obtain ⟨p, lower, upper, pool, m, ps, b, tm1, tm2, he, -⟩ := removePosition_full hw.indexed hx
      refine ⟨calm_pools he.hpool he.mod.pool.same (by rw [he.res]), fun i x x' h1 h2 => ?_⟩
      rw [he.res] at h2
      dsimp only at h2
      have low : ∀ y, (if m.lower.liquidityGross = 0 then t.ticks.erase (p.poolKey, p.lowerTickIndex)
          else t.ticks.insert (p.poolKey, p.lowerTickIndex) m.lower).get (key, i) = some y → TickSame x y := by
        intro y hy
        split at hy
        · rw [Map.get_erase] at hy
          split at hy
          · cases hy
          · rw [h1] at hy; cases hy; exact .refl _
        · rw [Map.get_insert] at hy
          split at hy
          · next e1 =>
            cases hy
            rw [e1, he.hlt] at h1; cases h1
            exact he.mod.lower.same
          · rw [h1] at hy; cases hy; exact .refl _
      split at h2
      · rw [Map.get_erase] at h2
        split at h2
        · cases h2
        · exact low _ h2
      · rw [Map.get_insert] at h2
        split at h2
        · next e1 =>
          cases h2
          rw [e1, he.hut] at h1; cases h1
          exact he.mod.upper.same
        · exact low _ h2
    | claim hx =>
      obtain ⟨p, lower, upper, pool, m, ps, b, he, -⟩ := claimFee_full hw.indexed hx
      refine ⟨calm_pools he.hpool he.mod.pool.same (by rw [he.res]), fun i x x' h1 h2 => ?_⟩
      rw [he.res] at h2
      dsimp only at h2
      rw [Map.get_insert] at h2
      split at h2
      · next e1 =>
        cases h2
        rw [e1, he.hlt] at h1; cases h1
        exact he.mod.lower.same
      · rw [Map.get_insert] at h2
        split at h2
        · next e1 =>
          cases h2
          rw [e1, he.hut] at h1; cases h1
          exact he.mod.upper.same
        · rw [h1] at h2; cases h2; exact .refl _
    | transfer h =>
      exact ⟨fun p hp => ⟨p, hp, .refl _⟩, fun i x x' h1 h2 => by rw [h1] at h2; cases h2; exact .refl _⟩
    | swap h hsw => exact absurd hsw hns
  · have hs := C49_pools h key hk
    exact ⟨fun p hp => ⟨p, hs.pool.trans hp, .refl _⟩, fun i x x' h1 h2 => by
      rw [hs.tick i, h1] at h2; cases h2; exact .refl _⟩

private theorem quiet_reach (hr : Reach32 s) (h : Quiet o key s t) : Reach32 t := by
  induction h with
  | start => exact hr
  | call _ h _ _ hf ih => exact .call ih h hf
  | transfers _ hb _ ih => exact .transfers ih hb

/-- the account keeps its balances and positions -/
private theorem quiet_own (h : Quiet o key s t) :
    (∀ token, bal t.balances o token = bal s.balances o token) ∧ ∀ i, t.positions.get o i = s.positions.get o i := by
  induction h with
  | start => exact ⟨fun _ => rfl, fun _ => rfl⟩
  | @call t t' env c _ h hp _ _ ih =>
    have hne : o ≠ env.caller := by
      rintro rfl
      exact hp (by cases c <;> simp [parties])
    refine ⟨fun tk => (C26_balances h o tk hne).trans (ih.1 tk), fun i => ?_⟩
    rcases C26_positions h o hne with h1 | ⟨j, p, rfl, -⟩
    · exact (h1.2 i).trans (ih.2 i)
    · exact absurd (List.mem_cons_of_mem _ List.mem_cons_self) hp
  | @transfers t b aw _ _ hb ih =>
    refine ⟨fun tk => ?_, ih.2⟩
    rw [← ih.1 tk]
    unfold bal
    dsimp only
    rw [hb tk]

theorem _root_.Verif.PoolSame.trans {p q r : Pool} (h : Verif.PoolSame p q) (h' : Verif.PoolSame q r) : Verif.PoolSame p r :=
  ⟨h'.1.trans h.1, h'.2.1.trans h.2.1, h'.2.2.1.trans h.2.2.1, h'.2.2.2.trans h.2.2.2⟩

theorem _root_.Verif.TickSame.trans {p q r : Tick} (h : TickSame p q) (h' : TickSame q r) : TickSame p r :=
  ⟨h'.1.trans h.1, h'.2.1.trans h.2.1, h'.2.2.trans h.2.2⟩

/-- the pool stays the same in what matters -/
private theorem quiet_pool (hr : Reach32 s) (h : Quiet o key s t) {p : Pool} (hp : s.pools.get key = some p) :
    ∃ p', t.pools.get key = some p' ∧ Verif.PoolSame p p' := by
  induction h with
  | start => exact ⟨p, hp, .refl _⟩
  | @call u u' env c hq h _ hc _ ih =>
    obtain ⟨q, hq', hs⟩ := ih
    obtain ⟨r, hr', hs'⟩ := (calm_step (reach32_reach _ (quiet_reach hr hq)).1 h hc).pool q hq'
    exact ⟨r, hr', hs.trans hs'⟩
  | transfers _ _ _ ih => exact ih

/-- the position keeps everything its worth depends on -/
private theorem quiet_keeps (hr : Reach32 s) {i : Nat} {p : Position} (hp : s.positions.get o i = .ok p)
    (h : Quiet o p.poolKey s t) : KeepsWorth s t p := by
  induction h with
  | start =>
    obtain ⟨q, l, u, h1, h2, h3⟩ := stored_has hr (posGet_ok.1 hp)
    exact ⟨⟨q, q, h1, h1, .refl _⟩, ⟨l, l, h2, h2, .refl _⟩, ⟨u, u, h3, h3, .refl _⟩⟩
  | @call u u' env c hq h hn hc hf ih =>
    have hr' := quiet_reach hr (.call hq h hn hc hf)
    have hp' := (quiet_own (.call hq h hn hc hf)).2 i
    rw [hp] at hp'
    obtain ⟨q', l', u', h1, h2, h3⟩ := stored_has hr' (posGet_ok.1 hp')
    have hcalm := calm_step (reach32_reach _ (quiet_reach hr hq)).1 h hc
    obtain ⟨⟨a, a', ha, ha', hs⟩, ⟨b, b', hb, hb', hsb⟩, ⟨d, d', hd, hd', hsd⟩⟩ := ih
    obtain ⟨a'', ha'', hs'⟩ := hcalm.pool _ ha'
    exact ⟨⟨a, a'', ha, ha'', hs.trans hs'⟩, ⟨b, l', hb, h2, hsb.trans (hcalm.tick _ _ _ hb' h2)⟩,
      ⟨d, u', hd, h3, hsd.trans (hcalm.tick _ _ _ hd' h3)⟩⟩
  | transfers _ _ _ ih => exact ⟨ih.pool, ih.lo, ih.hi⟩

variable {i : Nat} {p : Position} {wx wy : ℚ} {fx fy : Nat}

/-- C95: while an account does nothing and nobody swaps in the pool of its position, the position stays what it is and
stays worth the same: its amounts on the curve and the fees it has accrued, whatever others do otherwise, in this pool
and elsewhere. -/
theorem C95_worth (hr : Reach32 s) (hp : s.positions.get o i = .ok p) (h : Quiet o p.poolKey s t) {pool : Pool}
    (hpl : s.pools.get p.poolKey = some pool) (hW : Worth s p pool wx wy fx fy) :
    t.positions.get o i = .ok p ∧ ∃ pool', t.pools.get p.poolKey = some pool' ∧ Worth t p pool' wx wy fx fy := by
  refine ⟨((quiet_own h).2 i).trans hp, ?_⟩
  obtain ⟨⟨q, q', hq, hq', a1, a2, a3, a4⟩, ⟨l, l', hl, hl', b1, b2, b3⟩, ⟨u, u', hu, hu', c1, c2, c3⟩⟩ := quiet_keeps hr hp h
  rw [hpl] at hq; cases hq
  obtain ⟨pl, pu, ix, iy, h1, h2, h3, h4, h5, h6, h7, h8⟩ := hW
  refine ⟨q', hq', pl, pu, ix, iy, h1, h2, ?_, ?_, ?_, ?_, h7, h8⟩
  · rw [← h3]
    simp only [FeeWorld.insideX, world, hl, hl', hu, hu', Option.pure_def, Option.bind_eq_bind, Option.bind_some,
      a1, a3, b1, b2, c1, c2]
  · rw [← h4]
    simp only [FeeWorld.insideY, world, hl, hl', hu, hu', Option.pure_def, Option.bind_eq_bind, Option.bind_some,
      a1, a4, b1, b3, c1, c3]
  · rw [h5]; unfold cutPrice; rw [a1, a2]
  · rw [h6]; unfold cutPrice; rw [a1, a2]

/-- C95, claims: a claim that would have been accepted before is accepted after it, with the same amounts. -/
theorem C95_claim (hr : Reach32 s) (hp : s.positions.get e.caller i = .ok p) (h : Quiet e.caller p.poolKey s t)
    (he : e'.caller = e.caller) {s' : Inv} {x y : Nat} (hc : claimFee e s i = .ok (s', x, y)) :
    ∃ t', claimFee e' t i = .ok (t', x, y) := by
  have hre := (reach32_reach s hr).1
  obtain ⟨pool, hpl⟩ := Option.isSome_iff_exists.1 ((reach_wf s hre).pos _ _ (posGet_ok.1 hp)).2
  obtain ⟨wx, wy, fx, fy, hW⟩ := C36_worth hr hp hpl
  have h1 := C70_amount hre hp hpl hW hc
  cases h1
  obtain ⟨hp', pool', hpl', hW'⟩ := C95_worth hr hp h hpl hW
  have ht := quiet_reach hr h
  have h2 := (C70_claim hr hp hpl hW).1 ⟨_, hc⟩
  rw [← (quiet_own h).1, ← (quiet_own h).1, ← he] at h2
  rw [← he] at hp'
  obtain ⟨⟨t', x', y'⟩, hc'⟩ := (C70_claim ht hp' hpl' hW').2 h2
  have h3 := C70_amount (reach32_reach _ ht).1 hp' hpl' hW' hc'
  cases h3
  exact ⟨t', hc'⟩

/-- C95, leaving: the same position pays the same, before and after. -/
theorem C95_leave (hr : Reach32 s) (hp : s.positions.get e.caller i = .ok p) (h : Quiet e.caller p.poolKey s t)
    (he : e'.caller = e.caller) {s' t' : Inv} {x y x' y' : Nat} (h1 : removePosition e s i = .ok (s', x, y))
    (h2 : removePosition e' t i = .ok (t', x', y')) : x' = x ∧ y' = y := by
  have ht := quiet_reach hr h
  have hk := quiet_keeps hr hp h
  have hw := reach_wf s (reach32_reach s hr).1
  have hw' := reach_wf t (reach32_reach t ht).1
  have hp' := (quiet_own h).2 i
  obtain ⟨p1, lo, up, pool, m, ps, b, tm1, tm2, f, hxy, -⟩ := removePosition_full hw.indexed h1
  obtain ⟨p2, lo', up', pool', m', ps', b', tm1', tm2', f', hxy', -⟩ := removePosition_full hw'.indexed h2
  have g := f.get
  rw [hp] at g; cases g
  have g := f'.get
  rw [he, hp', hp] at g; cases g
  obtain ⟨⟨q, q', hq, hq', a1, a2, a3, a4⟩, ⟨l, l', hl, hl', b1, b2, b3⟩, ⟨u, u', hu, hu', c1, c2, c3⟩⟩ := hk
  rw [f.hpool] at hq; cases hq
  rw [f'.hpool] at hq'; cases hq'
  rw [f.hlt] at hl; cases hl
  rw [f'.hlt] at hl'; cases hl'
  rw [f.hut] at hu; cases hu
  rw [f'.hut] at hu'; cases hu'
  have o1 := f.mod.pos.owedX
  have o2 := f.mod.pos.owedY
  have o1' := f'.mod.pos.owedX
  have o2' := f'.mod.pos.owedY
  rw [a1, a3, b1, b2, c1, c2, ← o1] at o1'
  rw [a1, a4, b1, b3, c1, c3, ← o2] at o2'
  obtain ⟨z, hz⟩ := f.mod.pool.amounts
  obtain ⟨z', hz'⟩ := f'.mod.pool.amounts
  dsimp only at hz hz'
  rw [a1, a2, b1, c1, hz] at hz'
  simp only [Except.ok.injEq, Prod.mk.injEq] at hz'
  obtain ⟨e1, e2, -⟩ := hz'
  simp only [Prod.mk.injEq] at hxy hxy'
  rw [hxy.1, hxy.2, hxy'.1, hxy'.2, o1', o2', e1, e2]
  exact ⟨rfl, rfl⟩

/-- C95, deposits: the same deposit costs the same, before and after: the account is left with the same balances. -/
theorem C95_deposit (hr : Reach32 s) (h : Quiet e.caller key s t) (he : e'.caller = e.caller) {lo hi : Int}
    {d a b a' b' : Nat} {r r' : Inv × Position} (h1 : createPosition e s key lo hi d a b = .ok r)
    (h2 : createPosition e' t key lo hi d a' b' = .ok r') (token : ActorId) :
    bal r'.1.balances e.caller token = bal r.1.balances e.caller token := by
  have ht := quiet_reach hr h
  have hw := reach_wf s (reach32_reach s hr).1
  have hw' := reach_wf t (reach32_reach t ht).1
  have hbal := (quiet_own h).1
  obtain ⟨pool, lt, ut, m, bb, tm1, tm2, f, -, -, -, bx, by_, hx, hy, rfl⟩ := createPosition_full hw.indexed h1
  obtain ⟨pool', lt', ut', m', bb', tm1', tm2', f', -, -, -, bx', by_', hx', hy', rfl⟩ := createPosition_full hw'.indexed h2
  obtain ⟨q, hq, a1, a2, a3, a4⟩ := quiet_pool hr h f.hpool
  rw [f'.hpool] at hq; cases hq
  obtain ⟨z, hz⟩ := f.mod.pool.amounts
  obtain ⟨z', hz'⟩ := f'.mod.pool.amounts
  dsimp only at hz hz'
  rw [f.lidx, f.uidx] at hz
  rw [f'.lidx, f'.uidx, a1, a2, hz] at hz'
  simp only [Except.ok.injEq, Prod.mk.injEq] at hz'
  obtain ⟨e1, e2, -⟩ := hz'
  have hne := poolKey_ne (reach32_reach s hr).1 f.hpool
  rw [he] at hx' hy'
  have g := Parts.debits hne hx hy
  have g' := Parts.debits hne hx' hy'
  have k1 := hbal key.tokenX
  have k2 := hbal key.tokenY
  have eb : r.1.balances = by_.1 := by rw [f.res]
  have eb' : r'.1.balances = by_'.1 := by rw [f'.res]
  rw [eb, eb']
  by_cases t1 : token = key.tokenX
  · subst t1; omega
  by_cases t2 : token = key.tokenY
  · subst t2; omega
  have oth : ∀ {b b' : Balances} {c : ActorId} {n v : Nat}, token ≠ c →
      decreaseTokenBalance b c e.caller (some n) = .ok (b', v) → bal b' e.caller token = bal b e.caller token := by
    intro b b' c n v hc hd
    unfold bal
    rw [decrease_other hd (fun h => hc (Prod.mk.inj h).2)]
  rw [oth t2 hy, oth t1 hx, oth t2 hy', oth t1 hx', hbal]

/-! ### an example -/

private def others : List (Env × Call) :=
  [(Demo.by_ 3, .claimFee 0), (Demo.by_ 3, .createPosition Demo.key (-20) 10 (10 ^ 15) 0 (10 ^ 25)),
   (Demo.by_ 3, .removePosition 0), (Demo.by_ 3, .swap Demo.key2 true (10 ^ 6) true MIN_SQRT_PRICE),
   (Demo.by_ 1, .changeProtocolFee 7)]

private theorem quiet_run (h : Quiet o key s t) (h1 : o ∉ parties e c) (h2 : ¬ SwapsIn key c)
    (hf : (run e t c).positions.length.entries.all (fun x => decide (x.2 + 1 < 2 ^ 32)) = true) :
    Quiet o key s (run e t c) := by
  have hf := few_of_all hf
  unfold run at hf ⊢
  split
  · next s' hs => rw [hs] at hf; exact .call h hs h1 h2 hf
  · exact h

/-- the history of the example is one of those the theorems are about -/
example : Quiet 2 Demo.key Demo.traded (runAll Demo.traded others) := by
  have n3 : ∀ {c : Call}, parties (Demo.by_ 3) c = [3] → ¬ (2 : ActorId) ∈ parties (Demo.by_ 3) c := by
    intro c h; rw [h]; decide
  unfold others
  simp only [runAll]
  have q0 : Quiet 2 Demo.key Demo.traded Demo.traded := .start
  have q1 := quiet_run (e := Demo.by_ 3) (c := .claimFee 0) q0 (n3 rfl) id (by decide +kernel)
  have q2 := quiet_run (e := Demo.by_ 3) (c := .createPosition Demo.key (-20) 10 (10 ^ 15) 0 (10 ^ 25)) q1 (n3 rfl) id
    (by decide +kernel)
  have q3 := quiet_run (e := Demo.by_ 3) (c := .removePosition 0) q2 (n3 rfl) id (by decide +kernel)
  have q4 := quiet_run (e := Demo.by_ 3) (c := .swap Demo.key2 true (10 ^ 6) true MIN_SQRT_PRICE) q3 (n3 rfl)
    (fun h : Demo.key2 = Demo.key => absurd h (by decide)) (by decide +kernel)
  exact quiet_run (e := Demo.by_ 1) (c := .changeProtocolFee 7) q4
    (show ¬ (2 : ActorId) ∈ [(1 : ActorId)] by decide) id (by decide +kernel)

/-- User 3 claims, deposits, leaves and trades in another pool, and the position of user 2 pays what it paid before,
although the liquidity of the pool has doubled; one swap in its pool changes that. -/
example : (removePosition (Demo.by_ 2) Demo.traded 0).toOption.map (·.2) = some (16975799, 3024345) ∧
    (removePosition (Demo.by_ 2) (runAll Demo.traded others) 0).toOption.map (·.2) = some (16975799, 3024345) ∧
    (claimFee (Demo.by_ 2) Demo.traded 0).toOption.map (·.2) = some (6279, 0) ∧
    (claimFee (Demo.by_ 2) (runAll Demo.traded others) 0).toOption.map (·.2) = some (6279, 0) ∧
    (Demo.traded.pools.get Demo.key).map (·.liquidity) = some (10 ^ 15) ∧
    ((runAll Demo.traded others).pools.get Demo.key).map (·.liquidity) = some (2 * 10 ^ 15) ∧
    (removePosition (Demo.by_ 2) (runAll Demo.traded [(Demo.by_ 3, .swap Demo.key true (10 ^ 6) true MIN_SQRT_PRICE)])
      0).toOption.map (·.2) = some (17975699, 2026837) := by
  decide +kernel

end Quietly
end Verif
