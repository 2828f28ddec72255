import Verif.Proofs.Crossed
import Verif.Props.Wrap
import Verif.Props.Active

/-!
# Property C65: what the events tell

An indexer that reads only the events knows the liquidity in every range, the liquidity of every tick and the price
of every pool. It does not know who owns a position.
-/

namespace Verif
open Service Spec

variable {s s' : Inv} {env : Env}

/-! ### liquidity -/

private theorem logged32_sum {log : List Event} (h : Logged32 s log) : TallyInv s log [] := by
  have key : ∀ s log, Logged32 s log → TallyInv s log [] ∧ FewPositions s ∧ PosListed s := by
    intro s log h
    induction h with
    | init a f =>
      exact ⟨⟨fun _ => rfl, fun _ _ => rfl, fun _ _ => rfl⟩, (reach32_reach _ (.init a f)).2,
        reach32_listed _ (.init a f)⟩
    | transfers hl hb ih => exact ⟨⟨ih.1.1, ih.1.2, ih.1.3⟩, ih.2.1, ih.2.2⟩
    | @call s s' env c log evs hl hs hf ih =>
      obtain ⟨hlog, h32⟩ := logged32 hl
      refine ⟨?_, hf, reach32_listed _ (.call h32 (stepLog_step hs) hf)⟩
      have hr := logged_reach hlog
      by_cases hc : ∃ a e sl hp, c = .swapRoute a e sl hp
      · obtain ⟨a, e, sl, hp, rfl⟩ := hc
        simp only [stepLog, swapRouteLog, bind_ok_iff, pure_ok_iff] at hs
        obtain ⟨q, h1, m, h2, u, h3, hs⟩ := hs
        cases hs
        have : ∀ hops s a q log, routeSwapLog env hops s a = .ok q → Reach s → TallyInv s log [] →
            FewPositions s → PosListed s → TallyInv q.1 (log ++ q.2.2) [] := by
          intro hops
          induction hops with
          | nil => intro s a q log h _ hI _ _; cases h; simpa using hI
          | cons hp t ihh =>
            intro s a q log h hr hI hf hl
            simp only [routeSwapLog, bind_ok_iff, pure_ok_iff] at h
            obtain ⟨r, h1, q', h2, rfl⟩ := h
            have hr' : Reach r.1 := by
              refine .call (env := env) (c := .swap hp.key hp.xToY a true (hopLimit hp.xToY)) hr ?_
              simp only [step, bind_ok_iff, pure_ok_iff]
              exact ⟨r, h1, rfl⟩
            obtain ⟨new, hI', hn⟩ := tally_step hr hI (.swap h1)
            rw [hn hl hf] at hI'
            have hpos := swap_positions h1
            have := ihh r.1 _ _ (log ++ swapEvents env hp.key hp.xToY r.2) h2 hr' hI'
              (by intro b; rw [hpos]; exact hf b) (by unfold PosListed; rw [hpos]; exact hl)
            dsimp only
            rwa [← List.append_assoc]
        exact this _ _ _ _ _ h1 hr ih.1 ih.2.1 ih.2.2
      · push Not at hc
        obtain ⟨new, hI', hn⟩ := tally_step hr ih.1 (stepLog_eff (reach_wf s hr).indexed hc hs)
        rw [hn ih.2.2 ih.2.1] at hI'
        exact hI'
  exact (key s log h).1

/-- C65, liquidity, for histories in which no account gets to 2^32 - 1 positions (full statement: for all histories;
refuted by `C65_negation`): for every weighting of the ranges, the liquidity created minus the liquidity removed
according to the events is the liquidity of the stored positions. In particular for one range of one pool. -/
theorem C65_ranges_partial {log : List Event} (h : Logged32 s log) (w : PoolKey → Int → Int → Int) :
    tally w log = held w s := by
  rw [(logged32_sum h).sum]
  simp [lostSum]

/-- C65, liquidity, for all histories: the events never count less than the stored positions. -/
theorem C65_ranges_le {log : List Event} (h : Logged s log) (w : PoolKey → Int → Int → Int)
    (hw : ∀ k l u, 0 ≤ w k l u) : held w s ≤ tally w log := by
  obtain ⟨lost, hI⟩ := logged_tally h
  rw [hI.sum]
  have : 0 ≤ lostSum w lost := by
    unfold lostSum
    refine List.sum_nonneg ?_
    intro x hx
    obtain ⟨p, _, rfl⟩ := List.mem_map.1 hx
    exact mul_nonneg (hw _ _ _) (Int.natCast_nonneg _)
  omega

/-- C65, ticks, for all histories: gross and net liquidity of every tick follow from the events, and a tick exists
exactly if the events count liquidity at it. -/
theorem C65_ticks {log : List Event} (h : Logged s log) (key : PoolKey) (i : Int) :
    (∀ t, s.ticks.get (key, i) = some t →
      (t.liquidityGross : Int) = tally (onBound key i) log ∧ netLiq t = tally (onNet key i) log) ∧
    ((s.ticks.get (key, i)).isSome ↔ tally (onBound key i) log ≠ 0) ∧
    (s.ticks.get (key, i) = none → tally (onNet key i) log = 0) := by
  obtain ⟨lost, hI⟩ := logged_tally h
  have hG := hI.gross key i
  have hN := hI.net key i
  have hw := reach_wf s (logged_reach h)
  refine ⟨?_, ?_, ?_⟩
  · intro t ht
    rw [tG_some ht] at hG
    rw [tN_some ht] at hN
    exact ⟨hG, hN⟩
  · cases ht : s.ticks.get (key, i) with
    | none => rw [tG_none ht] at hG; simp [← hG]
    | some t =>
      rw [tG_some ht] at hG
      have := (hw.tick _ _ _ ht).1.pos
      simp only [Option.isSome_some, true_iff, ← hG]
      exact_mod_cast this
  · intro ht
    rw [tN_none ht] at hN
    exact hN.symm

/-- the active liquidity of a pool follows from the events where the counter is right (`C34`) -/
theorem C65_active_partial {log : List Event} (hc : Clear s) (h : Logged32 s log) {key : PoolKey} {pool : Pool}
    (hp : s.pools.get key = some pool) :
    (pool.liquidity : Int) = tally (onActive key pool.currentTickIndex) log := by
  rw [C65_ranges_partial h, C34_clear_partial hc hp]
  unfold activeLiq held Map.sum
  rw [Nat.cast_list_sum, List.map_map]
  congr 1
  refine List.map_congr_left ?_
  rintro ⟨k, p⟩ _
  simp only [Function.comp, onActive]
  split <;> simp_all

/-! ### prices -/

private theorem loggedPrice_snoc (key : PoolKey) (log : List Event) (e : Event) :
    loggedPrice key (log ++ [e]) = match eventPrice key e with
      | some p => some p
      | none => loggedPrice key log := by
  unfold loggedPrice
  rw [List.filterMap_append]
  cases he : eventPrice key e with
  | none => simp [he]
  | some p => simp [he]

private theorem chained_snoc {key : PoolKey} {log : List Event} {e : Event} (h : Chained key log)
    (he : ∀ p q, priceBefore key e = some p → loggedPrice key log = some q → p = q) :
    Chained key (log ++ [e]) := by
  intro a x b p heq hp q hq
  rcases List.eq_nil_or_concat b with rfl | ⟨b', y, rfl⟩
  · have := List.append_inj' heq rfl
    obtain ⟨rfl, hx⟩ := this
    cases hx
    exact he p q hp hq
  · have e2 : a ++ x :: (b' ++ [y]) = (a ++ x :: b') ++ [y] := by simp
    rw [List.concat_eq_append, e2] at heq
    have := List.append_inj' heq rfl
    obtain ⟨rfl, _⟩ := this
    exact h a x b' p rfl hp q hq

/-- the prices in the log are right -/
private structure PriceInv (s : Inv) (log : List Event) : Prop where
  last : ∀ key q, loggedPrice key log = some q → ∃ pool, s.pools.get key = some pool ∧ pool.sqrtPrice = q
  chain : ∀ key, Chained key log

private theorem price_one {log : List Event} {e : Event} (hI : PriceInv s log)
    (hb : ∀ key p, priceBefore key e = some p → ∃ pool, s.pools.get key = some pool ∧ pool.sqrtPrice = p)
    (ha : ∀ key p, eventPrice key e = some p → ∃ pool, s'.pools.get key = some pool ∧ pool.sqrtPrice = p)
    (hk : ∀ key, eventPrice key e = none → ∀ pool, s.pools.get key = some pool →
      ∃ pool', s'.pools.get key = some pool' ∧ pool'.sqrtPrice = pool.sqrtPrice) :
    PriceInv s' (log ++ [e]) := by
  constructor
  · intro key q hq
    rw [loggedPrice_snoc] at hq
    cases he : eventPrice key e with
    | none =>
      rw [he] at hq
      obtain ⟨pool, h1, h2⟩ := hI.last key q hq
      obtain ⟨pool', h3, h4⟩ := hk key he pool h1
      exact ⟨pool', h3, h4.trans h2⟩
    | some p =>
      rw [he] at hq
      cases hq
      exact ha key q he
  · intro key
    refine chained_snoc (hI.chain key) ?_
    intro p q hp hq
    obtain ⟨pool, h1, h2⟩ := hI.last key q hq
    obtain ⟨pool', h3, h4⟩ := hb key p hp
    rw [h1] at h3
    cases h3
    omega

private theorem price_nil {log : List Event} (hI : PriceInv s log)
    (hk : ∀ key pool, s.pools.get key = some pool →
      ∃ pool', s'.pools.get key = some pool' ∧ pool'.sqrtPrice = pool.sqrtPrice) :
    PriceInv s' (log ++ []) := by
  rw [List.append_nil]
  refine ⟨?_, hI.chain⟩
  intro key q hq
  obtain ⟨pool, h1, h2⟩ := hI.last key q hq
  obtain ⟨pool', h3, h4⟩ := hk key pool h1
  exact ⟨pool', h3, h4.trans h2⟩

private theorem keep_insert {k : PoolKey} {p q : Pool} (hp : s.pools.get k = some p) (hq : q.sqrtPrice = p.sqrtPrice) :
    ∀ key pool, s.pools.get key = some pool →
      ∃ pool', (s.pools.insert k q).get key = some pool' ∧ pool'.sqrtPrice = pool.sqrtPrice := by
  intro key pool h
  rw [Map.get_insert]
  split
  · next e =>
    subst e
    rw [hp] at h
    cases h
    exact ⟨q, rfl, hq⟩
  · exact ⟨pool, h, rfl⟩

private theorem price_step {log evs : List Event} (hr : Reach s) (hI : PriceInv s log)
    (he : LogEff env s s' evs) : PriceInv s' (log ++ evs) := by
  have hw := reach_wf s hr
  cases he with
  | other => exact price_nil hI fun key pool h => ⟨pool, h, rfl⟩
  | @newPool k p keys i sp _ _ hn _ =>
    refine price_nil hI fun key pool h => ⟨pool, ?_, rfl⟩
    dsimp only
    rw [Map.get_insert, if_neg, h]
    rintro rfl
    rw [hn] at h
    cases h
  | poolField hp hq =>
    exact price_nil hI (keep_insert hp (by rw [hq]))
  | claim h =>
    obtain ⟨p, lower, upper, pool, m, ps, b, h, _⟩ := claimFee_full hw.indexed h
    rw [h.res]
    exact price_nil hI (keep_insert h.hpool (by rw [h.mod.pool.eq]))
  | transfer => exact price_nil hI fun key pool h => ⟨pool, h, rfl⟩
  | @create key lower upper delta _ _ r pool0 h hp =>
    obtain ⟨pool, lt, ut, m, b, tm1, tm2, h, _⟩ := createPosition_full hw.indexed h
    have hpool := h.hpool
    rw [hp] at hpool
    cases hpool
    have hsame : m.pool.sqrtPrice = pool0.sqrtPrice := by rw [h.mod.pool.eq]
    have keep := keep_insert h.hpool hsame
    rw [h.res]
    refine price_one hI ?_ ?_ ?_
    · intro k p hpb
      simp only [priceBefore] at hpb
      split at hpb
      · next e => subst e; cases hpb; exact ⟨pool0, hp, rfl⟩
      · cases hpb
    · intro k p hpb
      simp only [eventPrice] at hpb
      split at hpb
      · next e => subst e; cases hpb; exact ⟨m.pool, by simp [Map.get_insert], hsame⟩
      · cases hpb
    · intro k _ pool hk
      exact keep k pool hk
  | @remove i r p pool0 h hg hp =>
    obtain ⟨p', lower, upper, pool, m, ps, b, tm1, tm2, h, _⟩ := removePosition_full hw.indexed h
    have epp : p' = p := by
      have := h.get
      rw [hg] at this
      cases this
      rfl
    subst epp
    have hpool := h.hpool
    rw [hp] at hpool
    cases hpool
    have hsame : m.pool.sqrtPrice = pool0.sqrtPrice := by rw [h.mod.pool.eq]
    have keep := keep_insert h.hpool hsame
    rw [h.res]
    refine price_one hI ?_ ?_ ?_
    · intro k p hpb
      simp only [priceBefore] at hpb
      split at hpb
      · next e => subst e; cases hpb; exact ⟨pool0, hp, rfl⟩
      · cases hpb
    · intro k p hpb
      simp only [eventPrice] at hpb
      split at hpb
      · next e => subst e; cases hpb; exact ⟨m.pool, by simp [Map.get_insert], hsame⟩
      · cases hpb
    · intro k _ pool hk
      exact keep k pool hk
  | @swap key xToY byIn amount limit r h =>
    obtain ⟨ticks, b1, b2, h1, h2, h3, h4, e⟩ := swap_ok h
    obtain ⟨pool0, st, hp, _, _, _, _, _, hres⟩ := calculateSwap_ok h1
    have hstart : r.2.startSqrtPrice = pool0.sqrtPrice := by rw [hres]
    have htarget : r.2.targetSqrtPrice = r.2.pool.sqrtPrice := by rw [hres]
    have fin : ∀ log, PriceInv s log → PriceInv r.1 (log ++ [.swap env.now env.caller key r.2.amountIn r.2.amountOut
        r.2.fee r.2.startSqrtPrice r.2.targetSqrtPrice xToY]) := by
      intro log hI
      rw [e]
      refine price_one hI ?_ ?_ ?_
      · intro k p hpb
        simp only [priceBefore] at hpb
        split at hpb
        · next e => subst e; cases hpb; exact ⟨pool0, hp, hstart.symm⟩
        · cases hpb
      · intro k p hpb
        simp only [eventPrice] at hpb
        split at hpb
        · next e => subst e; cases hpb; exact ⟨r.2.pool, by simp [Map.get_insert], htarget.symm⟩
        · cases hpb
      · intro k hne pool hk
        simp only [eventPrice] at hne
        split at hne
        · cases hne
        · next hn => exact ⟨pool, by dsimp only; rw [Map.get_insert, if_neg (Ne.symm hn), hk], rfl⟩
    unfold swapEvents
    dsimp only
    split
    · exact fin log hI
    · have hc : PriceInv s (log ++ [.crossTick env.now env.caller key (r.2.ticks.map (·.index))]) := by
        refine price_one hI ?_ ?_ ?_
        · intro k p hpb; cases hpb
        · intro k p hpb; cases hpb
        · intro k _ pool hk; exact ⟨pool, hk, rfl⟩
      have := fin _ hc
      rwa [List.append_assoc] at this

/-- C65, prices, for all histories: the last event of a pool gives its current price, and the price that an event
states for the time before it is the price that the previous event of the pool left. -/
theorem C65_price {log : List Event} (h : Logged s log) (key : PoolKey) :
    (∀ q, loggedPrice key log = some q → ∃ pool, s.pools.get key = some pool ∧ pool.sqrtPrice = q) ∧
    Chained key log := by
  have := (logged_ind (I := PriceInv)
    (fun a f => ⟨fun key q hq => by simp [loggedPrice] at hq, fun key a e b p he => by simp at he⟩)
    (fun s b aw log hI => ⟨hI.last, hI.chain⟩)
    (fun env s s' log evs hr hI he => price_step hr hI he) s log h).2
  exact ⟨this.last key, this.chain key⟩

/-! ### swaps -/

private theorem crossed_swapEvents (key : PoolKey) (d : Bool) (r : CalculateSwapResult) :
    crossedTicks key (swapEvents env key d r) = r.ticks.map (·.index) := by
  unfold crossedTicks swapEvents
  dsimp only
  split
  · next h => simp [List.isEmpty_iff.1 h]
  · simp

/-- C65, swaps, for all histories: the new active liquidity follows from the old one, the reported crossed ticks and
the net liquidities that the earlier events give them. The ticks are reported in the order in which the price passes
them, each once, all between the reported prices. The reported amounts are what the swapper's balances change by. -/
theorem C65_swap {log evs : List Event} (h : Logged s log) {key : PoolKey} {xToY byIn : Bool} {amount limit : Nat}
    (hs : stepLog env s (.swap key xToY amount byIn limit) = .ok (s', evs)) :
    ∃ pool pool' fee amountIn amountOut, s.pools.get key = some pool ∧ s'.pools.get key = some pool' ∧
      evs.getLast? = some (.swap env.now env.caller key amountIn amountOut fee pool.sqrtPrice pool'.sqrtPrice xToY) ∧
      (pool'.liquidity : Int) = pool.liquidity + (if xToY then -1 else 1) *
        ((crossedTicks key evs).map (fun i => tally (onNet key i) log)).sum ∧
      (crossedTicks key evs).Pairwise (fun i j => if xToY then j < i else i < j) ∧
      (∀ i ∈ crossedTicks key evs, ∃ t, s.ticks.get (key, i) = some t ∧
        if xToY then pool'.sqrtPrice ≤ t.sqrtPrice ∧ t.sqrtPrice ≤ pool.sqrtPrice
        else pool.sqrtPrice ≤ t.sqrtPrice ∧ t.sqrtPrice ≤ pool'.sqrtPrice) ∧
      (∃ b, decreaseTokenBalance s.balances (if xToY then key.tokenX else key.tokenY) env.caller (some amountIn) =
          .ok b ∧
        increaseTokenBalance b.1 (if xToY then key.tokenY else key.tokenX) env.caller amountOut = .ok s'.balances) := by
  simp only [stepLog, bind_ok_iff, pure_ok_iff] at hs
  obtain ⟨r, hs, e⟩ := hs
  cases e
  have hr := logged_reach h
  have hw := reach_wf s hr
  obtain ⟨lost, hI⟩ := logged_tally h
  obtain ⟨ticks, b1, b2, h1, h2, h3, h4, e⟩ := swap_ok hs
  obtain ⟨pool, st, hp, _, _, _, _, _, hres⟩ := calculateSwap_ok h1
  have hstart : r.2.startSqrtPrice = pool.sqrtPrice := by rw [hres]
  have htarget : r.2.targetSqrtPrice = r.2.pool.sqrtPrice := by rw [hres]
  obtain ⟨c1, c2, c3⟩ := calculateSwap_crossed hr h1 hp
  rw [crossed_swapEvents]
  refine ⟨pool, r.2.pool, r.2.fee, r.2.amountIn, r.2.amountOut, hp, by rw [e]; simp [Map.get_insert], ?_, ?_, c2, ?_,
    b1, h3, by rw [e]; exact h4⟩
  · unfold swapEvents
    dsimp only
    rw [hstart, htarget]
    split <;> simp
  · rw [c1, List.map_map]
    congr 2
    refine congrArg _ (List.map_congr_left ?_)
    intro t _
    exact hI.net key t.index
  · intro i hi
    obtain ⟨t, ht, rfl⟩ := List.mem_map.1 hi
    obtain ⟨h5, h6⟩ := c3 t ht
    obtain ⟨u, hu⟩ := Option.isSome_iff_exists.1 h5
    refine ⟨u, hu, ?_⟩
    have h7 : u.sqrtPrice = priceOf t.index := by
      have := (hw.tick _ _ _ hu).1
      exact calc_grid this.grid this.price
    rw [h7, ← htarget]
    exact h6

/-! ### what the events do not tell -/

/-- C65, liquidity, without a bound on the number of positions is false: after 2^32 + 1 deposits of one account the
events count a position that the storage has lost. -/
theorem C65_negation : ¬ ∀ (s : Inv) (log : List Event) (w : PoolKey → Int → Int → Int), Logged s log →
    tally w log = held w s := by
  intro hall
  refine C33_negation ?_
  intro s key i t hr ht
  obtain ⟨log, hl⟩ := reach_logged hr
  have h1 := ((C65_ticks hl key i).1 t ht).1
  rw [hall s log _ hl, held_eq] at h1
  have h2 : posSum s.positions (pW (onBound key i)) = (grossLiq s key i : Int) := by
    unfold posSum grossLiq Map.sum
    rw [Nat.cast_list_sum, List.map_map]
    congr 1
    refine List.map_congr_left ?_
    rintro ⟨k, p⟩ _
    exact pW_onBound key i p
  rw [h2] at h1
  exact_mod_cast h1

/-- the demo state belongs to a history without many positions -/
private theorem demo_logged : ∃ log, Logged32 Demo.start log := by
  have : ∀ s, Reach32 s → ∃ log, Logged32 s log := by
    intro s h
    induction h with
    | init a f => exact ⟨[], .init a f⟩
    | call _ hs hf ih =>
      obtain ⟨log, hl⟩ := ih
      obtain ⟨evs, he⟩ := step_stepLog hs
      exact ⟨_, .call hl he hf⟩
    | transfers _ hb ih =>
      obtain ⟨log, hl⟩ := ih
      exact ⟨_, .transfers hl hb⟩
  exact this _ (clear_reach32 _ demo_start_clear)

/-- who owns the positions does not follow from the events: handing a position over sends none. -/
theorem C65_owners_negation : ¬ ∃ f : List Event → ActorId → Nat, ∀ s log, Logged32 s log →
    ∀ a, s.positions.getLength a = f log a := by
  rintro ⟨f, hf⟩
  obtain ⟨log, hl⟩ := demo_logged
  obtain ⟨s', hs, hlen, hall⟩ : ∃ s', step (Demo.by_ 2) Demo.start (.transferPosition 0 4) = .ok s' ∧
      s'.positions.getLength 2 = 0 ∧ s'.positions.length.entries.all (fun e => decide (e.2 + 1 < 2 ^ 32)) = true := by
    have : (step (Demo.by_ 2) Demo.start (.transferPosition 0 4)).toOption.map (fun s' =>
        (s'.positions.getLength 2, s'.positions.length.entries.all (fun e => decide (e.2 + 1 < 2 ^ 32)))) =
        some (0, true) := by decide +kernel
    cases h : step (Demo.by_ 2) Demo.start (.transferPosition 0 4) with
    | error e => rw [h] at this; simp [Except.toOption] at this
    | ok s' =>
      rw [h] at this
      simp only [Except.toOption, Option.map_some, Option.some.injEq, Prod.mk.injEq] at this
      exact ⟨s', rfl, this.1, this.2⟩
  have hs' : stepLog (Demo.by_ 2) Demo.start (.transferPosition 0 4) = .ok (s', []) :=
    bind_ok_iff.2 ⟨_, hs, rfl⟩
  have h1 := hf _ _ hl 2
  have h2 := hf _ _ (.call hl hs' (few_of_all hall)) 2
  rw [List.append_nil, ← h1, hlen] at h2
  revert h2
  decide +kernel

/-- the events of a swap that crosses the tick -10 of the demo pool -/
example : (stepLog (Demo.by_ 2) Demo.start (.swap Demo.key true (22 * 10 ^ 6) true MIN_SQRT_PRICE)).toOption.map
    (fun r => (r.2.length, crossedTicks Demo.key r.2, (loggedPrice Demo.key r.2).isSome,
      (r.1.pools.get Demo.key).map (·.liquidity))) =
    some (2, [-10], true, some (10 ^ 15)) := by decide +kernel

/-- the events of a deposit -/
example : (stepLog (Demo.by_ 2) Demo.start (.createPosition Demo.key (-10) 20 5 0 (10 ^ 25))).toOption.map (·.2) =
    some [.positionCreated 100 2 Demo.key 5 (-10) 20 (10 ^ 24)] := by decide +kernel

/-- `C65_ranges_partial`, `C65_ticks` and `C65_active_partial` on the demo state -/
example : ∃ log, Logged32 Demo.start log ∧ tally (onRange Demo.key (-20) 20) log = 10 ^ 15 ∧
    tally (onNet Demo.key 10) log = -3 * 10 ^ 15 ∧ tally (onActive Demo.key 0) log = 4 * 10 ^ 15 := by
  obtain ⟨log, hl⟩ := demo_logged
  refine ⟨log, hl, ?_, ?_, ?_⟩
  · rw [C65_ranges_partial hl]; decide +kernel
  · rw [C65_ranges_partial hl]; decide +kernel
  · rw [C65_ranges_partial hl]; decide +kernel

end Verif
