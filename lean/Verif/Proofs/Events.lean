import Verif.Proofs.LedgerAll
import Verif.Proofs.SwapMove
import Verif.Spec.Events

/-! # Events: what a call sends, and induction over histories with their events -/

namespace Verif
open Service Spec

variable {env : Env} {s s' : Inv}

/-- the effect of one call other than a route, with its events -/
inductive LogEff (env : Env) (s : Inv) : Inv → List Event → Prop
  | other (pf : Nat) (ft : List FeeTier) (b : Balances) :
      LogEff env s { s with protocolFee := pf, feeTiers := ft, balances := b } []
  | newPool {k : PoolKey} {p : Pool} {keys : PoolKeys} {i : Int} {sp : Nat} (ht : k.feeTier ∈ s.feeTiers)
      (hc : checkTick i k.feeTier.tickSpacing = .ok ()) (hn : s.pools.get k = none)
      (hp : Pool.create sp i env.now k.feeTier.tickSpacing s.admin = .ok p) :
      LogEff env s { s with pools := s.pools.insert k p, poolKeys := keys } []
  | poolField {k : PoolKey} {p q : Pool} {b : Balances} (hp : s.pools.get k = some p)
      (hq : q = { p with feeReceiver := q.feeReceiver, feeProtocolTokenX := q.feeProtocolTokenX
                         feeProtocolTokenY := q.feeProtocolTokenY }) :
      LogEff env s { s with pools := s.pools.insert k q, balances := b } []
  | create {key : PoolKey} {lower upper : Int} {delta ll lu : Nat} {r : Inv × Position} {pool : Pool}
      (h : createPosition env s key lower upper delta ll lu = .ok r) (hp : s.pools.get key = some pool) :
      LogEff env s r.1 [.positionCreated env.now env.caller key delta lower upper pool.sqrtPrice]
  | remove {i : Nat} {r : Inv × Nat × Nat} {p : Position} {pool : Pool} (h : removePosition env s i = .ok r)
      (hg : s.positions.get env.caller i = .ok p) (hp : s.pools.get p.poolKey = some pool) :
      LogEff env s r.1 [.positionRemoved env.now env.caller p.poolKey p.liquidity p.lowerTickIndex
        p.upperTickIndex pool.sqrtPrice]
  | claim {i : Nat} {r : Inv × Nat × Nat} (h : claimFee env s i = .ok r) : LogEff env s r.1 []
  | transfer {i : Nat} {dest : ActorId} {ps : Positions} {p : Position}
      (h : s.positions.remove env.caller i = .ok (ps, p)) :
      LogEff env s { s with positions := ps.add dest p } []
  | swap {key : PoolKey} {xToY byIn : Bool} {amount limit : Nat} {r : Inv × CalculateSwapResult}
      (h : Service.swap env s key xToY amount byIn limit = .ok r) :
      LogEff env s r.1 (swapEvents env key xToY r.2)

theorem LogEff.effect {evs : List Event} (h : LogEff env s s' evs) : Effect env s s' := by
  cases h with
  | other pf ft b => exact .other pf ft b
  | newPool ht hc hn hp => exact .newPool ht hc hn hp
  | poolField hp hq => exact .poolField hp hq
  | create h => exact .create h
  | remove h => exact .remove h
  | claim h => exact .claim h
  | transfer h => exact .transfer h
  | swap h => exact .swap h trivial

theorem createEvent_ok (hi : TickIndexed s.ticks) {key : PoolKey} {lower upper : Int} {delta ll lu : Nat}
    {e : Event} (h : createPositionEvent env s key lower upper delta ll lu = .ok e) :
    ∃ pool, s.pools.get key = some pool ∧
      e = .positionCreated env.now env.caller key delta lower upper pool.sqrtPrice := by
  simp only [createPositionEvent, bind_ok_iff, poolsGet_ok, pure_ok_iff] at h
  obtain ⟨pool, hp, lt, hl, ut, hu, m, hm, rfl⟩ := h
  obtain ⟨_, _, hm⟩ := create_full hm
  refine ⟨pool, hp, ?_⟩
  rw [hm.lower.index, hm.upper.index, getOrCreate_index hi hl, getOrCreate_index hi hu, hm.pool.eq]

theorem removeEvent_ok (hi : TickIndexed s.ticks) {i : Nat} {e : Event}
    (h : removePositionEvent env s i = .ok e) :
    ∃ p pool, s.positions.get env.caller i = .ok p ∧ s.pools.get p.poolKey = some pool ∧
      e = .positionRemoved env.now env.caller p.poolKey p.liquidity p.lowerTickIndex p.upperTickIndex
        pool.sqrtPrice := by
  simp only [removePositionEvent, bind_ok_iff, poolsGet_ok, ticksGet_ok, pure_ok_iff] at h
  obtain ⟨p, hg, lt, hl, ut, hu, pool, hp, m, hm, rfl⟩ := h
  obtain ⟨m', hm', _, _, rfl⟩ := remove_full hm
  refine ⟨p, pool, hg, hp, ?_⟩
  dsimp only
  rw [hm'.lower.index, hm'.upper.index, hi _ _ _ hl, hi _ _ _ hu, hm'.pool.eq]

/-- a call without its events -/
theorem stepLog_step {c : Call} {evs : List Event} (h : stepLog env s c = .ok (s', evs)) :
    step env s c = .ok s' := by
  cases c with
  | createPosition k l u d a b =>
    simp only [stepLog, bind_ok_iff, pure_ok_iff] at h
    obtain ⟨r, h1, e, _, h⟩ := h
    cases h
    simp only [step, bind_ok_iff, pure_ok_iff]
    exact ⟨r, h1, rfl⟩
  | removePosition i =>
    simp only [stepLog, bind_ok_iff, pure_ok_iff] at h
    obtain ⟨r, h1, e, _, h⟩ := h
    cases h
    simp only [step, bind_ok_iff, pure_ok_iff]
    exact ⟨r, h1, rfl⟩
  | swap k d a b l =>
    simp only [stepLog, bind_ok_iff, pure_ok_iff] at h
    obtain ⟨r, h1, h⟩ := h
    cases h
    simp only [step, bind_ok_iff, pure_ok_iff]
    exact ⟨r, h1, rfl⟩
  | swapRoute a e sl hp =>
    simp only [stepLog, swapRouteLog, bind_ok_iff, pure_ok_iff] at h
    obtain ⟨q, h1, m, h2, u, h3, h⟩ := h
    cases h
    have : ∀ hops s a q, routeSwapLog env hops s a = .ok q → routeSwap env hops s a = .ok (q.1, q.2.1) := by
      intro hops
      induction hops with
      | nil => intro s a q h; cases h; rfl
      | cons hp t ih =>
        intro s a q h
        simp only [routeSwapLog, bind_ok_iff, pure_ok_iff] at h
        obtain ⟨r, h1, q', h2, rfl⟩ := h
        simp only [routeSwap, bind_ok_iff]
        exact ⟨r, h1, ih _ _ _ h2⟩
    simp only [step, swapRoute, bind_ok_iff, pure_ok_iff]
    exact ⟨_, ⟨_, this _ _ _ _ h1, m, h2, u, h3, rfl⟩, rfl⟩
  | changeProtocolFee f =>
    simp only [stepLog, bind_ok_iff, pure_ok_iff] at h
    obtain ⟨_, h1, h⟩ := h
    cases h; exact h1
  | addFeeTier f =>
    simp only [stepLog, bind_ok_iff, pure_ok_iff] at h
    obtain ⟨_, h1, h⟩ := h
    cases h; exact h1
  | removeFeeTier f =>
    simp only [stepLog, bind_ok_iff, pure_ok_iff] at h
    obtain ⟨_, h1, h⟩ := h
    cases h; exact h1
  | createPool =>
    simp only [stepLog, bind_ok_iff, pure_ok_iff] at h
    obtain ⟨_, h1, h⟩ := h
    cases h; exact h1
  | changeFeeReceiver =>
    simp only [stepLog, bind_ok_iff, pure_ok_iff] at h
    obtain ⟨_, h1, h⟩ := h
    cases h; exact h1
  | transferPosition =>
    simp only [stepLog, bind_ok_iff, pure_ok_iff] at h
    obtain ⟨_, h1, h⟩ := h
    cases h; exact h1
  | claimFee =>
    simp only [stepLog, bind_ok_iff, pure_ok_iff] at h
    obtain ⟨_, h1, h⟩ := h
    cases h; exact h1
  | withdrawProtocolFee =>
    simp only [stepLog, bind_ok_iff, pure_ok_iff] at h
    obtain ⟨_, h1, h⟩ := h
    cases h; exact h1
  | depositVara =>
    simp only [stepLog, bind_ok_iff, pure_ok_iff] at h
    obtain ⟨_, h1, h⟩ := h
    cases h; exact h1
  | withdrawVara =>
    simp only [stepLog, bind_ok_iff, pure_ok_iff] at h
    obtain ⟨_, h1, h⟩ := h
    cases h; exact h1

/-- every successful call has its events -/
theorem step_stepLog {c : Call} (h : step env s c = .ok s') : ∃ evs, stepLog env s c = .ok (s', evs) := by
  cases c with
  | createPosition k l u d a b =>
    simp only [step, bind_ok_iff, pure_ok_iff] at h
    obtain ⟨r, h, rfl⟩ := h
    obtain ⟨h1, h2, pool, lt, ut, m, bx, by_, s2, hp, hl, hu, hm, -⟩ := createPosition_ok h
    refine ⟨[.positionCreated env.now env.caller k d m.lower.index m.upper.index m.pool.sqrtPrice], ?_⟩
    simp only [stepLog, createPositionEvent, bind_ok_iff, pure_ok_iff, poolsGet_ok]
    exact ⟨r, h, _, ⟨pool, hp, lt, hl, ut, hu, m, hm, rfl⟩, rfl⟩
  | removePosition i =>
    simp only [step, bind_ok_iff, pure_ok_iff] at h
    obtain ⟨r, h, rfl⟩ := h
    obtain ⟨p, lower, upper, pool, m, s1, s2, ps, b1, b2, hp, hl, hu, hpl, hm, -⟩ := removePosition_ok h
    refine ⟨[.positionRemoved env.now env.caller p.poolKey p.liquidity m.lower.index m.upper.index
      m.pool.sqrtPrice], ?_⟩
    simp only [stepLog, removePositionEvent, bind_ok_iff, pure_ok_iff, poolsGet_ok, ticksGet_ok]
    exact ⟨r, h, _, ⟨p, hp, lower, hl, upper, hu, pool, hpl, m, hm, rfl⟩, rfl⟩
  | swap k d a b l =>
    simp only [step, bind_ok_iff, pure_ok_iff] at h
    obtain ⟨r, h, rfl⟩ := h
    refine ⟨swapEvents env k d r.2, ?_⟩
    simp only [stepLog, bind_ok_iff, pure_ok_iff]
    exact ⟨r, h, rfl⟩
  | swapRoute a e sl hp =>
    simp only [step, swapRoute, bind_ok_iff, pure_ok_iff] at h
    obtain ⟨r, ⟨q, h1, m, h2, u, h3, rfl⟩, rfl⟩ := h
    have : ∀ hops s a q, routeSwap env hops s a = .ok q → ∃ evs, routeSwapLog env hops s a = .ok (q.1, q.2, evs) := by
      intro hops
      induction hops with
      | nil => intro s a q h; cases h; exact ⟨[], rfl⟩
      | cons hp t ih =>
        intro s a q h
        simp only [routeSwap, bind_ok_iff] at h
        obtain ⟨r, h1, h2⟩ := h
        obtain ⟨evs, h3⟩ := ih _ _ _ h2
        refine ⟨swapEvents env hp.key hp.xToY r.2 ++ evs, ?_⟩
        simp only [routeSwapLog, bind_ok_iff, pure_ok_iff]
        exact ⟨r, h1, _, h3, rfl⟩
    obtain ⟨evs, h4⟩ := this _ _ _ _ h1
    refine ⟨evs, ?_⟩
    simp only [stepLog, swapRouteLog, bind_ok_iff, pure_ok_iff]
    exact ⟨_, h4, m, h2, u, h3, rfl⟩
  | changeProtocolFee f => exact ⟨[], bind_ok_iff.2 ⟨_, h, rfl⟩⟩
  | addFeeTier f => exact ⟨[], bind_ok_iff.2 ⟨_, h, rfl⟩⟩
  | removeFeeTier f => exact ⟨[], bind_ok_iff.2 ⟨_, h, rfl⟩⟩
  | createPool => exact ⟨[], bind_ok_iff.2 ⟨_, h, rfl⟩⟩
  | changeFeeReceiver => exact ⟨[], bind_ok_iff.2 ⟨_, h, rfl⟩⟩
  | transferPosition => exact ⟨[], bind_ok_iff.2 ⟨_, h, rfl⟩⟩
  | claimFee => exact ⟨[], bind_ok_iff.2 ⟨_, h, rfl⟩⟩
  | withdrawProtocolFee => exact ⟨[], bind_ok_iff.2 ⟨_, h, rfl⟩⟩
  | depositVara => exact ⟨[], bind_ok_iff.2 ⟨_, h, rfl⟩⟩
  | withdrawVara => exact ⟨[], bind_ok_iff.2 ⟨_, h, rfl⟩⟩

theorem stepLog_eff (hi : TickIndexed s.ticks) {c : Call} {evs : List Event}
    (hc : ∀ a e sl h, c ≠ .swapRoute a e sl h) (h : stepLog env s c = .ok (s', evs)) : LogEff env s s' evs := by
  have quiet : ∀ (hc1 : ∀ k l u d a b, c ≠ .createPosition k l u d a b) (hc2 : ∀ i, c ≠ .removePosition i)
      (hc3 : ∀ k d a b l, c ≠ .swap k d a b l), evs = [] → LogEff env s s' evs := by
    rintro hc1 hc2 hc3 rfl
    have hs := stepLog_step h
    cases c with
    | changeProtocolFee f =>
      simp only [step, changeProtocolFee, bind_ok_iff, failIf_ok_iff, pure_ok_iff] at hs
      obtain ⟨_, ⟨_, ha, rfl⟩, rfl⟩ := hs
      exact .other f s.feeTiers s.balances
    | addFeeTier t =>
      simp only [step, addFeeTier, bind_ok_iff, failIf_ok_iff, pure_ok_iff] at hs
      obtain ⟨_, ⟨_, _, _, _, _, ha, l, _, rfl⟩, rfl⟩ := hs
      exact .other s.protocolFee l s.balances
    | removeFeeTier t =>
      simp only [step, removeFeeTier, bind_ok_iff, failIf_ok_iff, pure_ok_iff] at hs
      obtain ⟨_, ⟨_, ha, l, _, rfl⟩, rfl⟩ := hs
      exact .other s.protocolFee l s.balances
    | createPool x y t p i =>
      obtain ⟨h1, h2, _, h3, _, pool, h4, rfl⟩ := createPool_ok hs
      exact .newPool (k := ⟨min x y, max x y, t⟩) h1 h2 h3 h4
    | changeFeeReceiver k r =>
      obtain ⟨_, pool, hp, rfl⟩ := changeFeeReceiver_ok hs
      exact .poolField (b := s.balances) hp rfl
    | createPosition k l u d a b => exact absurd rfl (hc1 _ _ _ _ _ _)
    | removePosition i => exact absurd rfl (hc2 _)
    | transferPosition i r =>
      obtain ⟨ps, p, h1, rfl⟩ := transferPosition_ok hs
      exact .transfer h1
    | swap k d a b l => exact absurd rfl (hc3 _ _ _ _ _)
    | swapRoute a e sl hp => exact absurd rfl (hc a e sl hp)
    | claimFee i =>
      simp only [step, bind_ok_iff, pure_ok_iff] at hs
      obtain ⟨r, hs, rfl⟩ := hs
      exact .claim hs
    | withdrawProtocolFee k =>
      simp only [step, bind_ok_iff, pure_ok_iff] at hs
      obtain ⟨r, hs, rfl⟩ := hs
      obtain ⟨pool, _, _, hp, _, _, _, rfl⟩ := withdrawProtocolFee_ok hs
      exact .poolField hp rfl
    | depositVara =>
      simp only [step, bind_ok_iff, pure_ok_iff] at hs
      obtain ⟨r, hs, rfl⟩ := hs
      obtain ⟨b, _, rfl⟩ := depositVara_ok hs
      exact .other s.protocolFee s.feeTiers b
    | withdrawVara v =>
      simp only [step, bind_ok_iff, pure_ok_iff] at hs
      obtain ⟨r, hs, rfl⟩ := hs
      obtain ⟨b, e, _⟩ := withdrawVara_ok hs
      rw [e]
      exact .other s.protocolFee s.feeTiers b
  have nil : ∀ {m : M Inv}, (do let s' ← m; pure (s', ([] : List Event))) = .ok (s', evs) → evs = [] := by
    intro m hm
    rw [bind_ok_iff] at hm
    obtain ⟨_, _, hm⟩ := hm
    cases hm
    rfl
  cases c with
  | createPosition k l u d a b =>
    simp only [stepLog, bind_ok_iff, pure_ok_iff] at h
    obtain ⟨r, h1, e, h2, h⟩ := h
    cases h
    obtain ⟨pool, hp, rfl⟩ := createEvent_ok hi h2
    exact .create h1 hp
  | removePosition i =>
    simp only [stepLog, bind_ok_iff, pure_ok_iff] at h
    obtain ⟨r, h1, e, h2, h⟩ := h
    cases h
    obtain ⟨p, pool, hg, hp, rfl⟩ := removeEvent_ok hi h2
    exact .remove h1 hg hp
  | swap k d a b l =>
    simp only [stepLog, bind_ok_iff, pure_ok_iff] at h
    obtain ⟨r, h1, h⟩ := h
    cases h
    exact .swap h1
  | swapRoute a e sl hp => exact absurd rfl (hc a e sl hp)
  | _ => exact quiet (by simp) (by simp) (by simp) (nil h)

/-- an invariant of histories with their events need only be proved for the effects -/
theorem logged_ind {I : Inv → List Event → Prop} (hinit : ∀ a f, I (Inv.init a f) [])
    (htr : ∀ s b aw log, I s log → I { s with balances := b, awaiting := aw } log)
    (heff : ∀ env s s' log evs, Reach s → I s log → LogEff env s s' evs → I s' (log ++ evs)) :
    ∀ s log, Logged s log → Reach s ∧ I s log := by
  intro s log h
  induction h with
  | init a f => exact ⟨.init a f, hinit a f⟩
  | transfers _ hb ih => exact ⟨.transfers ih.1 hb, htr _ _ _ _ ih.2⟩
  | @call s s' env c log evs _ h ih =>
    obtain ⟨hr, ih⟩ := ih
    refine ⟨.call hr (stepLog_step h), ?_⟩
    by_cases hc : ∃ a e sl hp, c = .swapRoute a e sl hp
    · obtain ⟨a, e, sl, hp, rfl⟩ := hc
      simp only [stepLog, swapRouteLog, bind_ok_iff, pure_ok_iff] at h
      obtain ⟨q, h1, m, h2, u, h3, h⟩ := h
      cases h
      have : ∀ hops s a q log, routeSwapLog env hops s a = .ok q → Reach s → I s log → I q.1 (log ++ q.2.2) := by
        intro hops
        induction hops with
        | nil => intro s a q log h _ hI; cases h; simpa using hI
        | cons hp t ihh =>
          intro s a q log h hr hI
          simp only [routeSwapLog, bind_ok_iff, pure_ok_iff] at h
          obtain ⟨r, h1, q', h2, rfl⟩ := h
          have hr' : Reach r.1 := by
            refine .call (env := env) (c := .swap hp.key hp.xToY a true (hopLimit hp.xToY)) hr ?_
            simp only [step, bind_ok_iff, pure_ok_iff]
            exact ⟨r, h1, rfl⟩
          have := ihh r.1 _ _ (log ++ swapEvents env hp.key hp.xToY r.2) h2 hr' (heff _ _ _ _ _ hr hI (.swap h1))
          dsimp only
          rwa [← List.append_assoc]
      exact this _ _ _ _ _ h1 hr ih
    · push Not at hc
      exact heff env s s' log evs hr ih (stepLog_eff (reach_wf s hr).indexed hc h)

theorem logged_reach {log : List Event} (h : Logged s log) : Reach s :=
  (logged_ind (I := fun _ _ => True) (fun _ _ => trivial) (fun _ _ _ _ _ => trivial)
    (fun _ _ _ _ _ _ _ _ => trivial) s log h).1

/-- every history has its events -/
theorem reach_logged (h : Reach s) : ∃ log, Logged s log := by
  induction h with
  | init a f => exact ⟨[], .init a f⟩
  | call _ hs ih =>
    obtain ⟨log, hl⟩ := ih
    obtain ⟨evs, he⟩ := step_stepLog hs
    exact ⟨_, .call hl he⟩
  | transfers _ hb ih =>
    obtain ⟨log, hl⟩ := ih
    exact ⟨_, .transfers hl hb⟩

theorem logged32 {log : List Event} (h : Logged32 s log) : Logged s log ∧ Reach32 s := by
  induction h with
  | init a f => exact ⟨.init a f, .init a f⟩
  | call _ hs hf ih => exact ⟨.call ih.1 hs, .call ih.2 (stepLog_step hs) hf⟩
  | transfers _ hb ih => exact ⟨.transfers ih.1 hb, .transfers ih.2 hb⟩

/-! ### the totals -/

/-- the weighted liquidity of a position -/
def pW (w : PoolKey → Int → Int → Int) (p : Position) : Int :=
  w p.poolKey p.lowerTickIndex p.upperTickIndex * (p.liquidity : Int)

theorem held_eq (w : PoolKey → Int → Int → Int) (s : Inv) : held w s = posSum s.positions (pW w) := rfl

theorem tally_append (w : PoolKey → Int → Int → Int) (a b : List Event) :
    tally w (a ++ b) = tally w a + tally w b := by
  unfold tally
  rw [List.map_append, List.sum_append]

theorem tally_swapEvents (w : PoolKey → Int → Int → Int) (key : PoolKey) (d : Bool) (r : CalculateSwapResult) :
    tally w (swapEvents env key d r) = 0 := by
  unfold tally swapEvents
  dsimp only
  split <;> simp [eventWeight]

/-- the sum over a list of lost positions -/
def lostSum (w : PoolKey → Int → Int → Int) (lost : List Position) : Int := (lost.map (pW w)).sum

private theorem lost_add (w : PoolKey → Int → Int → Int) (ps : Positions) (a : ActorId) (p : Position)
    (lost : List Position) :
    posSum (ps.add a p) (pW w) + lostSum w ((overwritten ps a).toList ++ lost) =
      pW w p + posSum ps (pW w) + lostSum w lost := by
  have := posSum_add_any ps a p (pW w)
  unfold lostSum
  cases h : overwritten ps a with
  | none => rw [h] at this; simp at this ⊢; omega
  | some q => rw [h] at this; simp at this ⊢; omega

theorem pW_onBound (key : PoolKey) (i : Int) (p : Position) : pW (onBound key i) p = (gC key i p : Int) := by
  unfold pW onBound gC
  split <;> simp_all

theorem pW_onNet (key : PoolKey) (i : Int) (p : Position) : pW (onNet key i) p = nC key i p := by
  unfold pW onNet nC
  split
  · split <;> split <;> simp_all
  · simp_all

/-- the events count the stored positions and the lost ones, and the ticks agree with the events -/
structure TallyInv (s : Inv) (log : List Event) (lost : List Position) : Prop where
  sum : ∀ w, tally w log = held w s + lostSum w lost
  gross : ∀ key i, (tG s.ticks key i : Int) = tally (onBound key i) log
  net : ∀ key i, tN s.ticks key i = tally (onNet key i) log

private theorem net_zero {ps : Positions} {lost : List Position} {key : PoolKey} {i : Int}
    (h : posSum ps (pW (onBound key i)) + lostSum (onBound key i) lost = 0) :
    posSum ps (pW (onNet key i)) + lostSum (onNet key i) lost = 0 := by
  have h1 : ∀ l : List Position, 0 ≤ (l.map (pW (onBound key i))).sum ∧
      |(l.map (pW (onNet key i))).sum| ≤ (l.map (pW (onBound key i))).sum := by
    intro l
    induction l with
    | nil => simp
    | cons p l ih =>
      have h2 := nC_abs_le key i p
      rw [abs_le] at ih
      simp only [List.map_cons, List.sum_cons, pW_onBound key i p, pW_onNet key i p, abs_le]
      omega
  have e : ∀ w, posSum ps (pW w) = ((ps.map.entries.map Prod.snd).map (pW w)).sum := by
    intro w
    unfold posSum Map.sum
    rw [List.map_map]
    rfl
  have h2 := h1 lost
  have h3 := h1 (ps.map.entries.map Prod.snd)
  rw [e] at h ⊢
  unfold lostSum at h ⊢
  rw [abs_le] at h2 h3
  omega

theorem tally_step {log evs : List Event} {lost : List Position} (hr : Reach s) (hI : TallyInv s log lost)
    (he : LogEff env s s' evs) : ∃ new, TallyInv s' (log ++ evs) (new ++ lost) ∧
      (PosListed s → FewPositions s → new = []) := by
  have hw := reach_wf s hr
  have one : ∀ w e, tally w (log ++ [e]) = tally w log + eventWeight w e := by
    intro w e
    rw [tally_append]
    simp [tally]
  have none_over : ∀ a, PosListed s → overwritten s.positions a = none := by
    rintro a ⟨L, hL⟩
    unfold overwritten
    rw [(hL a).2, (hL a).1]
    simp
  cases he with
  | other => exact ⟨[], by simpa using ⟨hI.1, hI.2, hI.3⟩, fun _ _ => rfl⟩
  | newPool => exact ⟨[], by simpa using ⟨hI.1, hI.2, hI.3⟩, fun _ _ => rfl⟩
  | poolField => exact ⟨[], by simpa using ⟨hI.1, hI.2, hI.3⟩, fun _ _ => rfl⟩
  | @create key lower upper delta _ _ r pool h _ =>
    obtain ⟨pool, lt, ut, m, b, tm1, tm2, h, _⟩ := createPosition_full hw.indexed h
    have e : r.1.positions = s.positions.add env.caller m.position := by rw [h.res]
    have ep := h.mod.pos.eq
    have e1 : m.position.lowerTickIndex = lower := by rw [ep]
    have e2 : m.position.upperTickIndex = upper := by rw [ep]
    have e3 : m.position.poolKey = key := by rw [ep]
    have e4 : m.position.liquidity = delta := by have := (h.mod.pos.add rfl).1; simpa using this
    have ew : ∀ w n p, eventWeight w (.positionCreated env.now n key delta lower upper p) = pW w m.position := by
      intro w n p
      unfold pW eventWeight
      rw [e1, e2, e3, e4]
    refine ⟨(overwritten s.positions env.caller).toList, ⟨?_, ?_, ?_⟩, fun hl _ => by rw [none_over _ hl]; rfl⟩
    · intro w
      have := lost_add w s.positions env.caller m.position lost
      rw [one, hI.1, held_eq, held_eq, e, ew]
      omega
    · intro k i
      have := (create_ticks h k i).1
      rw [one, ← hI.2, ew, pW_onBound]
      omega
    · intro k i
      have := (create_ticks h k i).2
      rw [one, ← hI.3, ew, pW_onNet]
      omega
  | @remove i r p pool0 h hg _ =>
    obtain ⟨p', lower, upper, pool, m, ps, b, tm1, tm2, h, _⟩ := removePosition_full hw.indexed h
    have epp : p' = p := by
      have := h.get
      rw [hg] at this
      cases this
      rfl
    subst epp
    have hp := hw.pos _ _ (posGet_ok.1 h.get)
    have ht := remove_ticks (ne_of_lt hp.1.lt) h
    have e : r.1.positions = ps := by rw [h.res]
    have hsum : ∀ w, tally w (log ++ [.positionRemoved env.now env.caller p'.poolKey p'.liquidity p'.lowerTickIndex
        p'.upperTickIndex pool0.sqrtPrice]) = held w r.1 + lostSum w lost := by
      intro w
      have := posSum_remove_any h.rem (pW w)
      rw [one, hI.1, held_eq, held_eq, e, this]
      unfold eventWeight
      dsimp only
      rw [show w p'.poolKey p'.lowerTickIndex p'.upperTickIndex * (p'.liquidity : Int) = pW w p' from rfl]
      omega
    have hgr : ∀ k j, (tG r.1.ticks k j : Int) = tally (onBound k j) (log ++ [.positionRemoved env.now env.caller
        p'.poolKey p'.liquidity p'.lowerTickIndex p'.upperTickIndex pool0.sqrtPrice]) := by
      intro k j
      have h1 := (ht k j).1
      rw [one, ← hI.2, h1]
      unfold eventWeight
      dsimp only
      rw [show onBound k j p'.poolKey p'.lowerTickIndex p'.upperTickIndex * (p'.liquidity : Int) =
        pW (onBound k j) p' from rfl, pW_onBound]
      omega
    refine ⟨[], ⟨?_, ?_, ?_⟩, fun _ _ => rfl⟩
    · exact hsum
    · exact hgr
    · intro k j
      rcases (ht k j).2 with h1 | h1
      · have h2 := hgr k j
        rw [tG_none h1, hsum] at h2
        rw [tN_none h1, hsum, held_eq]
        exact (net_zero h2.symm).symm
      · rw [one, ← hI.3, h1]
        unfold eventWeight
        dsimp only
        rw [show onNet k j p'.poolKey p'.lowerTickIndex p'.upperTickIndex * (p'.liquidity : Int) =
          pW (onNet k j) p' from rfl, pW_onNet]
        omega
  | @claim _ r h =>
    obtain ⟨p, lower, upper, pool, m, ps, b, h, _⟩ := claimFee_full hw.indexed h
    have ep := h.mod.pos.eq
    have e1 : m.position.lowerTickIndex = p.lowerTickIndex := by rw [ep]
    have e2 : m.position.upperTickIndex = p.upperTickIndex := by rw [ep]
    have e3 : m.position.poolKey = p.poolKey := by rw [ep]
    have e4 : m.position.liquidity = p.liquidity := (h.mod.pos.add rfl).1
    have e : r.1.positions = ps := by rw [h.res]
    refine ⟨[], ⟨?_, ?_, ?_⟩, fun _ _ => rfl⟩
    · intro w
      rw [List.append_nil, hI.1, held_eq, held_eq, e, posSum_same h.get h.upd]
      · rfl
      · unfold pW; rw [e1, e2, e3, e4]
    · intro k i
      rw [List.append_nil, ← hI.2, (claim_ticks h k i).1]
    · intro k i
      rw [List.append_nil, ← hI.3, (claim_ticks h k i).2]
  | @transfer i dest ps p h =>
    refine ⟨(overwritten ps dest).toList, ⟨?_, ?_, ?_⟩, ?_⟩
    · intro w
      have h1 := lost_add w ps dest p lost
      have h2 := posSum_remove_any h (pW w)
      rw [List.append_nil, hI.1, held_eq, held_eq, h2]
      dsimp only
      omega
    · intro k i; rw [List.append_nil]; exact hI.2 k i
    · intro k i; rw [List.append_nil]; exact hI.3 k i
    · rintro ⟨L, hL⟩ hf
      have len : ∀ a, (L a).length < 2 ^ 32 := fun a => by
        rw [listed_len hL]; exact Nat.lt_of_succ_lt (hf a)
      have hg := posGet_ok.1 (remove_get h)
      rw [(hL _).2] at hg
      obtain ⟨ps', e, hps⟩ := (posRepr_remove hL (len env.caller) _).1 _ hg
      rw [h] at e
      cases e
      unfold overwritten
      rw [(hps dest).2, (hps dest).1]
      simp
  | swap h =>
    have e := swap_positions h
    have ht := same_ticks (swap_ticksSame hw.indexed h)
    refine ⟨[], ⟨?_, ?_, ?_⟩, fun _ _ => rfl⟩
    · intro w
      rw [tally_append, tally_swapEvents, hI.1, held_eq, held_eq, e]
      simp
    · intro k i
      rw [tally_append, tally_swapEvents, ← hI.2, (ht k i).1]
      simp
    · intro k i
      rw [tally_append, tally_swapEvents, ← hI.3, (ht k i).2]
      simp

private theorem tally_init (a : ActorId) (f : Nat) : TallyInv (Inv.init a f) [] [] :=
  ⟨fun _ => rfl, fun _ _ => rfl, fun _ _ => rfl⟩

theorem logged_tally {log : List Event} (h : Logged s log) : ∃ lost, TallyInv s log lost := by
  refine (logged_ind (I := fun s log => ∃ lost, TallyInv s log lost) ?_ ?_ ?_ s log h).2
  · intro a f; exact ⟨[], tally_init a f⟩
  · rintro s b aw log ⟨lost, hI⟩; exact ⟨lost, hI.1, hI.2, hI.3⟩
  · rintro env s s' log evs hr ⟨lost, hI⟩ he
    obtain ⟨new, h, _⟩ := tally_step hr hI he
    exact ⟨_, h⟩

end Verif
