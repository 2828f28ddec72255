import Verif.Spec.Idle
import Verif.Props.Storage
import Verif.Props.Authority
import Verif.Props.Active
import Verif.Props.Exploit
import Verif.Props.Paid

/-!
# C123: a pool without positions stands still

There is nobody to trade with, so every order is refused, and nothing moves the price until somebody opens a position.
This presupposes that the pool's liquidity is right, that is zero; the finding about swaps that end at a tick (C34) makes
it wrong, and then the program trades though nobody offers anything (`C123_negation`).
-/

namespace Verif
open Service Spec

namespace Standing

variable {s t s' : Inv} {key : PoolKey} {env : Env} {xToY byIn : Bool} {amount limit now : Nat} {pool : Pool}

/-- without liquidity and ticks nothing is traded -/
theorem no_trade (hp : s.pools.get key = some pool) (h0 : pool.liquidity = 0) (ht : ∀ i, s.ticks.get (key, i) = none)
    {r : CalculateSwapResult} : calculateSwap s now key xToY amount byIn limit ≠ .ok r := by
  intro h
  obtain ⟨st, h1, _, h2, _⟩ := calculateSwap_ind (P := fun st => st.pool.liquidity = 0 ∧ st.totalOut = 0) h hp ⟨h0, rfl⟩ (by
    rintro st st' ⟨hl, ho⟩ _ hi
    obtain ⟨target, info, rr, remaining, pl, tick, u, hi⟩ := swapIter_ok hi
    have hstep := hi.step
    rw [hl, computeSwapStep_zero] at hstep
    cases hstep
    have hpl := addFee_full hi.fee
    have hl' : pl.liquidity = 0 := by rw [hpl.2]; exact hl
    have htick : ∀ t, tick ≠ .initialized t := by
      rintro t rfl
      have := hi.htick
      unfold limitingTick at this
      split at this
      · simp only [bind_ok_iff, ticksGet_ok, pure_ok_iff] at this
        obtain ⟨_, h3, _⟩ := this
        rw [ht] at h3
        cases h3
      · cases this
      · cases this
    rw [hi.res]
    refine ⟨?_, by simpa using ho⟩
    dsimp only
    cases hi.upd with
    | inside => exact hl'
    | uninit => exact hl'
    | cross ht => exact absurd ht (htick _)
    | dust ht => exact absurd ht (htick _)
    | drop ht => exact absurd ht (htick _)
    | done ht => exact absurd ht (htick _))
  exact h2 h1.2

theorem no_swap (hp : s.pools.get key = some pool) (h0 : pool.liquidity = 0) (ht : ∀ i, s.ticks.get (key, i) = none)
    {r : Inv × CalculateSwapResult} : swap env s key xToY amount byIn limit ≠ .ok r := by
  intro h
  obtain ⟨_, _, _, h1, _⟩ := swap_ok h
  exact no_trade hp h0 ht h1

/-- the pool is as it was, and nothing can be traded in it -/
structure Still (key : PoolKey) (pool : Pool) (t : Inv) : Prop where
  pool : ∃ q, t.pools.get key = some q ∧ Stands pool q
  ticks : ∀ i, t.ticks.get (key, i) = none

theorem still_same {x y : Inv} (h : Still key pool x) (e : Spec.PoolSame key x y) : Still key pool y :=
  ⟨by rw [e.pool]; exact h.pool, fun i => by rw [e.tick]; exact h.ticks i⟩

theorem still_noswap (h : Still key pool s) (h0 : pool.liquidity = 0) {r : Inv × CalculateSwapResult} :
    swap env s key xToY amount byIn limit ≠ .ok r := by
  obtain ⟨q, hq, e⟩ := h.pool
  exact no_swap hq (by rw [e]; exact h0) h.ticks

theorem still_swap (h0 : pool.liquidity = 0) (h : Still key pool s) {k : PoolKey} {r : Inv × CalculateSwapResult}
    (hs : swap env s k xToY amount byIn limit = .ok r) : Still key pool r.1 := by
  by_cases hk : k = key
  · subst hk
    exact absurd hs (still_noswap h h0)
  · refine still_same h (C49_pools (env := env) (c := .swap k xToY amount byIn limit) ?_ key ?_)
    · simp only [step, bind_ok_iff, pure_ok_iff]
      exact ⟨r, hs, rfl⟩
    · simp only [touched, List.mem_singleton]
      exact fun e => hk e.symm

theorem still_effect {sw : Prop} (h0 : pool.liquidity = 0) (hd : Deserted key s) (hd' : Deserted key s')
    (h : Still key pool s) (he : EffectIf sw env s s') : Still key pool s' := by
  cases he with
  | other => exact ⟨h.pool, h.ticks⟩
  | @newPool k p _ _ _ _ _ hn =>
    obtain ⟨q, hq, e⟩ := h.pool
    refine ⟨⟨q, ?_, e⟩, h.ticks⟩
    dsimp only
    rw [Map.get_insert_ne _ _ (by rintro rfl; rw [hq] at hn; cases hn), hq]
  | @poolField k p q' _ hp hq' =>
    obtain ⟨q, hq, e⟩ := h.pool
    by_cases hk : key = k
    · subst hk
      rw [hp] at hq
      cases hq
      refine ⟨⟨q', Map.get_insert_self _ _ _, ?_⟩, h.ticks⟩
      unfold Stands at e ⊢
      rw [hq', e]
    · refine ⟨⟨q, ?_, e⟩, h.ticks⟩
      dsimp only
      rw [Map.get_insert_ne _ _ hk, hq]
  | @create k lower upper delta ll lu r hc =>
    refine still_same h (C49_pools (env := env) (c := .createPosition k lower upper delta ll lu) ?_ key ?_)
    · simp only [step, bind_ok_iff, pure_ok_iff]
      exact ⟨r, hc, rfl⟩
    · simp only [touched, List.mem_singleton]
      rintro rfl
      obtain ⟨_, _, _, lt, ut, m, _, _, s2, _, _, _, hm, _, _, h1, h2, _⟩ := createPosition_ok hc
      have e3 : m.position.poolKey = key := by rw [(create_full hm).2.2.pos.eq]
      refine hd' env.caller (s.positions.getLength env.caller) m.position (posGet_ok.2 ?_) e3
      rw [(putTick_other h2).2.2, (putTick_other h1).2.2]
      exact Map.get_insert_self _ _ _
  | @remove i r hc =>
    refine still_same h (C49_pools (env := env) (c := .removePosition i) ?_ key ?_)
    · simp only [step, bind_ok_iff, pure_ok_iff]
      exact ⟨r, hc, rfl⟩
    · simp only [touched, Option.mem_toList, Option.map_eq_some_iff]
      rintro ⟨p, hp, e⟩
      exact hd _ _ p (posGet_ok.2 hp) e
  | @claim i r hc =>
    refine still_same h (C49_pools (env := env) (c := .claimFee i) ?_ key ?_)
    · simp only [step, bind_ok_iff, pure_ok_iff]
      exact ⟨r, hc, rfl⟩
    · simp only [touched, Option.mem_toList, Option.map_eq_some_iff]
      rintro ⟨p, hp, e⟩
      exact hd _ _ p (posGet_ok.2 hp) e
  | transfer => exact ⟨h.pool, h.ticks⟩
  | swap hs => exact still_swap h0 h hs

theorem still_step {c : Call} (h0 : pool.liquidity = 0) (hd : Deserted key s) (hd' : Deserted key s')
    (h : Still key pool s) (hs : step env s c = .ok s') : Still key pool s' := by
  by_cases hc : ∃ a e sl hp, c = .swapRoute a e sl hp
  · obtain ⟨a, e, sl, hp, rfl⟩ := hc
    simp only [step, bind_ok_iff, pure_ok_iff] at hs
    obtain ⟨r, hs, rfl⟩ := hs
    exact route_induction (env := env) (R := fun x y => Still key pool x → Still key pool y) (fun _ => id)
      (fun _ _ _ f g => g ∘ f) (fun _ _ _ _ _ _ hr hx => still_swap h0 hx hr) hp s a r (swapRoute_ok hs).1 h
  · push Not at hc
    exact still_effect h0 hd hd' h (step_effectIf hc hs)

theorem liquidity_zero (hd : Deserted key s) {i : Int} : activeLiq s key i = 0 := by
  unfold activeLiq
  refine (Map.sum_congr (g := fun _ _ => 0) fun k p hp => ?_).trans ?_
  · rw [if_neg]
    exact fun e => hd k.1 k.2 p (posGet_ok.2 hp) e.1
  · exact Map.sum_zero _

theorem still_start (hr : Reach32 s) (hd : Deserted key s) (hp : s.pools.get key = some pool) : Still key pool s := by
  have hk := ((reach_tiers (reach32_reach s hr).1).pools key (by rw [hp]; rfl)).1.1
  exact ⟨⟨pool, hp, rfl⟩, fun i => (Stored.C97_empty_partial hr hk hd i).1⟩

theorem still_idle (hr : Reach32 s) (hd : Deserted key s) (hp : s.pools.get key = some pool) (h0 : pool.liquidity = 0)
    (h : Idle key s t) : Deserted key t ∧ Still key pool t := by
  induction h with
  | start => exact ⟨hd, still_start hr hd hp⟩
  | call _ hs hd' ih => exact ⟨hd', still_step h0 ih.1 hd' ih.2 hs⟩
  | transfers _ ih => exact ⟨ih.1, ih.2.pool, ih.2.ticks⟩

theorem still_route (h0 : pool.liquidity = 0) {hops : List SwapHop} (hk : key ∈ hops.map (·.key)) :
    ∀ {s : Inv} {a : Nat} {r : Inv × Nat}, Still key pool s → routeSwap env hops s a ≠ .ok r := by
  induction hops with
  | nil => cases hk
  | cons hp l ih =>
    intro s a r hs h
    simp only [routeSwap, bind_ok_iff] at h
    obtain ⟨x, h1, h2⟩ := h
    by_cases e : hp.key = key
    · rw [e] at h1
      exact still_noswap hs h0 h1
    · refine ih ?_ (still_swap h0 hs h1) h2
      simp only [List.map_cons, List.mem_cons] at hk
      rcases hk with hk | hk
      · exact absurd hk.symm e
      · exact hk

/-- C123, orders: as long as nobody has a position in a pool, every swap, quote and route through it is refused. Full
statement: the same without `hl`, which says that the pool's liquidity is the one of the positions in range; see
`C123_negation`. -/
theorem C123_refused_partial (hr : Reach32 s) (hd : Deserted key s) (hp : s.pools.get key = some pool)
    (hl : pool.liquidity = activeLiq s key pool.currentTickIndex) (h : Idle key s t) :
    (∀ env xToY amount byIn limit r, swap env t key xToY amount byIn limit ≠ .ok r) ∧
    (∀ now xToY amount byIn limit r, quote t now key xToY amount byIn limit ≠ .ok r) ∧
    (∀ env a e sl hops r, key ∈ hops.map SwapHop.key → swapRoute env t a e sl hops ≠ .ok r) := by
  have h0 : pool.liquidity = 0 := hl.trans (liquidity_zero hd)
  obtain ⟨_, hs⟩ := still_idle hr hd hp h0 h
  refine ⟨fun env xToY amount byIn limit r => still_noswap hs h0, fun now xToY amount byIn limit r hq => ?_,
    fun env a e sl hops r hk hq => still_route h0 hk hs (swapRoute_ok hq).1⟩
  unfold quote at hq
  simp only [bind_ok_iff] at hq
  obtain ⟨x, hq, _⟩ := hq
  obtain ⟨q, hq', e⟩ := hs.pool
  exact no_trade hq' (by rw [e]; exact h0) hs.ticks hq

/-- C123, the pool: it stays as it is, with its price, and has no ticks. Only the receiver of fees and the fees to be
collected can change. -/
theorem C123_still_partial (hr : Reach32 s) (hd : Deserted key s) (hp : s.pools.get key = some pool)
    (hl : pool.liquidity = activeLiq s key pool.currentTickIndex) (h : Idle key s t) :
    (∃ q, t.pools.get key = some q ∧ Stands pool q) ∧ ∀ i, t.ticks.get (key, i) = none := by
  obtain ⟨_, hs⟩ := still_idle hr hd hp (hl.trans (liquidity_zero hd)) h
  exact ⟨hs.pool, hs.ticks⟩

/-- C123 for histories in which no swap ends near a tick: the pool stands still and nothing is traded. -/
theorem C123_clear_partial (hc : Clear s) (hd : Deserted key s) (hp : s.pools.get key = some pool) (h : Idle key s t) :
    (∃ q, t.pools.get key = some q ∧ Stands pool q) ∧
    ∀ env xToY amount byIn limit r, swap env t key xToY amount byIn limit ≠ .ok r :=
  ⟨(C123_still_partial (clear_reach32 s hc) hd hp (C34_clear_partial hc hp) h).1,
    (C123_refused_partial (clear_reach32 s hc) hd hp (C34_clear_partial hc hp) h).1⟩

/-- C123, the other side of a trade: whenever a swap is executed, somebody has a position whose range contains a part of the
way that the price went. (Full statement: for all histories and swaps; see `C123_negation`.) -/
theorem C123_counterparty_partial (hc : Clear s) {r : Inv × CalculateSwapResult}
    (h : swap env s key xToY amount byIn limit = .ok r) (hn : ¬ Near s key xToY byIn limit r.2.targetSqrtPrice)
    (hp : s.pools.get key = some pool) :
    ∃ a n p pl pu, s.positions.get a n = .ok p ∧ p.poolKey = key ∧ calculateSqrtPrice p.lowerTickIndex = .ok pl ∧
      calculateSqrtPrice p.upperTickIndex = .ok pu ∧ pl < max pool.sqrtPrice r.2.targetSqrtPrice ∧
      min pool.sqrtPrice r.2.targetSqrtPrice < pu := by
  by_contra hno
  push Not at hno
  have hout := (C79_paid_partial hc h hn hp).2
  have heq : curveHeld (!xToY) s key r.2.targetSqrtPrice = curveHeld (!xToY) s key pool.sqrtPrice := by
    unfold curveHeld
    refine Map.sum_congr fun k q hq => ?_
    by_cases hk : q.poolKey = key
    · rw [if_pos hk, if_pos hk]
      unfold curveHeldBy
      split
      · next pl pu h1 h2 =>
        have := hno k.1 k.2 q pl pu (posGet_ok.2 hq) hk h1 h2
        have e : max pl (min r.2.targetSqrtPrice pu) = max pl (min pool.sqrtPrice pu) := by omega
        rw [e]
      · rfl
    · rw [if_neg hk, if_neg hk]
  rw [heq, sub_self] at hout
  obtain ⟨_, _, _, h1, _⟩ := swap_ok h
  obtain ⟨_, st, _, _, _, _, _, h2, e⟩ := calculateSwap_ok h1
  rw [e] at hout
  have : (0 : ℚ) < st.totalOut := by exact_mod_cast Nat.pos_of_ne_zero h2
  dsimp only at hout
  linarith

/-! ### the negation -/

open Exploit in
/-- user 2 has bought exactly up to tick 10 and removed the only position there is -/
def left : Inv := run (by_ 2) s2 (.removePosition 0)

private theorem reach32_credited (h : Reach32 s) (t a : ActorId) (n : Nat) : Reach32 (Exploit.credited s t a n) := by
  unfold Exploit.credited
  split
  · rename_i b hi
    exact .transfers (aw := s.awaiting) h (balWF_inc (reach_balWF (reach32_reach s h).1) hi)
  · exact h

private theorem reach32_run (h : Reach32 s) {c : Call}
    (hf : (run env s c).positions.length.entries.all (fun e => decide (e.2 + 1 < 2 ^ 32)) = true) : Reach32 (run env s c) := by
  have hf := few_of_all hf
  unfold run at hf ⊢
  split
  · next s' hs =>
    rw [hs] at hf
    exact .call h hs hf
  · exact h

open Exploit in
theorem left_reach : Reach32 left := by
  have h0 : Reach32 s0 :=
    reach32_credited (reach32_credited (reach32_credited (.init 1 0) 5 2 (10 ^ 6)) 7 2 (10 ^ 9)) 5 3 (10 ^ 9)
  have h1 := reach32_run h0 (env := by_ 1) (c := .addFeeTier tier) (by decide +kernel)
  have h2 := reach32_run h1 (env := by_ 2) (c := .createPool 5 7 tier (10 ^ 24) 0) (by decide +kernel)
  have h3 := reach32_run h2 (env := by_ 2) (c := .createPosition key 0 10 (10 ^ 14) 0 (10 ^ 25)) (by decide +kernel)
  have h4 := reach32_run h3 (env := by_ 2) (c := .swap key false 500101 true p10) (by decide +kernel)
  have h5 := reach32_run h4 (env := by_ 2) (c := .removePosition 0) (by decide +kernel)
  unfold left s2 s1
  simp only [runAll]
  exact h5

theorem left_empty : left.positions.map.entries = [] := by decide +kernel

/-- C123 as stated is false: nobody has any position in any pool, and yet user 2 buys 90822353 of token 5. They are taken
from the deposit of user 3, who has not done anything else: the program then owes more than it holds. -/
theorem C123_negation : ∃ s held, Books s held ∧ Reach32 s ∧ (∀ a n p, s.positions.get a n ≠ .ok p) ∧ held 5 ≤ 10 ^ 6 + 10 ^ 9 ∧
    ∃ r, swap (Exploit.by_ 2) s Exploit.key false (10 ^ 8) true (2 * 10 ^ 24) = .ok r ∧ r.2.amountOut = 90822353 ∧
    held 5 < totalBal r.1 5 := by
  obtain ⟨held, hb, h5⟩ := s0_books
  have hbooks : Books left held :=
    books_run (books_run (books_runAll _ (by simp [NoVara]) hb) _ _ (by simp [NoVara])) _ _ (by simp [NoVara])
  refine ⟨left, held, hbooks, left_reach, ?_, h5, ?_⟩
  · intro a n p h
    have := (Map.get_mem _ _ _).1 (posGet_ok.1 h)
    rw [left_empty] at this
    cases this
  · have h1 : (swap (Exploit.by_ 2) left Exploit.key false (10 ^ 8) true (2 * 10 ^ 24)).toOption.map
        (fun r => (r.2.amountOut, totalBal r.1 5)) = some (90822353, 1091822352) := by decide +kernel
    cases hx : swap (Exploit.by_ 2) left Exploit.key false (10 ^ 8) true (2 * 10 ^ 24) with
    | error e => rw [hx] at h1; cases h1
    | ok r =>
      rw [hx] at h1
      injection h1 with h1
      simp only [Prod.mk.injEq] at h1
      exact ⟨r, rfl, h1.1, by rw [h1.2]; omega⟩

/-! ### an example -/

/-- the only position of the second pool of the demo is removed in time -/
private def closed : Inv := run (Demo.by_ 3) Demo.start (.removePosition 1)

/-- before that a swap is executed, after that it is refused, and the price is the same; the other pool trades on -/
example :
    (swap (Demo.by_ 2) Demo.start Demo.key2 true (10 ^ 6) true MIN_SQRT_PRICE).toBool = true ∧
    (closed.pools.get Demo.key2).map (fun p => (p.liquidity, p.sqrtPrice)) = some (0, 10 ^ 24) ∧
    (swap (Demo.by_ 2) closed Demo.key2 true (10 ^ 6) true MIN_SQRT_PRICE).toBool = false ∧
    ((run (Demo.by_ 2) closed (.swap Demo.key true (10 ^ 6) true MIN_SQRT_PRICE)).pools.get Demo.key2).map
      (fun p => (p.liquidity, p.sqrtPrice)) = some (0, 10 ^ 24) ∧
    (swap (Demo.by_ 2) closed Demo.key true (10 ^ 6) true MIN_SQRT_PRICE).toBool = true := by
  decide +kernel

/-- the swap goes down from `10^24` through the range of the first position of user 3, which ends at `999500149965 * 10^12` -/
example :
    (swap (Demo.by_ 2) Demo.start Demo.key true (22 * 10 ^ 6) true MIN_SQRT_PRICE).toOption.map
      (fun r => r.2.targetSqrtPrice) = some 999302984359663232683739 ∧
    (Demo.start.pools.get Demo.key).map (·.sqrtPrice) = some (10 ^ 24) ∧
    (Demo.start.positions.get 3 0).toOption.map (fun p => (p.poolKey, p.lowerTickIndex, p.upperTickIndex)) =
      some (Demo.key, -10, 10) ∧
    calculateSqrtPrice (-10) = .ok 999500149965000000000000 ∧ calculateSqrtPrice 10 = .ok 1000500100010000000000000 := by
  decide +kernel

end Standing
end Verif
