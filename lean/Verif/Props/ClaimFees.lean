import Verif.Proofs.Solvent
import Verif.Props.Solvent
import Verif.Spec.Accrued

/-!
# Property C54: claimed fees come from fees paid

False of the code: a swap that ends exactly at an initialised tick can leave that tick uncrossed although
the current tick moves past it. The growth inside the ranges ending there then jumps backwards, and by the
wrap-around of the accumulators a claim pays about 2^128 units of growth (`C54_negation`). Here also: it
holds for all other swaps.
-/

set_option exponentiation.threshold 1000

namespace Verif
open Service Spec

variable {env : Env} {s s' : Inv}

/-- C54, one swap (full statement: for every swap; refuted by `C54_negation`): if a swap does not end near
an initialised tick (`Near`), then it is a sequence of fee additions, crossings
and moves in the sense of C10, with growth only in the token paid in. Hence the growth inside every range
of two initialised ticks advances exactly by what was added while the price was in the range. -/
theorem C54_swap_partial (hr : Reach s) {key : PoolKey} {pool : Pool} {xToY byIn : Bool} {amount limit : Nat}
    {r : Inv × CalculateSwapResult} (h : Service.swap env s key xToY amount byIn limit = .ok r)
    (hp : s.pools.get key = some pool) (hn : ¬ Near s key xToY byIn limit r.2.targetSqrtPrice) (lo hi : Int) :
    ∃ gx gy, FeeHist lo hi (world s key pool) (world r.1 key r.2.pool) gx gy ∧
      (if xToY then gy = 0 else gx = 0) ∧
      ∀ ix iy, lo < hi → (world s key pool).insideX lo hi = some ix → (world s key pool).insideY lo hi = some iy →
        (world r.1 key r.2.pool).insideX lo hi = some ((ix + gx) % 2 ^ 128) ∧
        (world r.1 key r.2.pool).insideY lo hi = some ((iy + gy) % 2 ^ 128) := by
  have hw := reach_wf s hr
  have hacc := reach_acc s hr
  obtain ⟨ticks, b1, b2, h1, h2, _, _, e⟩ := swap_ok h
  obtain ⟨⟨hs1, hs2, _⟩, _⟩ := (reach_tiers hr).pools key (by rw [hp]; rfl)
  obtain ⟨st, ⟨gx, gy, hh, hg⟩, _, _, er⟩ := swap_far_ind hw ⟨hs1, hs2⟩ h1 hp (reach_agree s hr _ _ hp) hn
    (P := fun st => ∃ gx gy, FeeHist lo hi (world s key pool) (vworld s ⟨key, xToY, byIn, limit, env.now⟩ st) gx gy ∧
      (if xToY then gy = 0 else gx = 0))
    ⟨0, 0, .refl, by simp⟩
    (by
      rintro st st' target sr dust p1 p2 ⟨gx, gy, hh, hg⟩ _ hb _ _ hm
      refine ⟨_, _, hh.trans (iter_hist hb hm lo hi), ?_⟩
      cases xToY <;> simp_all)
  have ev : vworld s ⟨key, xToY, byIn, limit, env.now⟩ st = world r.1 key r.2.pool := by
    unfold vworld world
    rw [er, e, updateTicks_eq _ _ _ h2, er]
  rw [ev] at hh
  refine ⟨gx, gy, hh, hg, fun ix iy hlt hx hy => C10_history hh ?_ hlt hx hy⟩
  exact ⟨(hacc.pool _ _ hp).1, (hacc.pool _ _ hp).2, fun i t ht =>
    ⟨hw.indexed _ _ _ ht, (hacc.tick _ _ ht).1, (hacc.tick _ _ ht).2⟩⟩

/-! ### the fees of all positions -/

/-- the same sum in terms of the helper functions -/
private def feesIn (ps : Positions) (key : PoolKey) (tok : Bool) (w : FeeWorld) : ℚ :=
  posSum ps fun q => if q.poolKey = key then grown tok w q * q.liquidity / 10 ^ 33 else 0

private theorem accrued_eq {key : PoolKey} {q : Position} {w : FeeWorld} (hw : w.WF) (hq : PosIn s key q)
    (tok : Bool) : accrued tok w q = grown tok w q * q.liquidity / 10 ^ 33 := by
  unfold accrued grown
  cases hi : insideOf tok w q with
  | none =>
    unfold insideOf at hi
    rw [hi]; simp
  | some i =>
    have lt := inside_lt hw hi
    unfold insideOf at hi
    rw [hi]
    dsimp only
    have hs : snapOf tok q < 2 ^ 128 := by
      unfold snapOf
      cases tok
      · exact hq.accY
      · exact hq.accX
    rw [fgSub_eq lt hs, ← Nat.add_sub_assoc hs.le]
    rfl

private theorem poolAccrued_eq {key : PoolKey} {pool : Pool} (hw : (world s key pool).WF)
    (hps : ∀ k q, s.positions.map.get k = some q → q.poolKey = key → PosIn s key q) (tok : Bool) :
    poolAccrued s key pool tok = feesIn s.positions key tok (world s key pool) := by
  unfold poolAccrued feesIn posSum
  refine Map.sum_congr fun k q hq => ?_
  dsimp only
  by_cases hk : q.poolKey = key
  · rw [if_pos hk, if_pos hk, accrued_eq hw (hps k q hq hk)]
  · rw [if_neg hk, if_neg hk]

private theorem iter_feesIn {a : SwapArgs} {st st' : SwapState} {target dust : Nat} {r : SwapResult} {p1 p2 : Pool}
    (hps : ∀ k q, s.positions.map.get k = some q → q.poolKey = a.key → PosIn s a.key q)
    (hb : Behind s a st) (hw : (vworld s a st).WF) (h : IterMove s a st st' target r dust p1 p2) (tok : Bool) :
    feesIn s.positions a.key tok (vworld s a st') ≤ feesIn s.positions a.key tok (vworld s a st) +
      activeLiq s a.key st.pool.currentTickIndex *
        ((if a.xToY = tok then (iterGrowth s st r dust : ℚ) else 0) / 10 ^ 33) := by
  rw [activeLiq_eq, posSum_cast, ← posSum_mul]
  unfold feesIn posSum
  rw [← Map.sum_add]
  apply Map.sum_le_sum
  intro k q hq
  unfold aC
  by_cases hk : q.poolKey = a.key
  · have h1 := iter_grown (hps k q hq hk) hb hw h tok
    have h2 : (grown tok (vworld s a st') q : ℚ) ≤ grown tok (vworld s a st) q +
        if InPos st.pool q ∧ a.xToY = tok then (iterGrowth s st r dust : ℚ) else 0 := by exact_mod_cast h1
    unfold InPos at h2
    simp only [hk, if_true, true_and]
    have h3 := mul_le_mul_of_nonneg_right h2 (Nat.cast_nonneg (α := ℚ) q.liquidity)
    rw [div_le_iff₀ (by positivity)]
    refine h3.trans (le_of_eq ?_)
    by_cases c1 : q.lowerTickIndex ≤ st.pool.currentTickIndex ∧ st.pool.currentTickIndex < q.upperTickIndex
    · by_cases c2 : a.xToY = tok
      · rw [if_pos ⟨c1, c2⟩, if_pos c2, if_pos c1]
        field_simp
      · rw [if_neg (fun c => c2 c.2), if_neg c2]
        field_simp
        ring
    · rw [if_neg (fun c => c1 c.1), if_neg c1]
      field_simp
      simp
  · simp [hk]

/-- C54, all positions of a pool (full statement: for every swap in every reachable state; refuted by `C54_negation`):
in histories with the right liquidity counter, a swap that does not end near an initialised tick adds to the fees of
all positions and of the protocol together at most what the trader paid, and nothing in the other token. -/
theorem C54_accrued_partial (hc : Clear s) {key : PoolKey} {pool : Pool} {xToY byIn : Bool} {amount limit : Nat}
    {r : Inv × CalculateSwapResult} (h : Service.swap env s key xToY amount byIn limit = .ok r)
    (hp : s.pools.get key = some pool) (hn : ¬ Near s key xToY byIn limit r.2.targetSqrtPrice) :
    poolAccrued r.1 key r.2.pool xToY + (if xToY then r.2.pool.feeProtocolTokenX else r.2.pool.feeProtocolTokenY) ≤
      poolAccrued s key pool xToY + (if xToY then pool.feeProtocolTokenX else pool.feeProtocolTokenY) +
        r.2.amountIn ∧
    poolAccrued r.1 key r.2.pool (!xToY) ≤ poolAccrued s key pool (!xToY) := by
  have hr := clear_reach32 s hc
  have hr' := clear_reach32 _ (.swap hc h hn)
  have hre := (reach32_reach s hr).1
  have hw := reach_wf s hre
  have hl := reach32_ledger s hr
  have wf : ∀ {s : Inv} {key : PoolKey} {pool : Pool}, Reach s → s.pools.get key = some pool →
      (world s key pool).WF := by
    intro s key pool hre hp
    have hacc := reach_acc s hre
    exact ⟨(hacc.pool _ _ hp).1, (hacc.pool _ _ hp).2, fun i t ht =>
      ⟨(reach_wf s hre).indexed _ _ _ ht, (hacc.tick _ _ ht).1, (hacc.tick _ _ ht).2⟩⟩
  have hpsIn : ∀ {s : Inv}, Reach32 s → ∀ k q, s.positions.map.get k = some q → q.poolKey = key →
      PosIn s key q := fun hr k q hq hk => by have := stored_posIn hr hq; rwa [hk] at this
  obtain ⟨ticks, b1, b2, h1, h2, _, _, e⟩ := swap_ok h
  obtain ⟨⟨hs1, hs2, _⟩, _⟩ := (reach_tiers hre).pools key (by rw [hp]; rfl)
  obtain ⟨st, ⟨_, _, a1, a2⟩, _, _, er⟩ := swap_far_ind hw ⟨hs1, hs2⟩ h1 hp (reach_agree s hre _ _ hp) hn
    (P := fun st => (vworld s ⟨key, xToY, byIn, limit, env.now⟩ st).WF ∧
      (st.pool.liquidity = activeLiq s key st.pool.currentTickIndex ∨
        (st.remaining = 0 ∧ Near s key xToY byIn limit st.pool.sqrtPrice)) ∧
      feesIn s.positions key xToY (vworld s ⟨key, xToY, byIn, limit, env.now⟩ st) + protoOf xToY st.pool ≤
        feesIn s.positions key xToY (world s key pool) + protoOf xToY pool + st.totalIn ∧
      feesIn s.positions key (!xToY) (vworld s ⟨key, xToY, byIn, limit, env.now⟩ st) ≤
        feesIn s.positions key (!xToY) (world s key pool))
    ⟨wf hre hp, .inl (clear_liqOK s hc _ _ hp), by simp only [Nat.cast_zero, add_zero]; exact le_rfl, le_rfl⟩
    (by
      rintro st st' target sr dust p1 p2 ⟨i1, i2, i3, i4⟩ hsd hb h0 hi hm
      have hL : st.pool.liquidity = activeLiq s key st.pool.currentTickIndex := by
        rcases i2 with h | h
        · exact h
        · exact absurd h.1 h0
      have f1 := iter_feesIn (hpsIn hr) hb i1 hm xToY
      have f2 := iter_feesIn (hpsIn hr) hb i1 hm (!xToY)
      have q1 := (iter_proto hm).1
      have cov := iter_fee_cover hm
      have pf1 := (addFee_full hm.fee).1
      have pf2 := (addFee_full hm.rest).1
      dsimp only at pf2 f1 f2 q1
      rw [show p1.liquidity = st.pool.liquidity by rw [(addFee_full hm.fee).2]] at pf2
      rw [Nat.cast_sub pf1, Nat.cast_sub pf2] at cov
      rw [← hL, if_pos rfl] at f1
      rw [if_neg (by cases xToY <;> simp), zero_div, mul_zero, add_zero] at f2
      refine ⟨hist_wf (iter_hist hb hm 0 1) i1, (iter_active hw hl ⟨hs1, hs2⟩ ⟨hsd, .inl hL⟩ h0 hi).liq, ?_,
        f2.trans i4⟩
      rw [q1, hm.totalIn]
      push_cast
      have e : (st.pool.liquidity : ℚ) * ((iterGrowth s st sr dust : ℚ) / 10 ^ 33) =
        (iterGrowth s st sr dust : ℚ) * st.pool.liquidity / 10 ^ 33 := by ring
      rw [e] at f1
      have : (0 : ℚ) ≤ sr.amountIn := Nat.cast_nonneg _
      linarith)
  have ev : vworld s ⟨key, xToY, byIn, limit, env.now⟩ st = world r.1 key r.2.pool := by
    unfold vworld world
    rw [er, e, updateTicks_eq _ _ _ h2, er]
  have hp' : r.1.pools.get key = some r.2.pool := by rw [e]; exact Map.get_insert_self _ _ _
  have hpos : r.1.positions = s.positions := by rw [e]
  have hre' := (reach32_reach _ hr').1
  rw [ev] at a1 a2
  rw [poolAccrued_eq (wf hre hp) (hpsIn hr), poolAccrued_eq (wf hre hp) (hpsIn hr),
    poolAccrued_eq (wf hre' hp') (hpsIn hr'), poolAccrued_eq (wf hre' hp') (hpsIn hr'), hpos]
  have ep : st.pool = r.2.pool := by rw [er]
  have ei : st.totalIn = r.2.amountIn := by rw [er]
  rw [ep, ei] at a1
  unfold protoOf at a1
  push_cast at a1 ⊢
  exact ⟨a1, a2⟩

/-- C54, one claim (full statement: in every history; refuted by `C54_negation`): in histories of at most
5·10^8 calls in which no swap ends near an initialised tick, what a claim pays is there, on top
of all balances and of the protocol fees. -/
theorem C54_claim_partial {held : ActorId → Nat} {n i : Nat} (h : ClearBooks s held n) (hn : n ≤ 5 * 10 ^ 8)
    {r : Inv × Nat × Nat} (hcl : claimFee env s i = .ok r) :
    ∃ p, s.positions.map.get (env.caller, i) = some p ∧
      totalBal s p.poolKey.tokenX + totalProto s p.poolKey.tokenX + r.2.1 ≤ held p.poolKey.tokenX ∧
      totalBal s p.poolKey.tokenY + totalProto s p.poolKey.tokenY + r.2.2 ≤ held p.poolKey.tokenY := by
  have hr := clear_reach32 s (clearBooks_clear h)
  have hre := (reach32_reach s hr).1
  have hw := reach_wf s hre
  obtain ⟨p, lower, upper, pool, m, ps, b, he, -, b1, hb1, hb2⟩ := claimFee_full hw.indexed hcl
  have hlen : r.1.positions.length = s.positions.length := by
    rw [he.res]
    have hu := he.upd
    unfold Positions.update at hu
    split at hu
    · cases hu
    · cases hu; rfl
  have hr' : Reach32 r.1 := by
    refine .call (c := .claimFee i) (env := env) hr ?_ ?_
    · simp only [step, hcl, ok_bind]; rfl
    · intro a
      unfold Positions.getLength
      rw [hlen]
      exact (reach32_reach s hr).2 a
  have key : ∀ t, ((totalBal r.1 t : Nat) : ℚ) + totalProto r.1 t ≤ held t + n * (slackX * 443637) := by
    intro t
    have h1 := (owed_claim hr hcl t).trans (clearBooks_owed h hn t)
    have h2 : 0 ≤ allWorth r.1 t := Map.sum_nonneg fun k q hq => worthIn_nonneg hr' hq t
    unfold owed at h1
    linarith
  have hb : ∀ t, totalBal r.1 t = totalBal s t + (if t = p.poolKey.tokenX then r.2.1 else 0) +
      (if t = p.poolKey.tokenY then r.2.2 else 0) := by
    intro t
    rw [show totalBal r.1 t = total b t by rw [totalBal_eq, he.res], total_inc hb2, total_inc hb1, totalBal_eq]
  have hpr : ∀ t, totalProto r.1 t = totalProto s t := by
    intro t
    have h1 := proto_insert (p' := m.pool) he.hpool t
    rw [he.mod.pool.proto p.poolKey t] at h1
    unfold totalProto
    rw [he.res]
    exact Nat.add_right_cancel h1
  have hs := slack_small hn
  have fin : ∀ t, totalBal r.1 t + totalProto r.1 t ≤ held t := by
    intro t
    have h1 := key t
    have h2 : ((totalBal r.1 t + totalProto r.1 t : Nat) : ℚ) < ((held t + 1 : Nat) : ℚ) := by
      push_cast; linarith
    exact Nat.lt_succ_iff.1 (by exact_mod_cast h2)
  refine ⟨p, posGet_ok.1 he.get, ?_, ?_⟩
  · have h1 := fin p.poolKey.tokenX
    rw [hb, hpr, if_pos rfl] at h1
    omega
  · have h1 := fin p.poolKey.tokenY
    rw [hb, hpr, if_pos rfl] at h1
    omega

/-! ### examples and the drain -/

/-- a swap that crosses a tick: the position over -20..20 and the one over -10..10 share its fees, and
nothing accrues in the other token -/
example : (Service.swap (Demo.by_ 2) Demo.start Demo.key true (22 * 10 ^ 6) true MIN_SQRT_PRICE).toOption.map
    (fun r => (decide (0 < poolAccrued r.1 Demo.key r.2.pool true),
      decide (poolAccrued r.1 Demo.key r.2.pool true + r.2.pool.feeProtocolTokenX ≤ r.2.amountIn),
      decide (poolAccrued r.1 Demo.key r.2.pool false = 0))) = some (true, true, true) := by decide +kernel

/-- the claims of that history are paid from what the program holds -/
example : ∃ r, claimFee (Demo.by_ 2) Demo.traded 0 = .ok r ∧ 0 < r.2.1 ∧
    totalBal Demo.traded 5 + totalProto Demo.traded 5 + r.2.1 ≤ 2 * 10 ^ 20 := by
  obtain ⟨n, hn, h⟩ := demo_traded_books
  have h1 : (claimFee (Demo.by_ 2) Demo.traded 0).toOption.map (fun r => decide (0 < r.2.1)) = some true := by
    decide +kernel
  cases hcl : claimFee (Demo.by_ 2) Demo.traded 0 with
  | error e => rw [hcl] at h1; simp [Except.toOption] at h1
  | ok r =>
    rw [hcl] at h1
    simp only [Except.toOption, Option.map_some, Option.some.injEq, decide_eq_true_eq] at h1
    obtain ⟨p, hp, hx, _⟩ := C54_claim_partial h (by omega) hcl
    have hk : (Demo.traded.positions.map.get (2, 0)).map (fun p => p.poolKey.tokenX) = some 5 := by decide +kernel
    rw [show ((2 : ActorId), 0) = ((Demo.by_ 2).caller, 0) from rfl, hp] at hk
    simp only [Option.map_some, Option.some.injEq] at hk
    rw [hk] at hx
    exact ⟨r, rfl, h1, hx⟩

namespace Drain
open Exploit (by_ credited p10)

/-- a fee of 1%, a tick spacing of 1 -/
def tier : FeeTier := ⟨10 ^ 10, 1⟩
def key : PoolKey := ⟨5, 7, tier⟩

/-- user 2 deposits a million of each token, user 3 a billion of token 7 -/
def s0 : Inv := credited (credited (credited (Inv.init 1 0) 5 2 (10 ^ 6)) 7 2 (10 ^ 6)) 7 3 (10 ^ 9)

/-- a pool at tick 0, in which user 2 has the only position, with the range 0..10; user 2 buys a little
and claims the fee, so that the position has a snapshot -/
def s1 : Inv := runAll s0 [(by_ 1, .addFeeTier tier), (by_ 2, .createPool 5 7 tier (10 ^ 24) 0),
  (by_ 2, .createPosition key 0 10 (10 ^ 14) 0 (10 ^ 25)), (by_ 2, .swap key false 1000 true p10),
  (by_ 2, .claimFee 0)]

/-- user 2 buys all of token 5 but for rounding: the price ends at tick 10, which is not crossed -/
def s2 : Inv := run (by_ 2) s1 (.swap key false 498860 false p10)

theorem s2_books : ∃ held, Books s2 held ∧ held 7 ≤ 10 ^ 6 + 10 ^ 9 := by
  obtain ⟨a, h1, b1⟩ := books_credited (.init 1 0) 5 2 (10 ^ 6)
  obtain ⟨b, h2, b2⟩ := books_credited h1 7 2 (10 ^ 6)
  obtain ⟨c, h3, b3⟩ := books_credited h2 7 3 (10 ^ 9)
  refine ⟨c, books_run (books_runAll _ (by simp [NoVara]) h3) _ _ (by simp [NoVara]), ?_⟩
  have e1 := b1 7
  have e2 := b2 7
  have e3 := b3 7
  simp only [if_true] at e2 e3
  rw [if_neg (by decide)] at e1
  omega

end Drain
open Drain

/-- C54 is false: a claim can pay more than the program holds. -/
theorem C54_negation : ¬ ∀ s held, Books s held → ∀ env i r p, claimFee env s i = .ok r →
    s.positions.map.get (env.caller, i) = some p → r.2.2 ≤ held p.poolKey.tokenY := by
  intro h
  obtain ⟨held, hb, h7⟩ := s2_books
  have h1 : (claimFee (Exploit.by_ 2) s2 0).toOption.map (fun r => r.2) = some (0, 34028236692093846336) := by
    decide +kernel
  have h2 : (s2.positions.map.get (2, 0)).map (fun p => p.poolKey.tokenY) = some 7 := by decide +kernel
  cases hcl : claimFee (Exploit.by_ 2) s2 0 with
  | error e => rw [hcl] at h1; simp [Except.toOption] at h1
  | ok r =>
    rw [hcl] at h1
    simp only [Except.toOption, Option.map_some, Option.some.injEq] at h1
    obtain ⟨p, hp, ht⟩ := Option.map_eq_some_iff.1 h2
    have h3 := h s2 held hb (Exploit.by_ 2) 0 r p hcl hp
    rw [h1, ht] at h3
    dsimp only at h3
    omega

/-- before the second swap the same claim pays nothing, and that swap costs the attacker 504103 of token 7 -/
example : (claimFee (Exploit.by_ 2) s1 0).toOption.map (fun r => r.2) = some (0, 0) ∧
    bal s1.balances 2 7 = bal s2.balances 2 7 + 504103 := by decide +kernel

end Verif
