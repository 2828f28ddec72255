import Verif.Proofs.Paid
import Verif.Props.Trades

/-!
# Property C79: a swap pays the curve's price and the fee of the tier on it

False of the code (`C79_negation`): after a swap that ends exactly at a tick the pool computes with a wrong
liquidity. Here: it holds where no swap has ended near an initialised tick. The amounts on the
curve are those of the positions and do not depend on the pool's own liquidity counter.
-/

namespace Verif
open Service Spec

variable {s : Inv} {key : PoolKey}

/-- C79 for pools in which no swap has ended near an initialised tick (`Near`), and
swaps that do not (full statement: for all swaps; refuted by `C79_negation`): the trader puts in at least
what the curve of all positions takes up between the two prices, with the fee of the tier on top (in token X
up to 10^-8 of a unit), and gets at most what the curve gives back. -/
theorem C79_paid_partial (hc : Clear s) {env : Env} {xToY byIn : Bool} {amount limit : Nat}
    {r : Inv × CalculateSwapResult} (h : Service.swap env s key xToY amount byIn limit = .ok r)
    (hn : ¬ Near s key xToY byIn limit r.2.targetSqrtPrice) {pool : Pool} (hp : s.pools.get key = some pool) :
    (1 + pct key.feeTier.fee) * (curveHeld xToY s key r.2.targetSqrtPrice - curveHeld xToY s key pool.sqrtPrice) ≤
      r.2.amountIn + (if xToY then 1 / 10 ^ 8 else 0) ∧
    (r.2.amountOut : ℚ) ≤ curveHeld (!xToY) s key pool.sqrtPrice - curveHeld (!xToY) s key r.2.targetSqrtPrice := by
  have hr := clear_reach32 _ hc
  have hre := (reach32_reach _ hr).1
  obtain ⟨ticks, b1, b2, h1, _, _, _, e⟩ := swap_ok h
  obtain ⟨⟨hs1, hs2, hs3⟩, _⟩ := (reach_tiers hre).pools key (by rw [hp]; rfl)
  have hr' := clear_reach32 _ (Clear.swap hc h hn)
  have hp' : r.1.pools.get key = some r.2.pool := by rw [e]; exact Map.get_insert_self _ _ _
  have ha1 := reach_agree _ hre _ _ hp
  have ha2 := reach_agree _ (reach32_reach _ hr').1 _ _ hp'
  have hps : ∀ k q, s.positions.map.get k = some q → q.poolKey = key → PosIn s key q :=
    fun j q hq hk => by have := stored_posIn hr hq; rwa [hk] at this
  have m1 := swap_paid (reach_wf _ hre) (reach32_ledger _ hr) hps ⟨hs1, hs2⟩ hs3.le h1 hp ha1 hn
    (clear_liqOK _ hc _ _ hp) (fun _ => none)
  have m2 := (swap_moved (reach_wf _ hre) (reach32_ledger _ hr) hps ⟨hs1, hs2⟩ h1 hp ha1 hn
    (clear_liqOK _ hc _ _ hp) (fun _ => none)).2
  unfold world at m1 m2
  rw [curveSum_eq hr ha1, curveSum_eq hr ha2] at m1 m2
  rw [curveHeld_eq hr, curveHeld_eq hr, curveHeld_eq hr, curveHeld_eq hr]
  have et : r.2.pool.sqrtPrice = r.2.targetSqrtPrice := by
    obtain ⟨st, _, _, _, e⟩ := swap_far_ind (reach_wf _ hre) ⟨hs1, hs2⟩ h1 hp ha1 hn (P := fun _ => True) trivial
      (fun _ _ _ _ _ _ _ _ _ _ _ _ _ => trivial)
    rw [e]
  rw [et] at m1 m2
  constructor
  · have : (if xToY then 2 * slackX * 443637 else 0 : ℚ) ≤ if xToY then 1 / 10 ^ 8 else 0 := by
      cases xToY <;> norm_num [slackX]
    linarith
  · linarith

/-- in the demo account 2 sells 22·10^6 of X across an initialised tick; the curve takes up more than 21978018
of X (21999996 with the fee of 0.1%) and less than 21978019, and gives back 21965657.4 of Y, of which the account
gets 21965657 -/
example : Clear Demo.start ∧
    (Service.swap (Demo.by_ 2) Demo.start Demo.key true (22 * 10 ^ 6) true MIN_SQRT_PRICE).toOption.map
      (fun r => (r.2.amountIn, r.2.amountOut, r.2.targetSqrtPrice)) =
      some (22000000, 21965657, 999302984359663232683739) ∧
    (Demo.start.pools.get Demo.key).map (·.sqrtPrice) = some (10 ^ 24) ∧
    21978018 < curveHeld true Demo.start Demo.key 999302984359663232683739 - curveHeld true Demo.start Demo.key (10 ^ 24) ∧
    curveHeld true Demo.start Demo.key 999302984359663232683739 - curveHeld true Demo.start Demo.key (10 ^ 24) < 21978019 ∧
    21999996 < (1 + pct Demo.key.feeTier.fee) *
      (curveHeld true Demo.start Demo.key 999302984359663232683739 - curveHeld true Demo.start Demo.key (10 ^ 24)) ∧
    (21965657 : ℚ) <
      curveHeld false Demo.start Demo.key (10 ^ 24) - curveHeld false Demo.start Demo.key 999302984359663232683739 := by
  refine ⟨?_, by decide +kernel, by decide +kernel, by decide +kernel, by decide +kernel, by decide +kernel,
    by decide +kernel⟩
  obtain ⟨n, _, h⟩ := demo_start_books
  exact clearBooks_clear h

/-- C79 is false: in the pool of `C34_negation`, after a swap that ended exactly at tick 10, account 2 sells
990000 of X and gets 990499 of Y, while the only position holds no more than 500101 of Y on its curve. -/
theorem C79_negation : ¬ ∀ s key env xToY byIn amount limit r pool, Reach s →
    Service.swap env s key xToY amount byIn limit = .ok r → s.pools.get key = some pool →
    (r.2.amountOut : ℚ) ≤ curveHeld (!xToY) s key pool.sqrtPrice - curveHeld (!xToY) s key r.2.targetSqrtPrice := by
  intro h
  obtain ⟨held', hb, _⟩ := s0_books
  have hr2 : Reach Exploit.s2 :=
    books_reach (books_run (books_runAll _ (by simp [NoVara]) hb) _ _ (by simp [NoVara]))
  have hf : (Service.swap (Exploit.by_ 2) Exploit.s2 Exploit.key true 990000 true (10 ^ 24)).toOption.map
      (fun r => (r.2.amountOut, r.2.targetSqrtPrice)) = some (990499, 1000004850058515455265165) := by
    decide +kernel
  have hq : (Exploit.s2.pools.get Exploit.key).map (·.sqrtPrice) = some Exploit.p10 := by decide +kernel
  cases hs : Service.swap (Exploit.by_ 2) Exploit.s2 Exploit.key true 990000 true (10 ^ 24) with
  | error e => rw [hs] at hf; cases hf
  | ok r =>
    rw [hs] at hf
    simp only [Except.toOption, Option.map_some, Option.some.injEq, Prod.mk.injEq] at hf
    obtain ⟨pool, hp, e⟩ := Option.map_eq_some_iff.1 hq
    have := h _ _ _ _ _ _ _ _ _ hr2 hs hp
    rw [hf.1, hf.2, e] at this
    have h2 : curveHeld false Exploit.s2 Exploit.key Exploit.p10 -
      curveHeld false Exploit.s2 Exploit.key 1000004850058515455265165 < (990499 : Nat) := by decide +kernel
    exact absurd this (not_le.2 h2)

end Verif
