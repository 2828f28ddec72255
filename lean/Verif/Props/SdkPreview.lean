import Verif.Model.SdkUtils
import Verif.Model.Queries
import Verif.Proofs.Effect
import Verif.Proofs.AccInv
import Verif.Spec.Demo

/-!
# Property C58: what the SDK announces for a position is what the contract books

The inputs of the announcements are those of the query of a position with its pool and ticks (C55).
-/

set_option exponentiation.threshold 1000

namespace Verif
open Service Spec

variable {env : Env} {s : Inv} {index : Nat}

private theorem toFee_ok {g L a : Nat} (hg : g < 2 ^ 128) (hL : L < 2 ^ 256) (ha : a = g * L / 10 ^ 33)
    (hf : a < 2 ^ 256) : fgToFee g L = .ok a := by
  unfold fgToFee
  have hm : g * L < 2 ^ 384 := by
    calc g * L < 2 ^ 128 * 2 ^ 256 := Nat.mul_lt_mul'' hg hL
      _ = 2 ^ 384 := by norm_num
  rw [(mulC_ok_iff (a := g) (b := L)).2 ⟨hm, rfl⟩, ok_bind, fit_ok_iff, Nat.div_div_eq_div_mul]
  have : liqOne * fgOne = 10 ^ 33 := by decide
  rw [this, ← ha]
  exact ⟨hf, rfl⟩

private theorem preview_fee (hr : Reach s) {p : Position} {lower upper : Tick} {pool : Pool} {m : ModifyResult}
    {delta sp : Nat} {add : Bool} (hp : s.positions.get env.caller index = .ok p)
    (hpool : s.pools.get p.poolKey = some pool)
    (hl : s.ticks.get (p.poolKey, p.lowerTickIndex) = some lower)
    (hu : s.ticks.get (p.poolKey, p.upperTickIndex) = some upper)
    (hm : ModifyOk p pool upper lower delta add env.now sp m) :
    Sdk.calculateFee pool p lower upper = .ok (m.position.tokensOwedX, m.position.tokensOwedY) := by
  have hacc := reach_acc s hr
  have hw := reach_wf s hr
  rw [posGet_ok] at hp
  obtain ⟨a1, a2, a3, a4⟩ := hacc.pos _ _ hp
  have hL := (hw.pos _ _ hp).1.liqLt
  obtain ⟨g1, g2⟩ := hacc.pool _ _ hpool
  obtain ⟨l1, l2⟩ := hacc.tick _ _ hl
  obtain ⟨u1, u2⟩ := hacc.tick _ _ hu
  have inside : ∀ (lo hi c : Int) {x y g : Nat}, x < 2 ^ 128 → y < 2 ^ 128 → g < 2 ^ 128 →
      feeGrowthInside1 lo x hi y c g < 2 ^ 128 := by
    intro lo hi c x y g hx hy hg
    unfold feeGrowthInside1
    refine fgSub_lt (fgSub_lt hg ?_) ?_
    · split
      · exact hx
      · exact fgSub_lt hg hx
    · split
      · exact hy
      · exact fgSub_lt hg hy
  have ox := hm.pos.owedX
  have oy := hm.pos.owedY
  rw [a3, Nat.zero_add] at ox
  rw [a4, Nat.zero_add] at oy
  unfold Sdk.calculateFee Sdk.calculateFeeWasm
  dsimp only
  rw [toFee_ok (fgSub_lt (inside _ _ _ l1 u1 g1) a1) hL ox hm.pos.fitX, ok_bind,
    toFee_ok (fgSub_lt (inside _ _ _ l2 u2 g2) a2) hL oy hm.pos.fitY, ok_bind]
  rfl

private theorem associates {p : Position} {lower upper : Tick} {pool : Pool}
    (hp : s.positions.get env.caller index = .ok p)
    (hpool : s.pools.get p.poolKey = some pool)
    (hl : s.ticks.get (p.poolKey, p.lowerTickIndex) = some lower)
    (hu : s.ticks.get (p.poolKey, p.upperTickIndex) = some upper) :
    getPositionWithAssociates s env.caller index = .ok (p, pool, lower, upper) := by
  unfold getPositionWithAssociates
  rw [hp, ok_bind, poolsGet_ok.2 hpool, ok_bind, ticksGet_ok.2 hl, ok_bind, ticksGet_ok.2 hu, ok_bind]
  rfl

/-- C58, fees: a successful claim pays exactly the amounts `calculateFee` computes from the answer of the query
made just before. -/
theorem C58_fee (hr : Reach s) {s' : Inv} {x y : Nat} (h : claimFee env s index = .ok (s', x, y)) :
    ∃ p pool lower upper, getPositionWithAssociates s env.caller index = .ok (p, pool, lower, upper) ∧
      Sdk.calculateFee pool p lower upper = .ok (x, y) := by
  obtain ⟨p, lower, upper, pool, m, ps, b, e, hx, -⟩ := claimFee_full (reach_wf s hr).indexed h
  refine ⟨p, pool, lower, upper, associates e.get e.hpool e.hlt e.hut, ?_⟩
  rw [preview_fee hr e.get e.hpool e.hlt e.hut e.mod]
  simp only [Prod.mk.injEq] at hx
  rw [hx.1, hx.2]

/-- C58, removal: a successful removal pays exactly the sum of the amounts `calculateTokenAmounts` and
`calculateFee` compute from the answer of the query made just before. -/
theorem C58_removal (hr : Reach s) {s' : Inv} {x y : Nat} (h : removePosition env s index = .ok (s', x, y)) :
    ∃ p pool lower upper ax ay fx fy,
      getPositionWithAssociates s env.caller index = .ok (p, pool, lower, upper) ∧
      Sdk.calculateTokenAmounts pool p false = .ok (ax, ay) ∧
      Sdk.calculateFee pool p lower upper = .ok (fx, fy) ∧ x = ax + fx ∧ y = ay + fy := by
  have hi := (reach_wf s hr).indexed
  obtain ⟨p, lower, upper, pool, m, ps, b, tm1, tm2, e, hx, -⟩ := removePosition_full hi h
  simp only [Prod.mk.injEq] at hx
  obtain ⟨i, hd⟩ := e.mod.pool.amounts
  refine ⟨p, pool, lower, upper, m.amountX, m.amountY, _, _, associates e.get e.hpool e.hlt e.hut, ?_,
    preview_fee hr e.get e.hpool e.hlt e.hut e.mod, hx.1, hx.2⟩
  rw [hi _ _ _ e.hlt, hi _ _ _ e.hut] at hd
  unfold Sdk.calculateTokenAmounts
  dsimp only at hd
  rw [hd]
  rfl

/-- C58, deposit: a successful creation takes exactly the amounts computed, rounding up, from the pool as it was
before and the position as it is after. -/
theorem C58_deposit (hr : Reach s) {s' : Inv} {p : Position} {key : PoolKey} {lower upper : Int}
    {delta ll lu : Nat} (h : createPosition env s key lower upper delta ll lu = .ok (s', p)) :
    ∃ pool x y b, s.pools.get key = some pool ∧ Sdk.calculateTokenAmounts pool p true = .ok (x, y) ∧
      decreaseTokenBalance s.balances key.tokenX env.caller (some x) = .ok b ∧
      ∃ b', decreaseTokenBalance b.1 key.tokenY env.caller (some y) = .ok b' ∧ s'.balances = b'.1 := by
  obtain ⟨pool, lt, ut, m, b, tm1, tm2, e, hp, -, -, bx, by_, h1, h2, rfl⟩ :=
    createPosition_full (reach_wf s hr).indexed h
  obtain ⟨i, hd⟩ := e.mod.pool.amounts
  simp only at hp
  refine ⟨pool, m.amountX, m.amountY, bx, e.hpool, ?_, h1, by_, h2, (congrArg Inv.balances e.res :)⟩
  have hpos := e.mod.pos.eq
  have hl := (e.mod.pos.add rfl).1
  rw [e.lidx, e.uidx] at hd
  unfold Sdk.calculateTokenAmounts
  rw [hp, hl]
  have e1 : m.position.lowerTickIndex = lower := by rw [hpos]
  have e2 : m.position.upperTickIndex = upper := by rw [hpos]
  rw [e1, e2]
  dsimp only at hd ⊢
  rw [Nat.zero_add, hd]
  rfl

/-- a position of the traded pool: announced fees and claim; announced amounts with fees and removal -/
example :
    (getPositionWithAssociates Demo.traded 2 0).toOption.bind (fun r =>
      (Sdk.calculateFee r.2.1 r.1 r.2.2.1 r.2.2.2).toOption) =
      (claimFee (Demo.by_ 2) Demo.traded 0).toOption.map (·.2) ∧
    ((claimFee (Demo.by_ 2) Demo.traded 0).toOption.map (fun r => decide (0 < r.2.1))) = some true ∧
    (getPositionWithAssociates Demo.traded 2 0).toOption.bind (fun r =>
      (Sdk.calculateTokenAmounts r.2.1 r.1 false).toOption.bind (fun a =>
        (Sdk.calculateFee r.2.1 r.1 r.2.2.1 r.2.2.2).toOption.map (fun f => (a.1 + f.1, a.2 + f.2)))) =
      (removePosition (Demo.by_ 2) Demo.traded 0).toOption.map (·.2) := by
  decide +kernel

end Verif
