import Verif.Proofs.Claim
import Verif.Spec.Exit
import Verif.Props.Exit
import Verif.Props.Ledger

/-!
# Property C70: the fees of a position can always be claimed

Unlike removing a position (C36), claiming its fees never depends on the pool's liquidity counter.
-/

set_option exponentiation.threshold 1000

namespace Verif
open Service Spec

variable {env : Env} {s s' : Inv} {index : Nat} {p : Position} {pool : Pool} {wx wy : ℚ} {fx fy : Nat}

private theorem bal_balOf (b : Balances) (a t : ActorId) : bal b a t = balOf b a t := by
  unfold bal balOf
  cases b.get (a, t) <;> rfl

/-- the token amounts of no liquidity can be computed -/
private theorem amountDelta_zero {t l u : Int} {p pl pu : Nat} (hlu : l ≤ u) (hp : PriceOK p)
    (hpl : calculateSqrtPrice l = .ok pl) (hpu : calculateSqrtPrice u = .ok pu) :
    ∃ r, calculateAmountDelta t p 0 true u l = .ok r := by
  have P1 := calculateSqrtPrice_ge_min hpl
  have P2 := calculateSqrtPrice_le_max hpl
  have P3 := calculateSqrtPrice_ge_min hpu
  have P4 := calculateSqrtPrice_le_max hpu
  have small : ∀ {q}, q ≤ MAX_SQRT_PRICE → q < 2 ^ 128 := fun h =>
    lt_of_le_of_lt h (by norm_num [MAX_SQRT_PRICE])
  have dy : ∀ {a b}, a ≤ MAX_SQRT_PRICE → b ≤ MAX_SQRT_PRICE → ∃ y, getDeltaY a b 0 true = .ok y := by
    intro a b ha hb
    rw [(C03_amount_y (small ha) (small hb) (by norm_num)).1, if_pos]
    · exact ⟨_, rfl⟩
    · simp [amountY, liq]
  have dx : ∀ {a b}, MIN_SQRT_PRICE ≤ a → a ≤ MAX_SQRT_PRICE → MIN_SQRT_PRICE ≤ b → b ≤ MAX_SQRT_PRICE →
      ∃ x, getDeltaX a b 0 true = .ok x := fun h1 h2 h3 h4 =>
    C04_succeeds h1 h2 h3 h4 (by norm_num) (by simp [amountX, liq]) true
  unfold calculateAmountDelta
  rw [failIf_neg (by omega), ok_bind]
  by_cases h1 : t < l
  · rw [if_pos h1]
    obtain ⟨x, hx⟩ := dx P1 P2 P3 P4
    exact ⟨_, bind_ok_iff.2 ⟨_, hpl, bind_ok_iff.2 ⟨_, hpu, bind_ok_iff.2 ⟨_, hx, rfl⟩⟩⟩⟩
  · rw [if_neg h1]
    by_cases h2 : t < u
    · rw [if_pos h2]
      obtain ⟨x, hx⟩ := dx hp.1 hp.2 P3 P4
      obtain ⟨y, hy⟩ := dy P2 hp.2
      exact ⟨_, bind_ok_iff.2 ⟨_, hpu, bind_ok_iff.2 ⟨_, hx, bind_ok_iff.2 ⟨_, hpl, bind_ok_iff.2 ⟨_, hy, rfl⟩⟩⟩⟩⟩
    · rw [if_neg h2]
      obtain ⟨y, hy⟩ := dy P2 P4
      exact ⟨_, bind_ok_iff.2 ⟨_, hpl, bind_ok_iff.2 ⟨_, hpu, bind_ok_iff.2 ⟨_, hy, rfl⟩⟩⟩⟩

/-- C70, what is paid: a claim pays exactly what the position has accrued in both tokens. -/
theorem C70_amount (h : Reach s) (hp : s.positions.get env.caller index = .ok p)
    (hpl : s.pools.get p.poolKey = some pool) (hW : Worth s p pool wx wy fx fy) {r : Inv × Nat × Nat}
    (hc : claimFee env s index = .ok r) : r.2 = (fx, fy) := by
  have hw := reach_wf s h
  have hac := reach_acc s h
  obtain ⟨p', lo, up, pool', m, ps, b, he, hm, -⟩ := claimFee_full hw.indexed hc
  have e1 := he.get
  rw [hp] at e1; cases e1
  have e2 := he.hpool
  rw [hpl] at e2; cases e2
  obtain ⟨pl, pu, ix, iy, -, -, e3, e4, -, -, e7, e8⟩ := hW
  simp only [FeeWorld.insideX, FeeWorld.insideY, world, he.hlt, he.hut, Option.pure_def, Option.bind_eq_bind,
    Option.bind_some, Option.some.injEq] at e3 e4
  have A := hac.pool _ _ hpl
  have B := hac.tick _ _ he.hlt
  have C := hac.tick _ _ he.hut
  have D := hac.pos _ _ (posGet_ok.1 hp)
  have ox := he.mod.pos.owedX
  have oy := he.mod.pos.owedY
  rw [fgSub_eq (feeGrowthInside1_lt B.1 C.1 A.1) D.1, e3, D.2.2.1, Nat.zero_add, ← e7] at ox
  rw [fgSub_eq (feeGrowthInside1_lt B.2 C.2 A.2) D.2.1, e4, D.2.2.2, Nat.zero_add, ← e8] at oy
  rw [hm, ox, oy]

/-- C70, exactly when a claim succeeds: in every history without an account of 2^32 - 1 positions, the owner of
a position can claim its fees if and only if their two balances have room for them. -/
theorem C70_claim (h : Reach32 s) (hp : s.positions.get env.caller index = .ok p)
    (hpl : s.pools.get p.poolKey = some pool) (hW : Worth s p pool wx wy fx fy) :
    (∃ r, claimFee env s index = .ok r) ↔
      bal s.balances env.caller p.poolKey.tokenX + fx < 2 ^ 256 ∧
      bal s.balances env.caller p.poolKey.tokenY + fy < 2 ^ 256 := by
  have hr := (reach32_reach s h).1
  have hw := reach_wf s hr
  have hac := reach_acc s hr
  have hne := ((reach_tiers hr).pools _ (by rw [hpl]; rfl)).2
  have hxy : ∀ {a : ActorId}, ¬ (a = env.caller ∧ p.poolKey.tokenY = p.poolKey.tokenX) := by
    rintro a ⟨_, e⟩; rw [e] at hne; exact lt_irrefl _ hne
  constructor
  · rintro ⟨r, hc⟩
    have e := C70_amount hr hp hpl hW hc
    obtain ⟨p', lower, upper, pool', m, ps, b, he, -, b1, hb1, hb2⟩ := claimFee_full hw.indexed hc
    have e1 := he.get
    rw [hp] at e1; cases e1
    rw [e] at hb1 hb2
    have hb : ∀ t, balOf s.balances env.caller t < 2 ^ 256 := by
      intro t
      unfold balOf
      cases hg : s.balances.get (env.caller, t) with
      | none => simp
      | some v => exact (reach_balWF hr _ _ hg).2
    have fit : ∀ {b b' : Balances} {t : ActorId} {n : Nat}, increaseTokenBalance b t env.caller n = .ok b' →
        balOf b env.caller t < 2 ^ 256 → balOf b env.caller t + n < 2 ^ 256 := by
      intro b b' t n hi hb
      rcases increase_ok.1 hi with ⟨h0, -⟩ | ⟨-, h0, -⟩
      · omega
      · exact h0
    have ey := increase_bal hb1 env.caller p.poolKey.tokenY
    rw [if_neg hxy] at ey
    have f1 := fit hb1 (hb _)
    have f2 := fit hb2 (by rw [ey]; exact hb _)
    rw [ey] at f2
    rw [bal_balOf, bal_balOf]
    exact ⟨f1, f2⟩
  · rintro ⟨hx, hy⟩
    obtain ⟨lo, up, h1, h2, -⟩ := pos_stored_ticks h (posGet_ok.1 hp)
    have hP := (hw.pos _ _ (posGet_ok.1 hp)).1
    obtain ⟨pl, pu, ix, iy, e1, e2, e3, e4, e5, e6, e7, e8⟩ := hW
    simp only [FeeWorld.insideX, FeeWorld.insideY, world, h1, h2, Option.pure_def, Option.bind_eq_bind,
      Option.bind_some, Option.some.injEq] at e3 e4
    obtain ⟨r, ha⟩ := amountDelta_zero (t := pool.currentTickIndex) (le_of_lt hP.lt)
      (reach_price s hr _ _ hpl) e1 e2
    have A := hac.pool _ _ hpl
    have B := hac.tick _ _ h1
    have C := hac.tick _ _ h2
    have D := hac.pos _ _ (posGet_ok.1 hp)
    have hc := (C12_counters hr hpl).2.1
    rw [bal_balOf] at hx hy
    obtain ⟨s', hs⟩ := claim_succeeds h hp hpl h1 h2 (hc _ _ h1).2 (hc _ _ h2).2
      (by rw [fgSub_eq (feeGrowthInside1_lt B.1 C.1 A.1) D.1, e3]; exact e7)
      (by rw [fgSub_eq (feeGrowthInside1_lt B.2 C.2 A.2) D.2.1, e4]; exact e8) ha hx hy
    exact ⟨_, hs⟩

/-- C70, without a position there is nothing to claim: the call fails as "position not found". -/
theorem C70_missing (hp : s.positions.map.get (env.caller, index) = none) :
    claimFee env s index = .error (.inv .PositionNotFound) := by
  unfold claimFee Positions.get
  rw [hp]
  rfl

/-- both owners of the demo history claim; so does the owner of the position that cannot be removed in
`C36_negation`; and user 3 has no eighth position -/
example : (claimFee (Demo.by_ 2) Demo.traded 0).toOption.map (fun r => r.2) = some (6279, 0) ∧
    (claimFee (Demo.by_ 3) Demo.traded 0).toOption.map (fun r => r.2) = some (13503, 0) ∧
    (removePosition (Exploit.by_ 3) Exploit.f2 0).toOption.isSome = false ∧
    (claimFee (Exploit.by_ 3) Exploit.f2 0).toOption.map (fun r => r.2) = some (0, 0) ∧
    (claimFee (Demo.by_ 3) Demo.traded 7).toOption.isSome = false := by
  decide +kernel

end Verif
