import Verif.Proofs.Exit
import Verif.Proofs.Deposit
import Verif.Spec.Exit
import Verif.Props.Active
import Verif.Props.Amounts
import Verif.Props.Exploit

/-!
# Property C36: a liquidity provider can always exit

False of the code (`C36_negation`), because the pool's liquidity counter can be wrong (`C34_negation`).
Here: this is the only reason, apart from amounts that do not fit in 256 bits.
-/

set_option exponentiation.threshold 1000

namespace Verif
open Service Spec

variable {env : Env} {s s' : Inv} {index : Nat} {p : Position} {pool : Pool} {wx wy : ℚ} {fx fy : Nat}

private theorem cutPrice_eq (pool : Pool) (lo hi : Int) (pl pu : Nat) :
    cutPrice pool lo hi pl pu = clampPrice pool.currentTickIndex lo hi pool.sqrtPrice pl pu := rfl

private theorem bal_balOf (b : Balances) (a t : ActorId) : bal b a t = balOf b a t := by
  unfold bal balOf
  cases b.get (a, t) <;> rfl

/-- how far rounding down can be below the curve -/
private theorem amountX_lt_dxDown {a b : Nat} (ha : MIN_SQRT_PRICE ≤ a) (hb : MIN_SQRT_PRICE ≤ b) (L : Nat) :
    amountX a b L < dxDown a b L + 1 + (amountX a b L + 1) / (23 * 10 ^ 13) := by
  have ha0 : 0 < a := lt_of_lt_of_le (by norm_num [MIN_SQRT_PRICE]) ha
  have hb0 : 0 < b := lt_of_lt_of_le (by norm_num [MIN_SQRT_PRICE]) hb
  have hab : 23 * 10 ^ 37 ≤ a * b :=
    le_trans (by norm_num [MIN_SQRT_PRICE]) (Nat.mul_le_mul ha hb)
  rw [amountX_eq ha0 hb0]
  have h1 : cdiv (a * b) (10 ^ 24) * 10 ^ 24 < a * b + 10 ^ 24 := cdiv_mul_lt _ (by positivity)
  have hcd : 0 < cdiv (a * b) (10 ^ 24) := cdiv_pos (by omega) (by positivity)
  have h2 : dxNum a b L < (dxDown a b L + 1) * cdiv (a * b) (10 ^ 24) := by
    rw [dxDown_def]; exact lt_div_add_one_mul _ hcd
  have h3 : absDiff a b * L < (dxNum a b L + 1) * 10 ^ 5 := by
    rw [dxNum_def]; exact lt_div_add_one_mul _ (by positivity)
  generalize a * b = q at *
  generalize absDiff a b * L = n at *
  generalize dxDown a b L = d at *
  generalize cdiv q (10 ^ 24) = c at *
  generalize dxNum a b L = m at *
  -- n < (m+1) 10^5 and m + 1 ≤ (d+1) c and c 10^24 < q + 10^24
  have h4 : n * 10 ^ 19 < (d + 1) * (q + 10 ^ 24) := by
    calc n * 10 ^ 19 < (m + 1) * 10 ^ 5 * 10 ^ 19 := Nat.mul_lt_mul_of_pos_right h3 (by positivity)
      _ = (m + 1) * 10 ^ 24 := by ring
      _ ≤ (d + 1) * c * 10 ^ 24 := Nat.mul_le_mul_right _ h2
      _ = (d + 1) * (c * 10 ^ 24) := by ring
      _ ≤ (d + 1) * (q + 10 ^ 24) := Nat.mul_le_mul_left _ (le_of_lt h1)
  have hq : (23 * 10 ^ 37 : ℚ) ≤ q := by exact_mod_cast hab
  have hq0 : (0 : ℚ) < q := lt_of_lt_of_le (by norm_num) hq
  have h5 : ((n * 10 ^ 19 : Nat) : ℚ) < (d + 1) * (q + 10 ^ 24) := by exact_mod_cast h4
  generalize ((n * 10 ^ 19 : Nat) : ℚ) = N at *
  -- E = N / q satisfies E < (d + 1) (1 + ε) with ε = 10^24 / q ≤ 1 / (23 10^13)
  have h6 : N / q < (d + 1) * (1 + 1 / (23 * 10 ^ 13)) := by
    rw [div_lt_iff₀ hq0]
    refine lt_of_lt_of_le h5 ?_
    have hd : (0 : ℚ) ≤ d + 1 := by positivity
    rw [mul_assoc]
    refine mul_le_mul_of_nonneg_left ?_ hd
    have : (10 ^ 24 : ℚ) ≤ 1 / (23 * 10 ^ 13) * q := by
      rw [div_mul_eq_mul_div, le_div_iff₀ (by norm_num)]
      linarith
    linarith
  by_contra hc
  push Not at hc
  generalize N / q = E at *
  have hd : (0 : ℚ) ≤ d := by positivity
  have h7 : (d : ℚ) + 1 ≤ E := by
    have : 0 ≤ (E + 1) / (23 * 10 ^ 13) ∨ E + 1 < 0 := by
      rcases le_or_gt 0 (E + 1) with h | h
      · exact .inl (by positivity)
      · exact .inr h
    rcases this with h | h
    · linarith
    · exfalso
      have : (d : ℚ) + 1 + (E + 1) / (23 * 10 ^ 13) ≤ E := hc
      rw [div_eq_mul_inv] at this
      norm_num at this
      linarith
  have h8 : (d + 1 : ℚ) * (1 / (23 * 10 ^ 13)) ≤ (E + 1) / (23 * 10 ^ 13) := by
    rw [mul_one_div]
    exact div_le_div_of_nonneg_right (by linarith) (by norm_num)
  linarith

/-- Every stored position has a worth, in every history without an account of 2^32 - 1 positions. -/
theorem C36_worth (h : Reach32 s) (hp : s.positions.get env.caller index = .ok p)
    (hpl : s.pools.get p.poolKey = some pool) : ∃ wx wy fx fy, Worth s p pool wx wy fx fy := by
  have hw := reach_wf s (reach32_reach s h).1
  obtain ⟨lo, up, h1, h2, -⟩ := pos_stored_ticks h (posGet_ok.1 hp)
  refine ⟨_, _, _, _, lo.sqrtPrice, up.sqrtPrice, feeGrowthInside1 lo.index lo.feeGrowthOutsideX up.index
    up.feeGrowthOutsideX pool.currentTickIndex pool.feeGrowthGlobalX, feeGrowthInside1 lo.index
    lo.feeGrowthOutsideY up.index up.feeGrowthOutsideY pool.currentTickIndex pool.feeGrowthGlobalY,
    (hw.tick _ _ _ h1).1.price, (hw.tick _ _ _ h2).1.price, ?_, ?_, rfl, rfl, rfl, rfl⟩
  · simp only [FeeWorld.insideX, world, h1, h2, Option.pure_def, Option.bind_eq_bind, Option.bind_some]
  · simp only [FeeWorld.insideY, world, h1, h2, Option.pure_def, Option.bind_eq_bind, Option.bind_some]

private theorem amountDelta_succeeds {t l u : Int} {p L pl pu : Nat} (hlu : l ≤ u) (hp : PriceOK p)
    (hpl : calculateSqrtPrice l = .ok pl) (hpu : calculateSqrtPrice u = .ok pu) (hL : L < 2 ^ 256)
    (hx : amountX (clampPrice t l u p pl pu) pu L < 2 ^ 255)
    (hy : amountY pl (clampPrice t l u p pl pu) L < 2 ^ 256) :
    ∃ r, calculateAmountDelta t p L false u l = .ok r := by
  have P1 := calculateSqrtPrice_ge_min hpl
  have P2 := calculateSqrtPrice_le_max hpl
  have P3 := calculateSqrtPrice_ge_min hpu
  have P4 := calculateSqrtPrice_le_max hpu
  have small : ∀ {q}, q ≤ MAX_SQRT_PRICE → q < 2 ^ 128 := fun h =>
    lt_of_le_of_lt h (by norm_num [MAX_SQRT_PRICE])
  have dy : ∀ {a b}, a ≤ MAX_SQRT_PRICE → b ≤ MAX_SQRT_PRICE → amountY a b L < 2 ^ 256 →
      ∃ y, getDeltaY a b L false = .ok y := by
    intro a b ha hb h
    rw [(C03_amount_y (small ha) (small hb) hL).2, if_pos]
    · exact ⟨_, rfl⟩
    · have h0 : 0 ≤ amountY a b L := by unfold amountY liq; positivity
      have := Nat.floor_le h0
      have h2 : ((⌊amountY a b L⌋₊ : Nat) : ℚ) < ((2 ^ 256 : Nat) : ℚ) := by
        push_cast; exact lt_of_le_of_lt this h
      exact_mod_cast h2
  unfold calculateAmountDelta
  rw [failIf_neg (by omega), ok_bind]
  unfold clampPrice at hx hy
  by_cases h1 : t < l
  · rw [if_pos h1]
    rw [if_pos h1] at hx
    obtain ⟨x, hx⟩ := C04_succeeds P1 P2 P3 P4 hL hx false
    exact ⟨_, bind_ok_iff.2 ⟨_, hpl, bind_ok_iff.2 ⟨_, hpu, bind_ok_iff.2 ⟨_, hx, rfl⟩⟩⟩⟩
  · rw [if_neg h1]
    rw [if_neg h1] at hx hy
    by_cases h2 : t < u
    · rw [if_pos h2]
      rw [if_pos h2] at hx hy
      obtain ⟨x, hx⟩ := C04_succeeds hp.1 hp.2 P3 P4 hL hx false
      obtain ⟨y, hy⟩ := dy P2 hp.2 hy
      exact ⟨_, bind_ok_iff.2 ⟨_, hpu, bind_ok_iff.2 ⟨_, hx, bind_ok_iff.2 ⟨_, hpl, bind_ok_iff.2 ⟨_, hy, rfl⟩⟩⟩⟩⟩
    · rw [if_neg h2]
      rw [if_neg h2] at hy
      obtain ⟨y, hy⟩ := dy P2 P4 hy
      exact ⟨_, bind_ok_iff.2 ⟨_, hpl, bind_ok_iff.2 ⟨_, hpu, bind_ok_iff.2 ⟨_, hy, rfl⟩⟩⟩⟩

/-- C36, exactly when the owner can exit: if what they would own afterwards fits, the removal succeeds if and
only if the pool's liquidity counter covers the position while it is in range. (Full statement: it
succeeds in every reachable state; refuted by `C36_negation`.) -/
theorem C36_exit_partial (h : Reach32 s) (hp : s.positions.get env.caller index = .ok p)
    (hpl : s.pools.get p.poolKey = some pool) (hW : Worth s p pool wx wy fx fy)
    (hx : wx + fx + bal s.balances env.caller p.poolKey.tokenX < 2 ^ 255)
    (hy : wy + fy + bal s.balances env.caller p.poolKey.tokenY < 2 ^ 256) :
    (∃ s' x y, removePosition env s index = .ok (s', x, y)) ↔
      (p.lowerTickIndex ≤ pool.currentTickIndex → pool.currentTickIndex < p.upperTickIndex →
        p.liquidity ≤ pool.liquidity) := by
  have hr := (reach32_reach s h).1
  constructor
  · rintro ⟨s', x, y, hrem⟩ h1 h2
    exact remove_needs hr hrem hp hpl h1 h2
  · intro hL
    have hw := reach_wf s hr
    have hac := reach_acc s hr
    obtain ⟨lo, up, h1, h2, -⟩ := pos_stored_ticks h (posGet_ok.1 hp)
    have hP := (hw.pos _ _ (posGet_ok.1 hp)).1
    obtain ⟨pl, pu, ix, iy, e1, e2, e3, e4, e5, e6, e7, e8⟩ := hW
    simp only [FeeWorld.insideX, FeeWorld.insideY, world, h1, h2, Option.pure_def, Option.bind_eq_bind,
      Option.bind_some, Option.some.injEq] at e3 e4
    rw [cutPrice_eq] at e5 e6
    have x0 : (0 : ℚ) ≤ wx := by rw [e5]; unfold amountX liq; positivity
    have y0 : (0 : ℚ) ≤ wy := by rw [e6]; unfold amountY liq; positivity
    have px : (0 : ℚ) ≤ fx := by positivity
    have py : (0 : ℚ) ≤ fy := by positivity
    have bx : (0 : ℚ) ≤ bal s.balances env.caller p.poolKey.tokenX := by positivity
    have by_ : (0 : ℚ) ≤ bal s.balances env.caller p.poolKey.tokenY := by positivity
    have hprice := reach_price s hr _ _ hpl
    obtain ⟨⟨x, y, i⟩, ha⟩ := amountDelta_succeeds (t := pool.currentTickIndex) (le_of_lt hP.lt) hprice e1 e2
      hP.liqLt (by rw [← e5]; linarith) (by rw [← e6]; linarith)
    obtain ⟨pl', pu', f1, f2, -, f3, f4, -⟩ := calculateAmountDelta_ok ha
    rw [e1] at f1; cases f1
    rw [e2] at f2; cases f2
    have hpu0 : 0 < pu := lt_of_lt_of_le (by norm_num [MIN_SQRT_PRICE]) (calculateSqrtPrice_ge_min e2)
    have hc0 : 0 < clampPrice pool.currentTickIndex p.lowerTickIndex p.upperTickIndex pool.sqrtPrice pl pu :=
      lt_of_lt_of_le (by norm_num [MIN_SQRT_PRICE]) (clampPrice_ge hprice.1 e1 e2)
    have xle : (x : ℚ) ≤ wx := by
      rw [e5, f3, dxR_false]; exact dxDown_le_amountX hc0 hpu0 _
    have yle : (y : ℚ) ≤ wy := by
      rw [e6, f4, dyR_false, dyDown_eq_floor]
      exact Nat.floor_le (by rw [← e6]; exact y0)
    have A := hac.pool _ _ hpl
    have B := hac.tick _ _ h1
    have C := hac.tick _ _ h2
    have D := hac.pos _ _ (posGet_ok.1 hp)
    obtain ⟨r, hrem⟩ := remove_succeeds (env := env) (fx := fx) (fy := fy) h hp hpl h1 h2
      (by rw [fgSub_eq (feeGrowthInside1_lt B.1 C.1 A.1) D.1, e3]; exact e7)
      (by rw [fgSub_eq (feeGrowthInside1_lt B.2 C.2 A.2) D.2.1, e4]; exact e8) ha
      (by
        rw [← bal_balOf]
        have : ((bal s.balances env.caller p.poolKey.tokenX + (x + fx) : Nat) : ℚ) < ((2 ^ 256 : Nat) : ℚ) := by
          push_cast
          have : (2 : ℚ) ^ 255 < 2 ^ 256 := by norm_num
          linarith
        exact_mod_cast this)
      (by
        rw [← bal_balOf]
        have : ((bal s.balances env.caller p.poolKey.tokenY + (y + fy) : Nat) : ℚ) < ((2 ^ 256 : Nat) : ℚ) := by
          push_cast
          linarith
        exact_mod_cast this) hL
    exact ⟨r.1, r.2.1, r.2.2, hrem⟩

/-- C36 for histories in which no swap ends near an initialised tick (`Near`): the
owner of any position can remove it, as long as what they would own afterwards fits. -/
theorem C36_clear_partial (h : Clear s) (hp : s.positions.get env.caller index = .ok p)
    (hpl : s.pools.get p.poolKey = some pool) (hW : Worth s p pool wx wy fx fy)
    (hx : wx + fx + bal s.balances env.caller p.poolKey.tokenX < 2 ^ 255)
    (hy : wy + fy + bal s.balances env.caller p.poolKey.tokenY < 2 ^ 256) :
    ∃ s' x y, removePosition env s index = .ok (s', x, y) := by
  refine (C36_exit_partial (clear_reach32 _ h) hp hpl hW hx hy).2 fun h1 h2 => ?_
  rw [C34_clear_partial h hpl, activeLiq_eq]
  have h3 : aC p.poolKey pool.currentTickIndex p ≤ posSum s.positions (aC p.poolKey pool.currentTickIndex) :=
    Map.le_sum (f := fun _ q => aC p.poolKey pool.currentTickIndex q) (fun _ _ _ => Nat.zero_le _)
      (posGet_ok.1 hp)
  have h4 : aC p.poolKey pool.currentTickIndex p = p.liquidity := by
    unfold aC; rw [if_pos ⟨rfl, h1, h2⟩]
  omega

/-- C36, what the exit pays and removes: the curve amounts, for Y rounded down and for X rounded down up to one
unit and a relative error of 1/(2.3·10^14), plus the accrued fees; they are credited to the caller, nobody
else's balance changes, and exactly this position leaves the caller's list. -/
theorem C36_pays {x y : Nat} (h : Reach32 s) (hrem : removePosition env s index = .ok (s', x, y)) :
    ∃ p pool wx wy fx fy a L, s.positions.get env.caller index = .ok p ∧ s.pools.get p.poolKey = some pool ∧
      Worth s p pool wx wy fx fy ∧
      x = a + fx ∧ (a : ℚ) ≤ wx ∧ wx < a + 1 + (wx + 1) / (23 * 10 ^ 13) ∧ y = ⌊wy⌋₊ + fy ∧
      bal s'.balances env.caller p.poolKey.tokenX = bal s.balances env.caller p.poolKey.tokenX + x ∧
      bal s'.balances env.caller p.poolKey.tokenY = bal s.balances env.caller p.poolKey.tokenY + y ∧
      (∀ b t, (b ≠ env.caller ∨ (t ≠ p.poolKey.tokenX ∧ t ≠ p.poolKey.tokenY)) →
        bal s'.balances b t = bal s.balances b t) ∧
      s.positions.getAll env.caller = .ok L ∧ L[index]? = some p ∧
      s'.positions.getAll env.caller = .ok (swapRemove L index) ∧
      ∀ b, b ≠ env.caller → s'.positions.getAll b = s.positions.getAll b := by
  have hr := (reach32_reach s h).1
  have hf := (reach32_reach s h).2
  have hw := reach_wf s hr
  have hac := reach_acc s hr
  obtain ⟨p, lo, up, pool, m, ps, b, tm1, tm2, he, hxy, b1, hb1, hb2⟩ := removePosition_full hw.indexed hrem
  dsimp only at he hxy hb1 hb2
  obtain ⟨rfl, rfl⟩ := Prod.mk.inj hxy
  have A := hac.pool _ _ he.hpool
  have B := hac.tick _ _ he.hlt
  have C := hac.tick _ _ he.hut
  have D := hac.pos _ _ (posGet_ok.1 he.get)
  obtain ⟨c1, c2, c3⟩ := credit_two (poolKey_ne hr he.hpool) hb1 hb2
  obtain ⟨i, hi⟩ := he.mod.pool.amounts
  rw [hw.indexed _ _ _ he.hlt, hw.indexed _ _ _ he.hut] at hi
  dsimp only at hi
  obtain ⟨pl, pu, f1, f2, -, f3, f4, -⟩ := calculateAmountDelta_ok hi
  have hprice := reach_price s hr _ _ he.hpool
  have hc := clampPrice_ge (t := pool.currentTickIndex) (l := p.lowerTickIndex) (u := p.upperTickIndex)
    hprice.1 f1 f2
  have hpu := calculateSqrtPrice_ge_min f2
  have hpos : ∀ {q}, MIN_SQRT_PRICE ≤ q → 0 < q := fun h =>
    lt_of_lt_of_le (by norm_num [MIN_SQRT_PRICE]) h
  obtain ⟨Ls, hLs⟩ := reach32_listed s h
  have hlen := listed_len hLs env.caller
  have hfw := hf env.caller
  have hidx : (Ls env.caller)[index]? = some p := by
    have := posRepr_get hLs env.caller index
    rw [he.get] at this
    cases hc : (Ls env.caller)[index]? with
    | none => rw [hc] at this; cases this
    | some v => rw [hc] at this; cases this; rfl
  obtain ⟨ps', hps', hrep⟩ := (posRepr_remove hLs (a := env.caller) (by omega) index).1 p hidx
  have hps := he.rem
  rw [hps'] at hps
  cases hps
  have eb : s'.balances = b := by rw [he.res]
  have ep : s'.positions = ps := by rw [he.res]
  rw [eb, ep]
  refine ⟨p, pool, _, _, _, _, m.amountX, Ls env.caller, he.get, he.hpool,
    ⟨pl, pu, feeGrowthInside1 lo.index lo.feeGrowthOutsideX up.index up.feeGrowthOutsideX
      pool.currentTickIndex pool.feeGrowthGlobalX, feeGrowthInside1 lo.index lo.feeGrowthOutsideY up.index
      up.feeGrowthOutsideY pool.currentTickIndex pool.feeGrowthGlobalY, f1, f2, ?_, ?_, rfl, rfl, rfl, rfl⟩,
    ?_, ?_, ?_, ?_, c1, c2, c3, posRepr_getAll hLs _, hidx, ?_, ?_⟩
  · simp only [FeeWorld.insideX, world, he.hlt, he.hut, Option.pure_def, Option.bind_eq_bind,
      Option.bind_some]
  · simp only [FeeWorld.insideY, world, he.hlt, he.hut, Option.pure_def, Option.bind_eq_bind,
      Option.bind_some]
  · rw [he.mod.pos.owedX, D.2.2.1, Nat.zero_add, fgSub_eq (feeGrowthInside1_lt B.1 C.1 A.1) D.1]
  · rw [f3, dxR_false]; exact dxDown_le_amountX (hpos hc) (hpos hpu) _
  · rw [f3, dxR_false]; exact amountX_lt_dxDown hc hpu _
  · rw [he.mod.pos.owedY, D.2.2.2, Nat.zero_add, fgSub_eq (feeGrowthInside1_lt B.2 C.2 A.2) D.2.1, f4,
      dyR_false, dyDown_eq_floor]
    rfl
  · rw [posRepr_getAll hrep, put_same]
  · intro a ha
    rw [posRepr_getAll hrep, posRepr_getAll hLs, put_other _ _ ha]

/-! ### the negation -/

namespace Exploit

/-- user 2 has a position with the range 0..10, user 3 one with the range 10..20 -/
def f1 : Inv := runAll s0 [(by_ 1, .addFeeTier tier), (by_ 2, .createPool 5 7 tier (10 ^ 24) 0),
  (by_ 2, .createPosition key 0 10 (10 ^ 14) 0 (10 ^ 25)),
  (by_ 3, .createPosition key 10 20 (10 ^ 15) 0 (10 ^ 25))]

/-- user 2 buys exactly up to tick 10, with the limit at the price of that tick -/
def f2 : Inv := run (by_ 2) f1 (.swap key false 500101 true p10)

end Exploit
open Exploit

private def f2pool : Pool := ⟨10 ^ 14, p10, 10, 0, 0, 0, 0, 1000, 1000, 1⟩
private def f2pos : Position := ⟨key, 10 ^ 15, 10, 20, 0, 0, 5, 0, 0⟩

/-- C36 is false: after one swap by user 2, user 3 cannot remove their position, whose amounts are far below
2^255. -/
theorem C36_negation : ¬ ∀ (env : Env) (s : Inv) (index : Nat) (p : Position) (pool : Pool) (wx wy : ℚ)
    (fx fy : Nat), Reach s → s.positions.get env.caller index = .ok p → s.pools.get p.poolKey = some pool →
    Worth s p pool wx wy fx fy → wx + fx + bal s.balances env.caller p.poolKey.tokenX < 2 ^ 255 →
    wy + fy + bal s.balances env.caller p.poolKey.tokenY < 2 ^ 255 →
    ∃ r, removePosition env s index = .ok r := by
  intro h
  obtain ⟨held, hb, _⟩ := s0_books
  have hr : Reach f2 := books_reach (books_run (books_runAll _ (by simp [NoVara]) hb) _ _
    (by simp [NoVara]))
  have h1 : f2.positions.get 3 0 = .ok f2pos := by decide +kernel
  have h2 : f2.pools.get key = some f2pool := by decide +kernel
  have h3 : (removePosition (by_ 3) f2 0).toOption.isSome = false := by decide +kernel
  have h4 : calculateSqrtPrice 10 = .ok p10 := by decide +kernel
  have h5 : calculateSqrtPrice 20 = .ok 1001000450120000000000000 := by decide +kernel
  have h6 : (world f2 key f2pool).insideX 10 20 = some 0 := by decide +kernel
  have h7 : (world f2 key f2pool).insideY 10 20 = some 0 := by decide +kernel
  have h8 : bal f2.balances 3 5 ≤ 10 ^ 9 := by decide +kernel
  have h9 : bal f2.balances 3 7 = 0 := by decide +kernel
  have h8' : (bal f2.balances 3 5 : ℚ) ≤ 10 ^ 9 := by exact_mod_cast h8
  have h9' : (bal f2.balances 3 7 : ℚ) = 0 := by rw [h9]; rfl
  obtain ⟨r, hr'⟩ := h (by_ 3) f2 0 f2pos f2pool (amountX p10 1001000450120000000000000 (10 ^ 15))
    (amountY p10 p10 (10 ^ 15)) 0 0 hr h1 h2
    ⟨p10, 1001000450120000000000000, 0, 0, h4, h5, h6, h7, rfl, rfl, by decide, by decide⟩
    (by
      have : amountX p10 1001000450120000000000000 (10 ^ 15) ≤ 10 ^ 30 := by
        unfold amountX liq price p10
        rw [abs_of_pos (by norm_num)]
        norm_num
      refine lt_of_le_of_lt (add_le_add (add_le_add this (le_refl _)) h8') (by norm_num))
    (by
      change amountY p10 p10 (10 ^ 15) + ((0 : Nat) : ℚ) + (bal f2.balances 3 7 : ℚ) < 2 ^ 255
      rw [h9']
      unfold amountY
      norm_num)
  rw [hr'] at h3
  cases h3

/-- The amounts at stake are small (4996001 units, as the same removal before the swap shows). Afterwards
swaps in the other direction fail as well, and so do larger swaps in the same direction. -/
example :
    (removePosition (by_ 3) f1 0).toOption.map (fun r => r.2) = some (4996001, 0) ∧
    (f2.pools.get key).map (fun p => (p.currentTickIndex, p.liquidity, activeLiq f2 key p.currentTickIndex)) =
      some (10, 10 ^ 14, 10 ^ 15) ∧
    (swap (by_ 3) f2 key true 1000 true MIN_SQRT_PRICE).toOption.isSome = false ∧
    (swap (by_ 2) f2 key false (10 ^ 7) true MAX_SQRT_PRICE).toOption.isSome = false := by
  decide +kernel

/-- removals in the demo history: out of the range of the first position's neighbour, with the fees a claim
would have paid -/
example : (removePosition (Demo.by_ 2) Demo.traded 0).toOption.map (fun r => r.2) = some (16975799, 3024345) ∧
    (claimFee (Demo.by_ 2) Demo.traded 0).toOption.map (fun r => r.2) = some (6279, 0) ∧
    (removePosition (Demo.by_ 3) Demo.traded 0).toOption.map (fun r => r.2) = some (30012004, 0) ∧
    (claimFee (Demo.by_ 3) Demo.traded 0).toOption.map (fun r => r.2) = some (13503, 0) := by
  decide +kernel

end Verif
