import Verif.Proofs.Amount
import Verif.Proofs.Collect

/-! # What adding and removing liquidity does to ticks, pool and position -/

namespace Verif

/-- signed liquidity change of a tick -/
def Tick.net (t : Tick) : Int := if t.sign then (t.liquidityChange : Int) else -(t.liquidityChange : Int)

/-- everything `Tick::update` does -/
structure TickUpd (t t' : Tick) (delta m : Nat) (upper deposit : Bool) : Prop where
  eq : t' = { t with sign := t'.sign, liquidityChange := t'.liquidityChange
                     liquidityGross := t'.liquidityGross }
  net : t'.net = t.net + if xor deposit upper then (delta : Int) else -(delta : Int)
  dep : deposit = true → t'.liquidityGross = t.liquidityGross + delta ∧ t'.liquidityGross < m ∧
    t'.liquidityGross < 2 ^ 256
  wdr : deposit = false → t.liquidityGross = t'.liquidityGross + delta

theorem gross_ok {t : Tick} {delta m g : Nat} {d : Bool}
    (h : t.calculateNewLiquidityGross d delta m = .ok g) :
    (d = true → g = t.liquidityGross + delta ∧ g < m ∧ g < 2 ^ 256) ∧
    (d = false → t.liquidityGross = g + delta) := by
  unfold Tick.calculateNewLiquidityGross at h
  simp only [bind_ok_iff, failIf_ok_iff, pure_ok_iff] at h
  obtain ⟨_, h1, g', h2, _, h3, rfl⟩ := h
  cases d with
  | true =>
    simp only [if_true, addC_ok_iff, true_and, not_le, ge_iff_le] at h2 h3
    obtain ⟨h2, rfl⟩ := h2
    exact ⟨fun _ => ⟨rfl, h3, h2⟩, by simp⟩
  | false =>
    simp only [Bool.false_eq_true, if_false, subC_ok_iff] at h2
    obtain ⟨h2, rfl⟩ := h2
    exact ⟨by simp, fun _ => by omega⟩

theorem change_ok {t t' : Tick} {delta : Nat} {add : Bool}
    (h : t.updateLiquidityChange delta add = .ok t') :
    t' = { t with sign := t'.sign, liquidityChange := t'.liquidityChange } ∧
    t'.net = t.net + if add then (delta : Int) else -(delta : Int) := by
  unfold Tick.updateLiquidityChange at h
  rw [ite_ok_iff] at h
  rcases h with ⟨hx, h⟩ | ⟨hx, h⟩
  · rw [ite_ok_iff] at h
    rcases h with ⟨hc, h⟩ | ⟨hc, h⟩
    · cases h
      refine ⟨rfl, ?_⟩
      unfold Tick.net
      cases hs : t.sign <;> cases add <;> simp [hs] at hx ⊢ <;> omega
    · cases h
      refine ⟨rfl, ?_⟩
      unfold Tick.net
      cases hs : t.sign <;> cases add <;> simp [hs] at hx ⊢ <;> omega
  · simp only [bind_ok_iff, addC_ok_iff, pure_ok_iff] at h
    obtain ⟨_, ⟨_, rfl⟩, rfl⟩ := h
    refine ⟨rfl, ?_⟩
    unfold Tick.net
    cases hs : t.sign <;> cases add <;> simp [hs] at hx ⊢ <;> omega

theorem tickUpdate_full {t t' : Tick} {delta m : Nat} {u d : Bool}
    (h : t.update delta m u d = .ok t') : TickUpd t t' delta m u d := by
  unfold Tick.update at h
  rw [bind_ok_iff] at h
  obtain ⟨g, hg, h⟩ := h
  obtain ⟨h1, h2⟩ := change_ok h
  obtain ⟨h3, h4⟩ := gross_ok hg
  have e : t'.liquidityGross = g := by rw [h1]
  refine ⟨?_, h2, ?_, ?_⟩
  · rw [e]; rw [h1]
  · rw [e]; exact h3
  · rw [e]; exact h4

theorem TickUpd.index {t t' : Tick} {delta m : Nat} {u d : Bool} (h : TickUpd t t' delta m u d) :
    t'.index = t.index := by rw [h.eq]
theorem TickUpd.price {t t' : Tick} {delta m : Nat} {u d : Bool} (h : TickUpd t t' delta m u d) :
    t'.sqrtPrice = t.sqrtPrice := by rw [h.eq]
theorem TickUpd.outX {t t' : Tick} {delta m : Nat} {u d : Bool} (h : TickUpd t t' delta m u d) :
    t'.feeGrowthOutsideX = t.feeGrowthOutsideX := by rw [h.eq]
theorem TickUpd.outY {t t' : Tick} {delta m : Nat} {u d : Bool} (h : TickUpd t t' delta m u d) :
    t'.feeGrowthOutsideY = t.feeGrowthOutsideY := by rw [h.eq]

/-- everything `update_liquidity` does; the token amounts are `x` and `y` -/
structure PoolUpd (pool pool' : Pool) (delta : Nat) (sign : Bool) (u l : Int) (x y : Nat) : Prop where
  eq : pool' = { pool with liquidity := pool'.liquidity }
  amounts : ∃ i, calculateAmountDelta pool.currentTickIndex pool.sqrtPrice delta sign u l = .ok (x, y, i)
  out : ¬ (l ≤ pool.currentTickIndex ∧ pool.currentTickIndex < u) → pool'.liquidity = pool.liquidity
  add : sign = true → l ≤ pool.currentTickIndex → pool.currentTickIndex < u →
    pool'.liquidity = pool.liquidity + delta ∧ pool'.liquidity < 2 ^ 256
  sub : sign = false → l ≤ pool.currentTickIndex → pool.currentTickIndex < u →
    pool.liquidity = pool'.liquidity + delta

theorem updateLiquidity_full {pool : Pool} {delta : Nat} {s : Bool} {u l : Int}
    {r : Pool × Nat × Nat} (h : pool.updateLiquidity delta s u l = .ok r) :
    PoolUpd pool r.1 delta s u l r.2.1 r.2.2 := by
  unfold Pool.updateLiquidity at h
  rw [bind_ok_iff] at h
  obtain ⟨⟨x, y, i⟩, hc, h⟩ := h
  obtain ⟨_, _, _, _, _, _, _, hi, _⟩ := calculateAmountDelta_ok hc
  dsimp only at h
  rw [ite_ok_iff] at h
  rcases h with ⟨hf, h⟩ | ⟨hf, h⟩
  · simp only [pure_ok_iff] at h
    subst h
    subst hf
    have hn : ¬ (l ≤ pool.currentTickIndex ∧ pool.currentTickIndex < u) := by
      intro hc; exact absurd (hi.2 hc) (by simp)
    refine ⟨rfl, ⟨_, hc⟩, fun _ => rfl, fun _ h1 h2 => absurd ⟨h1, h2⟩ hn,
      fun _ h1 h2 => absurd ⟨h1, h2⟩ hn⟩
  · have ht : i = true := by cases i <;> simp_all
    subst ht
    have hin := hi.1 rfl
    cases s with
    | true =>
      simp only [if_true, bind_ok_iff, addC_ok_iff, pure_ok_iff] at h
      obtain ⟨_, ⟨hlt, rfl⟩, rfl⟩ := h
      exact ⟨rfl, ⟨_, hc⟩, fun hn => absurd hin hn, fun _ _ _ => ⟨rfl, hlt⟩, by simp⟩
    | false =>
      simp only [Bool.false_eq_true, if_false, bind_ok_iff, subC_ok_iff, pure_ok_iff] at h
      obtain ⟨_, ⟨hle, rfl⟩, rfl⟩ := h
      exact ⟨rfl, ⟨_, hc⟩, fun hn => absurd hin hn, by simp,
        fun _ _ _ => by dsimp only; omega⟩

/-- everything `Position::update` does -/
structure PosUpd (p p' : Position) (sign : Bool) (delta gx gy : Nat) : Prop where
  eq : p' = { p with liquidity := p'.liquidity, feeGrowthInsideX := gx, feeGrowthInsideY := gy
                     tokensOwedX := p'.tokensOwedX, tokensOwedY := p'.tokensOwedY }
  owedX : p'.tokensOwedX = p.tokensOwedX + fgSub gx p.feeGrowthInsideX * p.liquidity / 10 ^ 33
  owedY : p'.tokensOwedY = p.tokensOwedY + fgSub gy p.feeGrowthInsideY * p.liquidity / 10 ^ 33
  fitX : p'.tokensOwedX < 2 ^ 256
  fitY : p'.tokensOwedY < 2 ^ 256
  ne : ¬ (delta = 0 ∧ p.liquidity = 0)
  add : sign = true → p'.liquidity = p.liquidity + delta ∧ p'.liquidity < 2 ^ 256
  sub : sign = false → p.liquidity = p'.liquidity + delta

theorem posUpdate_full {p p' : Position} {sign : Bool} {delta gx gy : Nat}
    (h : p.update sign delta gx gy = .ok p') : PosUpd p p' sign delta gx gy := by
  unfold Position.update at h
  simp only [bind_ok_iff, failIf_ok_iff, addC_ok_iff, pure_ok_iff] at h
  obtain ⟨_, hne, ox, hox, oy, hoy, l, hl, tx, ⟨h1, rfl⟩, ty, ⟨h2, rfl⟩, rfl⟩ := h
  have e1 := fgToFee_eq hox
  have e2 := fgToFee_eq hoy
  subst e1; subst e2
  unfold Position.calculateNewLiquidity at hl
  simp only [bind_ok_iff, failIf_ok_iff] at hl
  obtain ⟨_, hc, hl⟩ := hl
  refine ⟨rfl, rfl, rfl, h1, h2, hne, ?_, ?_⟩
  · rintro rfl
    simp only [if_true, addC_ok_iff] at hl
    exact ⟨hl.2, by rw [hl.2]; exact hl.1⟩
  · rintro rfl
    simp only [Bool.false_eq_true, if_false, subC_ok_iff] at hl
    dsimp only
    omega

/-- everything `Position::modify` does -/
structure ModifyOk (p : Position) (pool : Pool) (u l : Tick) (delta : Nat) (add : Bool) (now sp : Nat)
    (r : ModifyResult) : Prop where
  lower : TickUpd l r.lower delta (calculateMaxLiquidityPerTick sp) false add
  upper : TickUpd u r.upper delta (calculateMaxLiquidityPerTick sp) true add
  pos : PosUpd p r.position add delta
    (feeGrowthInside1 l.index l.feeGrowthOutsideX u.index u.feeGrowthOutsideX pool.currentTickIndex
      pool.feeGrowthGlobalX)
    (feeGrowthInside1 l.index l.feeGrowthOutsideY u.index u.feeGrowthOutsideY pool.currentTickIndex
      pool.feeGrowthGlobalY)
  pool : PoolUpd { pool with lastTimestamp := now } r.pool delta add u.index l.index r.amountX r.amountY

theorem modify_full {p : Position} {pool : Pool} {u l : Tick} {delta now sp : Nat} {add : Bool}
    {r : ModifyResult} (h : p.modify pool u l delta add now sp = .ok r) :
    ModifyOk p pool u l delta add now sp r := by
  unfold Position.modify at h
  simp only [bind_ok_iff, pure_ok_iff] at h
  obtain ⟨l', hl, u', hu, p', hp, q, hq, rfl⟩ := h
  have hl := tickUpdate_full hl
  have hu := tickUpdate_full hu
  rw [hl.index, hu.index, hl.outX, hl.outY, hu.outX, hu.outY] at hp
  rw [hl.index, hu.index] at hq
  exact ⟨hl, hu, posUpdate_full hp, updateLiquidity_full hq⟩

theorem create_full {pool : Pool} {key : PoolKey} {l u : Tick} {now delta ll lu bn sp : Nat}
    {r : ModifyResult} (h : Position.create pool key l u now delta ll lu bn sp = .ok r) :
    ll ≤ pool.sqrtPrice ∧ pool.sqrtPrice ≤ lu ∧
    ModifyOk ⟨key, 0, l.index, u.index, 0, 0, bn, 0, 0⟩ pool u l delta true now sp r := by
  unfold Position.create at h
  simp only [bind_ok_iff, failIf_ok_iff, unwrap_ok_iff] at h
  obtain ⟨_, h1, h2⟩ := h
  push Not at h1
  exact ⟨h1.1, h1.2, modify_full h2⟩

theorem claim_full {p : Position} {pool : Pool} {l u : Tick} {now : Nat} {r : ModifyResult}
    (h : p.claimFee pool u l now = .ok r) :
    ∃ m, ModifyOk p pool u l 0 true now p.poolKey.feeTier.tickSpacing m ∧
      r = { m with position := { m.position with tokensOwedX := 0, tokensOwedY := 0 }
                   amountX := m.position.tokensOwedX, amountY := m.position.tokensOwedY } := by
  unfold Position.claimFee at h
  simp only [bind_ok_iff, unwrap_ok_iff, pure_ok_iff] at h
  obtain ⟨m, h1, rfl⟩ := h
  exact ⟨m, modify_full h1, rfl⟩

theorem remove_full {p : Position} {pool : Pool} {l u : Tick} {now sp : Nat} {r : ModifyResult}
    (h : p.remove pool now l u sp = .ok r) :
    ∃ m, ModifyOk p pool u l p.liquidity false now sp m ∧
      m.amountX + m.position.tokensOwedX < 2 ^ 256 ∧ m.amountY + m.position.tokensOwedY < 2 ^ 256 ∧
      r = { m with amountX := m.amountX + m.position.tokensOwedX
                   amountY := m.amountY + m.position.tokensOwedY } := by
  unfold Position.remove at h
  simp only [bind_ok_iff, unwrap_ok_iff, addC_ok_iff, pure_ok_iff] at h
  obtain ⟨m, h1, _, ⟨h2, rfl⟩, _, ⟨h3, rfl⟩, rfl⟩ := h
  exact ⟨m, modify_full h1, h2, h3, rfl⟩

end Verif
