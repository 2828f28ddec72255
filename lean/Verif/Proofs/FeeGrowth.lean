import Verif.Spec.FeeHistory
import Verif.Proofs.Arith
import Mathlib.Data.ZMod.Basic

/-! # Fee growth modulo 2^128 -/

namespace Verif

/-- the accumulator ring -/
abbrev FG := ZMod (2 ^ 128)

theorem fgAdd_eq {a b : Nat} (ha : a < 2 ^ 128) (hb : b < 2 ^ 128) :
    fgAdd a b = (a + b) % 2 ^ 128 := by
  unfold fgAdd
  split <;> omega

theorem fgSub_eq {a b : Nat} (ha : a < 2 ^ 128) (hb : b < 2 ^ 128) :
    fgSub a b = (a + (2 ^ 128 - b)) % 2 ^ 128 := by
  unfold fgSub
  split <;> omega

theorem fgAdd_lt {a b : Nat} (ha : a < 2 ^ 128) (hb : b < 2 ^ 128) : fgAdd a b < 2 ^ 128 := by
  rw [fgAdd_eq ha hb]; exact Nat.mod_lt _ (by positivity)

theorem fgSub_lt {a b : Nat} (ha : a < 2 ^ 128) (hb : b < 2 ^ 128) : fgSub a b < 2 ^ 128 := by
  rw [fgSub_eq ha hb]; exact Nat.mod_lt _ (by positivity)

theorem fg_cast_mod (a : Nat) : ((a % 2 ^ 128 : Nat) : FG) = (a : FG) := ZMod.natCast_mod a _

theorem fgAdd_cast {a b : Nat} (ha : a < 2 ^ 128) (hb : b < 2 ^ 128) :
    (fgAdd a b : FG) = a + b := by
  rw [fgAdd_eq ha hb, fg_cast_mod, Nat.cast_add]

theorem fgSub_cast {a b : Nat} (ha : a < 2 ^ 128) (hb : b < 2 ^ 128) :
    (fgSub a b : FG) = a - b := by
  rw [fgSub_eq ha hb, fg_cast_mod, Nat.cast_add, Nat.cast_sub hb.le, ZMod.natCast_self]
  ring

theorem fg_cast_inj {a b : Nat} (ha : a < 2 ^ 128) (h : (a : FG) = (b : FG)) : a = b % 2 ^ 128 := by
  have := (ZMod.natCast_eq_natCast_iff' a b _).1 h
  rwa [Nat.mod_eq_of_lt ha] at this

/-- the inside growth in the accumulator ring -/
theorem feeGrowthInside1_cast {lo hi cur : Int} {a b g : Nat} (ha : a < 2 ^ 128) (hb : b < 2 ^ 128)
    (hg : g < 2 ^ 128) :
    (feeGrowthInside1 lo a hi b cur g : FG) =
      g - (if lo ≤ cur then (a : FG) else g - a) - (if hi ≤ cur then (g : FG) - b else b) := by
  unfold feeGrowthInside1
  have h1 : (if cur ≥ lo then a else fgSub g a) < 2 ^ 128 := by
    split
    · exact ha
    · exact fgSub_lt hg ha
  have h2 : (if cur < hi then b else fgSub g b) < 2 ^ 128 := by
    split
    · exact hb
    · exact fgSub_lt hg hb
  simp only []
  rw [fgSub_cast (fgSub_lt hg h1) h2, fgSub_cast hg h1]
  congr 1
  · congr 1
    by_cases h : lo ≤ cur
    · rw [if_pos h, if_pos h]
    · rw [if_neg h, if_neg h, fgSub_cast hg ha]
  · by_cases h : hi ≤ cur
    · rw [if_pos h, if_neg (by omega), fgSub_cast hg hb]
    · rw [if_neg h, if_pos (by omega)]

theorem feeGrowthInside1_lt {lo hi cur : Int} {a b g : Nat} (ha : a < 2 ^ 128) (hb : b < 2 ^ 128)
    (hg : g < 2 ^ 128) : feeGrowthInside1 lo a hi b cur g < 2 ^ 128 := by
  unfold feeGrowthInside1
  apply fgSub_lt
  · apply fgSub_lt hg
    split
    · exact ha
    · exact fgSub_lt hg ha
  · split
    · exact hb
    · exact fgSub_lt hg hb

theorem fgFromFee_eq {L fee g : Nat} (h : fgFromFee L fee = .ok g) :
    L ≠ 0 ∧ g = fee * 10 ^ 33 / L ∧ g < 2 ^ 128 := by
  unfold fgFromFee at h
  simp only [bind_ok_iff, mulC_ok_iff, divC_ok_iff, fit_ok_iff] at h
  obtain ⟨a, ⟨_, rfl⟩, b, ⟨_, rfl⟩, c, ⟨hL, rfl⟩, hlt, rfl⟩ := h
  refine ⟨hL, ?_, hlt⟩
  rw [Nat.mul_assoc]
  have : fgOne * liqOne = 10 ^ 33 := by decide
  rw [this]

/-- what `add_fee` does to the accumulators -/
theorem addFee_ok {pool p : Pool} {amount pf : Nat} {inX : Bool}
    (h : pool.addFee amount inX pf = .ok p) :
    ∃ g, g < 2 ^ 128 ∧ g = Spec.growth amount pf pool.liquidity ∧
      p.feeGrowthGlobalX = (if inX then fgAdd pool.feeGrowthGlobalX g else pool.feeGrowthGlobalX) ∧
      p.feeGrowthGlobalY = (if inX then pool.feeGrowthGlobalY else fgAdd pool.feeGrowthGlobalY g) ∧
      p.currentTickIndex = pool.currentTickIndex ∧ p.liquidity = pool.liquidity ∧
      p.sqrtPrice = pool.sqrtPrice := by
  unfold Pool.addFee at h
  simp only [bind_ok_iff, subC_ok_iff] at h
  obtain ⟨pf', hpf, pool', ⟨hle, rfl⟩, h⟩ := h
  have hp : pf' = (amount * pf + (10 ^ 12 - 1)) / 10 ^ 12 := by
    unfold tokMulPctUp bigMulUp at hpf
    simp only [bind_ok_iff, mulC_ok_iff, addC_ok_iff, fit_ok_iff] at hpf
    obtain ⟨_, ⟨_, rfl⟩, _, ⟨_, rfl⟩, _, rfl⟩ := hpf
    rfl
  have add0 : ∀ x, fgAdd x 0 = x := by
    intro x; unfold fgAdd; rw [if_neg (by omega)]; rfl
  rw [ite_ok_iff] at h
  rcases h with ⟨hc, h⟩ | ⟨_, h⟩
  · simp only [pure_ok_iff] at h
    subst h
    have hg : Spec.growth amount pf pool.liquidity = 0 := by
      unfold Spec.growth
      rw [← hp]
      rcases hc with ⟨hc, _⟩ | hc
      · rw [hc]; simp
      · rw [hc]; simp
    refine ⟨0, by positivity, hg.symm, ?_, ?_, rfl, rfl, rfl⟩
    · rw [add0, ite_self]
    · rw [add0, ite_self]
  · rw [bind_ok_iff] at h
    obtain ⟨g, hg, h⟩ := h
    obtain ⟨_, hg', hlt⟩ := fgFromFee_eq hg
    refine ⟨g, hlt, ?_, ?_⟩
    · rw [hg', hp]; rfl
    · rw [ite_ok_iff] at h
      rcases h with ⟨hx, h⟩ | ⟨hx, h⟩
      · simp only [bind_ok_iff, pure_ok_iff] at h
        obtain ⟨_, _, rfl⟩ := h
        simp [hx]
      · simp only [bind_ok_iff, pure_ok_iff] at h
        obtain ⟨_, _, rfl⟩ := h
        simp [hx]

theorem cross_ok {t t' : Tick} {pool p : Pool} {now : Nat} (h : t.cross pool now = .ok (t', p)) :
    t'.index = t.index ∧
    t'.feeGrowthOutsideX = fgSub pool.feeGrowthGlobalX t.feeGrowthOutsideX ∧
    t'.feeGrowthOutsideY = fgSub pool.feeGrowthGlobalY t.feeGrowthOutsideY ∧
    p.feeGrowthGlobalX = pool.feeGrowthGlobalX ∧ p.feeGrowthGlobalY = pool.feeGrowthGlobalY ∧
    p.currentTickIndex = pool.currentTickIndex ∧ p.sqrtPrice = pool.sqrtPrice := by
  unfold Tick.cross at h
  simp only [bind_ok_iff, pure_ok_iff, Prod.mk.injEq] at h
  obtain ⟨_, _, _, _, rfl, rfl⟩ := h
  simp

theorem tick_update_ok {t t' : Tick} {delta m : Nat} {u d : Bool}
    (h : t.update delta m u d = .ok t') :
    t'.index = t.index ∧ t'.feeGrowthOutsideX = t.feeGrowthOutsideX ∧
    t'.feeGrowthOutsideY = t.feeGrowthOutsideY := by
  unfold Tick.update at h
  rw [bind_ok_iff] at h
  obtain ⟨g, _, h⟩ := h
  unfold Tick.updateLiquidityChange at h
  rw [ite_ok_iff] at h
  rcases h with ⟨_, h⟩ | ⟨_, h⟩
  · rw [ite_ok_iff] at h
    rcases h with ⟨_, h⟩ | ⟨_, h⟩ <;> · cases h; simp
  · simp only [bind_ok_iff, pure_ok_iff] at h
    obtain ⟨_, _, rfl⟩ := h
    simp

theorem updateLiquidity_ok {pool : Pool} {delta : Nat} {s : Bool} {u l : Int} {r : Pool × Nat × Nat}
    (h : pool.updateLiquidity delta s u l = .ok r) :
    r.1.feeGrowthGlobalX = pool.feeGrowthGlobalX ∧ r.1.feeGrowthGlobalY = pool.feeGrowthGlobalY ∧
    r.1.currentTickIndex = pool.currentTickIndex ∧ r.1.sqrtPrice = pool.sqrtPrice := by
  unfold Pool.updateLiquidity at h
  rw [bind_ok_iff] at h
  obtain ⟨_, _, h⟩ := h
  rw [ite_ok_iff] at h
  rcases h with ⟨_, h⟩ | ⟨_, h⟩
  · simp only [pure_ok_iff] at h; subst h; simp
  · rw [ite_ok_iff] at h
    rcases h with ⟨_, h⟩ | ⟨_, h⟩ <;>
    · simp only [bind_ok_iff, pure_ok_iff] at h
      obtain ⟨_, _, rfl⟩ := h
      simp

theorem modify_growth_ok {pos : Position} {pool : Pool} {u l : Tick} {delta now sp : Nat} {add : Bool}
    {r : ModifyResult} (h : pos.modify pool u l delta add now sp = .ok r) :
    r.upper.index = u.index ∧ r.upper.feeGrowthOutsideX = u.feeGrowthOutsideX ∧
    r.upper.feeGrowthOutsideY = u.feeGrowthOutsideY ∧
    r.lower.index = l.index ∧ r.lower.feeGrowthOutsideX = l.feeGrowthOutsideX ∧
    r.lower.feeGrowthOutsideY = l.feeGrowthOutsideY ∧
    r.pool.feeGrowthGlobalX = pool.feeGrowthGlobalX ∧ r.pool.feeGrowthGlobalY = pool.feeGrowthGlobalY ∧
    r.pool.currentTickIndex = pool.currentTickIndex ∧ r.pool.sqrtPrice = pool.sqrtPrice := by
  unfold Position.modify at h
  simp only [bind_ok_iff, pure_ok_iff] at h
  obtain ⟨l', hl, u', hu, p', _, q, hq, rfl⟩ := h
  have := tick_update_ok hl
  have := tick_update_ok hu
  have := updateLiquidity_ok hq
  simp_all

theorem tick_create_ok {k : Int} {pool : Pool} {now : Nat} {t : Tick}
    (h : Tick.create k pool now = .ok t) :
    t.index = k ∧
    t.feeGrowthOutsideX = (if k ≤ pool.currentTickIndex then pool.feeGrowthGlobalX else 0) ∧
    t.feeGrowthOutsideY = (if k ≤ pool.currentTickIndex then pool.feeGrowthGlobalY else 0) := by
  unfold Tick.create at h
  simp only [bind_ok_iff, pure_ok_iff] at h
  obtain ⟨_, _, rfl⟩ := h
  simp

/-- how a stored tick evolves, seen by one reader: present before and after, and the pair
(side, outside growth) -/
theorem hist_wf {lo hi : Int} {w w' : FeeWorld} {gx gy : Nat} (h : FeeHist lo hi w w' gx gy)
    (hw : w.WF) : w'.WF := by
  induction h with
  | refl => exact hw
  | @fee w1 gx gy amount inX pf p hh hp ih =>
    obtain ⟨h1, h2, h3⟩ := ih
    obtain ⟨g, hg, _, hX, hY, _⟩ := addFee_ok hp
    refine ⟨?_, ?_, h3⟩
    · show p.feeGrowthGlobalX < _
      rw [hX]; split
      · exact fgAdd_lt h1 hg
      · exact h1
    · show p.feeGrowthGlobalY < _
      rw [hY]; split
      · exact h2
      · exact fgAdd_lt h2 hg
  | @cross w1 gx gy k t now t' p cur' hh hk hc hs ho ih =>
    obtain ⟨h1, h2, h3⟩ := ih
    obtain ⟨c1, c2, c3, c4, c5, _⟩ := cross_ok hc
    obtain ⟨t1, t2, t3⟩ := h3 k t hk
    refine ⟨?_, ?_, ?_⟩
    · show p.feeGrowthGlobalX < _
      rw [c4]; exact h1
    · show p.feeGrowthGlobalY < _
      rw [c5]; exact h2
    · intro j tj hj
      simp only [FeeWorld.setTick] at hj
      by_cases hjk : j = k
      · rw [if_pos hjk] at hj
        cases hj
        refine ⟨by rw [c1, t1, hjk], ?_, ?_⟩
        · rw [c2]; exact fgSub_lt h1 t2
        · rw [c3]; exact fgSub_lt h2 t3
      · rw [if_neg hjk] at hj
        exact h3 j tj hj
  | move hh hs ih => exact ih
  | @create w1 gx gy k now t hh hk hc ih =>
    obtain ⟨h1, h2, h3⟩ := ih
    obtain ⟨c1, c2, c3⟩ := tick_create_ok hc
    refine ⟨h1, h2, ?_⟩
    intro j tj hj
    simp only [FeeWorld.setTick] at hj
    by_cases hjk : j = k
    · rw [if_pos hjk] at hj
      cases hj
      refine ⟨by rw [c1, hjk], ?_, ?_⟩
      · rw [c2]; split
        · exact h1
        · positivity
      · rw [c3]; split
        · exact h2
        · positivity
    · rw [if_neg hjk] at hj
      exact h3 j tj hj
  | @drop w1 gx gy k hh hkl hkh ih =>
    obtain ⟨h1, h2, h3⟩ := ih
    refine ⟨h1, h2, ?_⟩
    intro j tj hj
    simp only [FeeWorld.setTick] at hj
    by_cases hjk : j = k
    · rw [if_pos hjk] at hj; cases hj
    · rw [if_neg hjk] at hj
      exact h3 j tj hj
  | @modify w1 gx gy a b ta tb pos delta add now spacing r hh hta htb hab hm ih =>
    obtain ⟨h1, h2, h3⟩ := ih
    obtain ⟨m1, m2, m3, m4, m5, m6, m7, m8, _⟩ := modify_growth_ok hm
    refine ⟨?_, ?_, ?_⟩
    · show r.pool.feeGrowthGlobalX < _
      rw [m7]; exact h1
    · show r.pool.feeGrowthGlobalY < _
      rw [m8]; exact h2
    · intro j tj hj
      simp only [FeeWorld.setTick] at hj
      by_cases hjb : j = b
      · rw [if_pos hjb] at hj
        cases hj
        obtain ⟨t1, t2, t3⟩ := h3 b tb htb
        exact ⟨by rw [m1, t1, hjb], by rw [m2]; exact t2, by rw [m3]; exact t3⟩
      · rw [if_neg hjb] at hj
        by_cases hja : j = a
        · rw [if_pos hja] at hj
          cases hj
          obtain ⟨t1, t2, t3⟩ := h3 a ta hta
          exact ⟨by rw [m4, t1, hja], by rw [m5]; exact t2, by rw [m6]; exact t3⟩
        · rw [if_neg hja] at hj
          exact h3 j tj hj

/-- the amount of growth on the far side of a stored tick (below it for a reader above), in the
ring; this is what `calculate_fee_growth_inside` computes per tick -/
def belowX (w : FeeWorld) (k : Int) (t : Tick) : FG :=
  if k ≤ w.pool.currentTickIndex then (t.feeGrowthOutsideX : FG)
  else w.pool.feeGrowthGlobalX - t.feeGrowthOutsideX

def belowY (w : FeeWorld) (k : Int) (t : Tick) : FG :=
  if k ≤ w.pool.currentTickIndex then (t.feeGrowthOutsideY : FG)
  else w.pool.feeGrowthGlobalY - t.feeGrowthOutsideY

theorem inside_eq_below {lo hi cur : Int} {a b g : Nat} (ha : a < 2 ^ 128) (hb : b < 2 ^ 128)
    (hg : g < 2 ^ 128) :
    (feeGrowthInside1 lo a hi b cur g : FG) =
      (if hi ≤ cur then (b : FG) else g - b) - (if lo ≤ cur then (a : FG) else g - a) := by
  rw [feeGrowthInside1_cast ha hb hg]
  split <;> split <;> ring

/-- growth that has accumulated below tick `k` over a history: tick `k` stays stored, and the
growth below it advances by what was added while the current tick was below `k` -/
theorem hist_below {lo hi : Int} {w w' : FeeWorld} {gx gy : Nat} (h : FeeHist lo hi w w' gx gy)
    (hw : w.WF) (hlh : lo < hi) {tl tu : Tick} (hl : w.ticks lo = some tl)
    (hu : w.ticks hi = some tu) :
    ∃ tl' tu', w'.ticks lo = some tl' ∧ w'.ticks hi = some tu' ∧
      belowX w' hi tu' - belowX w' lo tl' = belowX w hi tu - belowX w lo tl + (gx : FG) ∧
      belowY w' hi tu' - belowY w' lo tl' = belowY w hi tu - belowY w lo tl + (gy : FG) := by
  induction h with
  | refl => exact ⟨tl, tu, hl, hu, by simp, by simp⟩
  | @fee w1 gx gy amount inX pf p hh hp ih =>
    obtain ⟨tl', tu', hl', hu', ex, ey⟩ := ih
    obtain ⟨w1x, w1y, w1t⟩ := hist_wf hh hw
    obtain ⟨g, hg, hgs, hX, hY, hcur, _⟩ := addFee_ok hp
    refine ⟨tl', tu', hl', hu', ?_, ?_⟩
    · rw [Nat.cast_add, ← add_assoc, ← ex]
      unfold belowX
      simp only [hcur, hX, ← hgs]
      cases inX with
      | false => simp
      | true =>
        simp only [if_true, true_and, fgAdd_cast w1x hg, FeeWorld.inRange]
        by_cases c1 : hi ≤ w1.pool.currentTickIndex
        · have c2 : lo ≤ w1.pool.currentTickIndex := by omega
          simp [c1, c2]
        · by_cases c2 : lo ≤ w1.pool.currentTickIndex
          · have c3 : w1.pool.currentTickIndex < hi := by omega
            simp only [c1, c2, c3, if_true, if_false, and_self]; ring
          · simp only [c1, c2, if_false, false_and]; push_cast; ring
    · rw [Nat.cast_add, ← add_assoc, ← ey]
      unfold belowY
      simp only [hcur, hY, ← hgs]
      cases inX with
      | true => simp
      | false =>
        simp only [if_false, true_and, fgAdd_cast w1y hg, FeeWorld.inRange, Bool.false_eq_true]
        by_cases c1 : hi ≤ w1.pool.currentTickIndex
        · have c2 : lo ≤ w1.pool.currentTickIndex := by omega
          simp [c1, c2]
        · by_cases c2 : lo ≤ w1.pool.currentTickIndex
          · have c3 : w1.pool.currentTickIndex < hi := by omega
            simp only [c1, c2, c3, if_true, if_false, and_self]; ring
          · simp only [c1, c2, if_false, false_and]; push_cast; ring
  | @cross w1 gx gy k t now t' p cur' hh hk hc hs ho ih =>
    obtain ⟨tl', tu', hl', hu', ex, ey⟩ := ih
    obtain ⟨w1x, w1y, w1t⟩ := hist_wf hh hw
    obtain ⟨c1, c2, c3, c4, c5, c6⟩ := cross_ok hc
    have key : ∀ j tj, w1.ticks j = some tj → ∃ tj',
        (({ w1 with pool := { p with currentTickIndex := cur' } } : FeeWorld).setTick k
          (some t')).ticks j = some tj' ∧
        belowX (({ w1 with pool := { p with currentTickIndex := cur' } } : FeeWorld).setTick k
          (some t')) j tj' = belowX w1 j tj ∧
        belowY (({ w1 with pool := { p with currentTickIndex := cur' } } : FeeWorld).setTick k
          (some t')) j tj' = belowY w1 j tj := by
      intro j tj hj
      obtain ⟨_, tx, ty⟩ := w1t j tj hj
      by_cases hjk : j = k
      · subst hjk
        rw [hk] at hj
        cases hj
        refine ⟨t', by simp [FeeWorld.setTick], ?_, ?_⟩
        · simp only [belowX, FeeWorld.setTick, c4, c2, fgSub_cast w1x tx]
          by_cases hcur : j ≤ w1.pool.currentTickIndex
          · rw [if_neg (fun h => (hs.1 h) hcur), if_pos hcur]; ring
          · rw [if_pos (hs.2 hcur), if_neg hcur]
        · simp only [belowY, FeeWorld.setTick, c5, c3, fgSub_cast w1y ty]
          by_cases hcur : j ≤ w1.pool.currentTickIndex
          · rw [if_neg (fun h => (hs.1 h) hcur), if_pos hcur]; ring
          · rw [if_pos (hs.2 hcur), if_neg hcur]
      · have hside := ho j hjk (by rw [hj]; rfl)
        refine ⟨tj, by simp [FeeWorld.setTick, hjk, hj], ?_, ?_⟩
        · simp only [belowX, FeeWorld.setTick, c4, hside]
        · simp only [belowY, FeeWorld.setTick, c5, hside]
    obtain ⟨a, a1, a2, a3⟩ := key lo tl' hl'
    obtain ⟨b, b1, b2, b3⟩ := key hi tu' hu'
    exact ⟨a, b, a1, b1, by rw [a2, b2, ex], by rw [a3, b3, ey]⟩
  | @move w1 gx gy cur' _ _ _ _ _ hh hs ih =>
    obtain ⟨tl', tu', hl', hu', ex, ey⟩ := ih
    have s1 := hs lo (by rw [hl']; rfl)
    have s2 := hs hi (by rw [hu']; rfl)
    refine ⟨tl', tu', hl', hu', ?_, ?_⟩
    · rw [← ex]; simp only [belowX, s1, s2]
    · rw [← ey]; simp only [belowY, s1, s2]
  | @create w1 gx gy k now t hh hk hc ih =>
    obtain ⟨tl', tu', hl', hu', ex, ey⟩ := ih
    have n1 : lo ≠ k := by rintro rfl; rw [hk] at hl'; cases hl'
    have n2 : hi ≠ k := by rintro rfl; rw [hk] at hu'; cases hu'
    exact ⟨tl', tu', by simp [FeeWorld.setTick, n1, hl'], by simp [FeeWorld.setTick, n2, hu'], ex, ey⟩
  | @drop w1 gx gy k hh hkl hkh ih =>
    obtain ⟨tl', tu', hl', hu', ex, ey⟩ := ih
    exact ⟨tl', tu', by simp [FeeWorld.setTick, hkl.symm, hl'],
      by simp [FeeWorld.setTick, hkh.symm, hu'], ex, ey⟩
  | @modify w1 gx gy a b ta tb pos delta add now spacing r hh hta htb hab hm ih =>
    obtain ⟨tl', tu', hl', hu', ex, ey⟩ := ih
    obtain ⟨m1, m2, m3, m4, m5, m6, m7, m8, m9, _⟩ := modify_growth_ok hm
    have key : ∀ j tj, w1.ticks j = some tj → ∃ tj',
        ((({ w1 with pool := r.pool } : FeeWorld).setTick a (some r.lower)).setTick b
          (some r.upper)).ticks j = some tj' ∧
        belowX ((({ w1 with pool := r.pool } : FeeWorld).setTick a (some r.lower)).setTick b
          (some r.upper)) j tj' = belowX w1 j tj ∧
        belowY ((({ w1 with pool := r.pool } : FeeWorld).setTick a (some r.lower)).setTick b
          (some r.upper)) j tj' = belowY w1 j tj := by
      intro j tj hj
      by_cases hjb : j = b
      · subst hjb
        rw [htb] at hj
        cases hj
        exact ⟨r.upper, by simp [FeeWorld.setTick],
          by simp only [belowX, FeeWorld.setTick, m9, m7, m2],
          by simp only [belowY, FeeWorld.setTick, m9, m8, m3]⟩
      · by_cases hja : j = a
        · subst hja
          rw [hta] at hj
          cases hj
          exact ⟨r.lower, by simp [FeeWorld.setTick, hjb],
            by simp only [belowX, FeeWorld.setTick, m9, m7, m5],
            by simp only [belowY, FeeWorld.setTick, m9, m8, m6]⟩
        · exact ⟨tj, by simp [FeeWorld.setTick, hjb, hja, hj],
            by simp only [belowX, FeeWorld.setTick, m9, m7],
            by simp only [belowY, FeeWorld.setTick, m9, m8]⟩
    obtain ⟨a', a1, a2, a3⟩ := key lo tl' hl'
    obtain ⟨b', b1, b2, b3⟩ := key hi tu' hu'
    exact ⟨a', b', a1, b1, by rw [a2, b2, ex], by rw [a3, b3, ey]⟩

end Verif
