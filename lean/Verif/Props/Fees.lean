import Verif.Proofs.FeeGrowth
import Verif.Proofs.Collect

/-!
# C10, C11: fee growth accounting
-/

namespace Verif

/-- C10, arithmetic: `unchecked_add` and `unchecked_sub` are addition and subtraction modulo 2^128,
and inverse to each other, for all 128-bit values. -/
theorem C10_ring {a b : Nat} (ha : a < 2 ^ 128) (hb : b < 2 ^ 128) :
    fgAdd a b < 2 ^ 128 ∧ fgAdd a b ≡ a + b [MOD 2 ^ 128] ∧
    fgSub a b < 2 ^ 128 ∧ fgSub a b + b ≡ a [MOD 2 ^ 128] ∧
    fgSub (fgAdd a b) b = a ∧ fgAdd (fgSub a b) b = a := by
  refine ⟨fgAdd_lt ha hb, ?_, fgSub_lt ha hb, ?_, ?_, ?_⟩
  · rw [fgAdd_eq ha hb]; exact Nat.mod_modEq _ _
  · rw [fgSub_eq ha hb]; unfold Nat.ModEq; omega
  · rw [fgSub_eq (fgAdd_lt ha hb) hb, fgAdd_eq ha hb]; omega
  · rw [fgAdd_eq (fgSub_lt ha hb) hb, fgSub_eq ha hb]; omega

/-- C10, histories: over any sequence of fee additions, tick crossings, moves and position changes
(`FeeHist`), the growth inside a range of two stored ticks, as computed by the code, advances
exactly by the growth added while the current tick was inside the range, modulo 2^128, for both
tokens. -/
theorem C10_history {lo hi : Int} {w w' : FeeWorld} {gx gy : Nat} (h : FeeHist lo hi w w' gx gy)
    (hw : w.WF) (hlh : lo < hi) {ix iy : Nat} (hx : w.insideX lo hi = some ix)
    (hy : w.insideY lo hi = some iy) :
    w'.insideX lo hi = some ((ix + gx) % 2 ^ 128) ∧
    w'.insideY lo hi = some ((iy + gy) % 2 ^ 128) := by
  unfold FeeWorld.insideX at hx
  unfold FeeWorld.insideY at hy
  cases hl : w.ticks lo with
  | none => rw [hl] at hx; simp at hx
  | some tl =>
  cases hu : w.ticks hi with
  | none => rw [hl, hu] at hx; simp at hx
  | some tu =>
  rw [hl, hu] at hx hy
  simp only [Option.pure_def, Option.bind_eq_bind, Option.bind_some, Option.some.injEq] at hx hy
  obtain ⟨tl', tu', hl', hu', ex, ey⟩ := hist_below h hw hlh hl hu
  obtain ⟨wx, wy, wt⟩ := hw
  obtain ⟨wx', wy', wt'⟩ := hist_wf h ⟨wx, wy, wt⟩
  obtain ⟨l1, l2, l3⟩ := wt lo tl hl
  obtain ⟨u1, u2, u3⟩ := wt hi tu hu
  obtain ⟨l1', l2', l3'⟩ := wt' lo tl' hl'
  obtain ⟨u1', u2', u3'⟩ := wt' hi tu' hu'
  rw [l1, u1] at hx hy
  constructor
  · unfold FeeWorld.insideX
    rw [hl', hu']
    simp only [Option.pure_def, Option.bind_eq_bind, Option.bind_some, Option.some.injEq]
    rw [l1', u1']
    apply fg_cast_inj (feeGrowthInside1_lt l2' u2' wx')
    rw [inside_eq_below l2' u2' wx', Nat.cast_add, ← hx, inside_eq_below l2 u2 wx]
    exact ex
  · unfold FeeWorld.insideY
    rw [hl', hu']
    simp only [Option.pure_def, Option.bind_eq_bind, Option.bind_some, Option.some.injEq]
    rw [l1', u1']
    apply fg_cast_inj (feeGrowthInside1_lt l3' u3' wy')
    rw [inside_eq_below l3' u3' wy', Nat.cast_add, ← hy, inside_eq_below l3 u3 wy]
    exact ey

/-- C10, collection: what a position collects for the growth between two readings is computed from
the true difference of the readings, whether or not the accumulator has wrapped in between. -/
theorem C10_difference {i0 g : Nat} (h0 : i0 < 2 ^ 128) (hg : g < 2 ^ 128) :
    fgSub ((i0 + g) % 2 ^ 128) i0 = g := by
  rw [fgSub_eq (Nat.mod_lt _ (by positivity)) h0]
  omega

section
/-- an accumulator about to wrap -/
example : fgAdd (2 ^ 128 - 1) 5 = 4 ∧ fgSub 4 (2 ^ 128 - 1) = 5 := by decide +kernel

private def t0 (i : Int) (o : Nat) : Tick := ⟨i, decide (i < 0), 5, 5, 1, o, o, 0⟩
private def w0 : FeeWorld :=
  { pool := ⟨10 ^ 11, 10 ^ 24, 0, 2 ^ 128 - 3, 7, 0, 0, 0, 0, 1⟩
    ticks := fun i => if i = -10 then some (t0 (-10) (2 ^ 128 - 20)) else
      if i = 10 then some (t0 10 9) else none }

/-- a history: a fee while in range (wrapping the accumulator), crossing the upper tick, another
fee while outside; the hypotheses of `C10_history` hold and the growth inside is that of the
first fee only. -/
example : w0.WF ∧ ∃ w' gx, FeeHist (-10) 10 w0 w' gx 0 ∧ gx = 10 ^ 22 ∧
    w'.pool.currentTickIndex = 10 ∧ w'.pool.feeGrowthGlobalX ≠ w0.pool.feeGrowthGlobalX ∧
    (w0.insideX (-10) 10).isSome := by
  refine ⟨⟨by decide +kernel, by decide +kernel, ?_⟩, ?_⟩
  · intro k t h
    simp only [w0] at h
    split at h
    · next hk => cases h; subst hk; exact ⟨rfl, by decide +kernel, by decide +kernel⟩
    · split at h
      · next hk => cases h; subst hk; exact ⟨rfl, by decide +kernel, by decide +kernel⟩
      · cases h
  · have h1 := FeeHist.fee (amount := 1) (inX := true) (pf := 0)
      (p := { w0.pool with feeGrowthGlobalX := 10 ^ 22 - 3 })
      (FeeHist.refl (lo := -10) (hi := 10) (w := w0)) (by decide +kernel)
    have h2 := FeeHist.cross (k := 10) (t := t0 10 9) (now := 5)
      (t' := { t0 10 9 with
        feeGrowthOutsideX := 10 ^ 22 - 12
        feeGrowthOutsideY := 2 ^ 128 - 2
        secondsOutside := 5 })
      (p := { w0.pool with
        feeGrowthGlobalX := 10 ^ 22 - 3
        liquidity := 10 ^ 11 - 5
        lastTimestamp := 5 }) (cur' := 10) h1 (by decide +kernel)
      (by decide +kernel) (by decide +kernel) (by
        intro j hj hs
        simp only [w0] at hs ⊢
        by_cases hjm : j = -10
        · subst hjm; decide
        · simp [hjm, hj] at hs)
    have h3 := FeeHist.fee (amount := 1000) (inX := true) (pf := 0)
      (p := { w0.pool with
        feeGrowthGlobalX := fgAdd (10 ^ 22 - 3) (1000 * 10 ^ 33 / (10 ^ 11 - 5))
        liquidity := 10 ^ 11 - 5
        lastTimestamp := 5
        currentTickIndex := 10 }) h2
      (by decide +kernel)
    refine ⟨_, _, h3, by decide +kernel, rfl, by decide +kernel, by decide +kernel⟩
end

/-- C11, one distribution: a fee distributed over liquidity `L` and collected by positions whose
liquidities sum to at most `L` pays out at most the fee. -/
theorem C11_distribute {L fee g : Nat} (hg : fgFromFee L fee = .ok g) {ls paid : List Nat}
    (hlen : ls.length = paid.length) (hsum : ls.sum ≤ L)
    (hpaid : ∀ i (h : i < ls.length), fgToFee g ls[i] = .ok (paid[i]'(hlen ▸ h))) :
    paid.sum ≤ fee := by
  have key : ∀ (ls paid : List Nat) (hlen : ls.length = paid.length),
      (∀ i (h : i < ls.length), fgToFee g ls[i] = .ok (paid[i]'(hlen ▸ h))) →
      paid.sum * 10 ^ 33 ≤ ls.sum * g := by
    intro ls
    induction ls with
    | nil =>
      intro paid hlen _
      rw [List.length_nil, eq_comm, List.length_eq_zero_iff] at hlen
      subst hlen; rw [List.sum_nil, Nat.zero_mul, Nat.zero_mul]
    | cons l t ih =>
      intro paid hlen hp
      match paid, hlen with
      | a :: pt, hlen =>
        have h0 := hp 0 (by simp)
        simp only [List.getElem_cons_zero] at h0
        have h1 := ih pt (by simpa using hlen) (fun i h => by
          have := hp (i + 1) (by simpa using h)
          simpa only [List.getElem_cons_succ] using this)
        have h2 := fgToFee_mul_le h0
        rw [List.sum_cons, List.sum_cons, Nat.add_mul, Nat.add_mul]
        exact Nat.add_le_add h2 h1
  have h1 := key ls paid hlen hpaid
  have h2 : ls.sum * g ≤ fee * 10 ^ 33 :=
    le_trans (Nat.mul_le_mul_right _ hsum) (fgFromFee_mul_le hg)
  exact Nat.le_of_mul_le_mul_right (le_trans h1 h2) (by positivity)

/-- C11, histories: over any history of fees, position changes and payouts, for each token the
amounts paid out and still owed to all positions together never exceed the fees collected. -/
theorem C11_history {n : Nat} {f : Family n} {cx cy px py : Nat} (h : CollectHist f cx cy px py) :
    px + ∑ i, (f.pos i).tokensOwedX ≤ cx ∧ py + ∑ i, (f.pos i).tokensOwedY ≤ cy := by
  obtain ⟨K, hK⟩ : ∃ K : Nat, K = 10 ^ 33 := ⟨_, rfl⟩
  have hpos : 0 < K := by rw [hK]; positivity
  obtain ⟨h1, h2⟩ := collect_inv h hK
  constructor
  · refine Nat.le_of_mul_le_mul_right (le_trans ?_ h1) hpos
    rw [Nat.add_mul, Finset.sum_mul]
    exact Nat.add_le_add_left (Finset.sum_le_sum fun i _ => Nat.le_add_right _ _) _
  · refine Nat.le_of_mul_le_mul_right (le_trans ?_ h2) hpos
    rw [Nat.add_mul, Finset.sum_mul]
    exact Nat.add_le_add_left (Finset.sum_le_sum fun i _ => Nat.le_add_right _ _) _

/-- three positions sharing a fee of 100 over liquidity 7 -/
example : ∃ g, fgFromFee 7 100 = .ok g ∧ fgToFee g 3 = .ok 42 ∧ fgToFee g 2 = .ok 28 ∧
    42 + 28 + 28 ≤ 100 := ⟨100 * 10 ^ 33 / 7, by decide +kernel, by decide +kernel, by decide +kernel,
      by decide⟩

section
private def key0 : PoolKey := ⟨1, 2, ⟨10 ^ 10, 1⟩⟩
private def pos0 : Position := ⟨key0, 0, -10, 10, 5, 0, 0, 0, 0⟩

/-- a history of one position: it deposits, earns a fee while its accumulator wraps, settles and
is paid -/
example : ∃ f : Family 1, ∃ px, CollectHist f 100 0 px 0 ∧ px = 99 := by
  have h0 : CollectHist (n := 1) ⟨fun _ => pos0, fun _ => 2 ^ 128 - 1, fun _ => 0⟩ 0 0 0 0 :=
    .start (fun i => by decide +kernel +revert)
  have h1 := h0.update (i := 0) (sign := true) (delta := 10 ^ 20)
    (p := { pos0 with liquidity := 10 ^ 20, feeGrowthInsideX := 2 ^ 128 - 1 })
    (by decide +kernel)
  have h2 := h1.feeX (L := 10 ^ 20 + 1) (amount := 100) (active := fun _ => true)
    (g := 100 * 10 ^ 33 / (10 ^ 20 + 1)) (by decide +kernel) (by decide +kernel)
  have h3 := h2.update (i := 0) (sign := true) (delta := 0)
    (p := { pos0 with
      liquidity := 10 ^ 20
      tokensOwedX := 99
      feeGrowthInsideX := 100 * 10 ^ 33 / (10 ^ 20 + 1) - 1 }) (by decide +kernel)
  exact ⟨_, _, h3.payout (i := 0), by decide +kernel⟩
end

end Verif
