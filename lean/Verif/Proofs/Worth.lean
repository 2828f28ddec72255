import Verif.Proofs.SwapFees
import Verif.Props.Fees
import Verif.Props.Step
import Verif.Spec.Exit

/-! # What positions are worth, exactly

The token is a `Bool`: `true` is X. -/

namespace Verif
open Service Spec

variable {s : Inv} {key : PoolKey}

/-- the coordinate in which the curve is linear -/
def coord (tok : Bool) (p : Nat) : ℚ := if tok then 1 / price p else price p

/-- the price the amount is measured from -/
def basePrice (tok : Bool) (q : Position) : Nat :=
  if tok then priceOf q.upperTickIndex else priceOf q.lowerTickIndex

def cutOf (pool : Pool) (q : Position) : Nat :=
  cutPrice pool q.lowerTickIndex q.upperTickIndex (priceOf q.lowerTickIndex) (priceOf q.upperTickIndex)

/-- the amount on the curve -/
def onCurve (tok : Bool) (w : FeeWorld) (q : Position) : ℚ :=
  liq q.liquidity * (coord tok (cutOf w.pool q) - coord tok (basePrice tok q))

def insideOf (tok : Bool) (w : FeeWorld) (q : Position) : Option Nat :=
  if tok then w.insideX q.lowerTickIndex q.upperTickIndex else w.insideY q.lowerTickIndex q.upperTickIndex

def snapOf (tok : Bool) (q : Position) : Nat := if tok then q.feeGrowthInsideX else q.feeGrowthInsideY

/-- the growth since it was last recorded -/
def grown (tok : Bool) (w : FeeWorld) (q : Position) : Nat :=
  match insideOf tok w q with
  | some i => fgSub i (snapOf tok q)
  | none => 0

/-- the exact amount a position is worth in a token -/
def worth (tok : Bool) (w : FeeWorld) (q : Position) : ℚ :=
  onCurve tok w q + grown tok w q * q.liquidity / 10 ^ 33

/-- what a position needs: its ticks are stored, its recorded growth is in range -/
structure PosIn (s : Inv) (key : PoolKey) (q : Position) : Prop where
  pool : q.poolKey = key
  lt : q.lowerTickIndex < q.upperTickIndex
  lo : (s.ticks.get (key, q.lowerTickIndex)).isSome
  hi : (s.ticks.get (key, q.upperTickIndex)).isSome
  accX : q.feeGrowthInsideX < 2 ^ 128
  accY : q.feeGrowthInsideY < 2 ^ 128

variable {a : SwapArgs} {st st' : SwapState} {target dust : Nat} {r : SwapResult} {p1 p2 : Pool}

/-- the pool's tick is in the range of the position -/
def InPos (pool : Pool) (q : Position) : Prop :=
  q.lowerTickIndex ≤ pool.currentTickIndex ∧ pool.currentTickIndex < q.upperTickIndex

instance (pool : Pool) (q : Position) : Decidable (InPos pool q) := by unfold InPos; infer_instance

theorem iter_cut {q : Position} (hq : PosIn s a.key q) (h : IterMove s a st st' target r dust p1 p2) :
    (InPos st.pool q → cutOf st.pool q = st.pool.sqrtPrice ∧ cutOf st'.pool q = st'.pool.sqrtPrice) ∧
    (¬ InPos st.pool q → cutOf st'.pool q = cutOf st.pool q) := by
  have hlt := hq.lt
  unfold InPos cutOf cutPrice
  cases h.kind with
  | stay ticks pool side =>
    have h1 := side _ hq.lo
    have h2 := side _ hq.hi
    generalize st.pool.currentTickIndex = c at *
    generalize st'.pool.currentTickIndex = c' at *
    constructor
    · rintro ⟨h3, h4⟩
      rw [if_neg (by omega), if_pos h4, if_neg (by omega), if_pos (by omega)]
      exact ⟨rfl, rfl⟩
    · intro h3
      by_cases h4 : c < q.lowerTickIndex
      · rw [if_pos h4, if_pos (by omega)]
      · rw [if_neg h4, if_neg (by omega), if_neg (by omega), if_neg (by omega)]
  | cross t t' q' stored hx ticks pool hit dir flips side =>
    have h1 := fun e => side q.lowerTickIndex e hq.lo
    have h2 := fun e => side q.upperTickIndex e hq.hi
    generalize st.pool.currentTickIndex = c at *
    generalize st'.pool.currentTickIndex = c' at *
    rw [hit]
    by_cases e1 : q.lowerTickIndex = t.index
    · have h2 := h2 (by omega)
      rw [← e1] at flips ⊢
      constructor
      · rintro ⟨h3, h4⟩
        rw [if_neg (by omega), if_pos h4, if_pos (by omega)]
        exact ⟨rfl, rfl⟩
      · intro h3
        by_cases h4 : c < q.lowerTickIndex
        · rw [if_pos h4, if_neg (by omega), if_pos (by omega)]
        · omega
    · by_cases e2 : q.upperTickIndex = t.index
      · have h1 := h1 e1
        rw [← e2] at flips ⊢
        constructor
        · rintro ⟨h3, h4⟩
          rw [if_neg (by omega), if_pos h4, if_neg (by omega), if_neg (by omega)]
          exact ⟨rfl, rfl⟩
        · intro h3
          by_cases h4 : c < q.lowerTickIndex
          · omega
          · rw [if_neg h4, if_neg (by omega), if_pos (by omega), if_neg (by omega)]
      · have h1 := h1 e1
        have h2 := h2 e2
        constructor
        · rintro ⟨h3, h4⟩
          rw [if_neg (by omega), if_pos h4, if_neg (by omega), if_pos (by omega)]
          exact ⟨rfl, rfl⟩
        · intro h3
          by_cases h4 : c < q.lowerTickIndex
          · rw [if_pos h4, if_pos (by omega)]
          · rw [if_neg h4, if_neg (by omega), if_neg (by omega), if_neg (by omega)]

theorem iter_onCurve {q : Position} (hq : PosIn s a.key q) (h : IterMove s a st st' target r dust p1 p2)
    (tok : Bool) : onCurve tok (vworld s a st') q = onCurve tok (vworld s a st) q +
      (if InPos st.pool q then liq q.liquidity else 0) *
        (coord tok st'.pool.sqrtPrice - coord tok st.pool.sqrtPrice) := by
  obtain ⟨h1, h2⟩ := iter_cut hq h
  unfold onCurve vworld
  dsimp only
  by_cases hc : InPos st.pool q
  · obtain ⟨e1, e2⟩ := h1 hc
    rw [if_pos hc, e1, e2]
    ring
  · rw [if_neg hc, h2 hc]
    ring

theorem fgSub_mod_le {i g q : Nat} (hi : i < 2 ^ 128) (hq : q < 2 ^ 128) :
    fgSub ((i + g) % 2 ^ 128) q ≤ fgSub i q + g := by
  rw [fgSub_eq (Nat.mod_lt _ (by positivity)) hq, fgSub_eq hi hq]
  omega

theorem inside_lt {w : FeeWorld} (hw : w.WF) {q : Position} {tok : Bool} {i : Nat}
    (h : insideOf tok w q = some i) : i < 2 ^ 128 := by
  obtain ⟨hx, hy, ht⟩ := hw
  unfold insideOf at h
  cases tok
  · rw [if_neg (by simp)] at h
    unfold FeeWorld.insideY at h
    cases h1 : w.ticks q.lowerTickIndex with
    | none => rw [h1] at h; simp at h
    | some l =>
    cases h2 : w.ticks q.upperTickIndex with
    | none => rw [h1, h2] at h; simp at h
    | some u =>
    rw [h1, h2] at h
    simp only [Option.pure_def, Option.bind_eq_bind, Option.bind_some, Option.some.injEq] at h
    rw [← h]
    exact feeGrowthInside1_lt (ht _ _ h1).2.2 (ht _ _ h2).2.2 hy
  · rw [if_pos rfl] at h
    unfold FeeWorld.insideX at h
    cases h1 : w.ticks q.lowerTickIndex with
    | none => rw [h1] at h; simp at h
    | some l =>
    cases h2 : w.ticks q.upperTickIndex with
    | none => rw [h1, h2] at h; simp at h
    | some u =>
    rw [h1, h2] at h
    simp only [Option.pure_def, Option.bind_eq_bind, Option.bind_some, Option.some.injEq] at h
    rw [← h]
    exact feeGrowthInside1_lt (ht _ _ h1).2.1 (ht _ _ h2).2.1 hx

theorem inside_isSome {w : FeeWorld} {q : Position} (h1 : (w.ticks q.lowerTickIndex).isSome)
    (h2 : (w.ticks q.upperTickIndex).isSome) :
    (∃ i, w.insideX q.lowerTickIndex q.upperTickIndex = some i) ∧
    ∃ i, w.insideY q.lowerTickIndex q.upperTickIndex = some i := by
  obtain ⟨l, hl⟩ := Option.isSome_iff_exists.1 h1
  obtain ⟨u, hu⟩ := Option.isSome_iff_exists.1 h2
  unfold FeeWorld.insideX FeeWorld.insideY
  rw [hl, hu]
  exact ⟨⟨_, rfl⟩, _, rfl⟩

theorem iter_grown {q : Position} (hq : PosIn s a.key q) (hb : Behind s a st) (hw : (vworld s a st).WF)
    (h : IterMove s a st st' target r dust p1 p2) (tok : Bool) :
    grown tok (vworld s a st') q ≤ grown tok (vworld s a st) q +
      if InPos st.pool q ∧ a.xToY = tok then iterGrowth s st r dust else 0 := by
  have H := iter_hist hb h q.lowerTickIndex q.upperTickIndex
  obtain ⟨⟨ix, hx⟩, iy, hy⟩ := inside_isSome (w := vworld s a st) (q := q)
    ((vworld_isSome hb _).2 hq.lo) ((vworld_isSome hb _).2 hq.hi)
  obtain ⟨hx', hy'⟩ := C10_history H hw hq.lt hx hy
  unfold grown
  cases tok
  · have e : insideOf false (vworld s a st) q = some iy := hy
    have lt := inside_lt hw e
    have e' : insideOf false (vworld s a st') q = _ := hy'
    rw [e, e']
    dsimp only
    refine le_trans (fgSub_mod_le lt hq.accY) (Nat.add_le_add_left ?_ _)
    exact le_of_eq (if_congr and_comm rfl rfl)
  · have e : insideOf true (vworld s a st) q = some ix := hx
    have lt := inside_lt hw e
    have e' : insideOf true (vworld s a st') q = _ := hx'
    rw [e, e']
    dsimp only
    refine le_trans (fgSub_mod_le lt hq.accX) (Nat.add_le_add_left ?_ _)
    exact le_of_eq (if_congr and_comm rfl rfl)

/-- the worth of one position over one iteration -/
theorem iter_worth {q : Position} (hq : PosIn s a.key q) (hb : Behind s a st) (hw : (vworld s a st).WF)
    (h : IterMove s a st st' target r dust p1 p2) (tok : Bool) :
    worth tok (vworld s a st') q ≤ worth tok (vworld s a st) q +
      ((if InPos st.pool q then q.liquidity else 0 : Nat) : ℚ) *
        ((coord tok st'.pool.sqrtPrice - coord tok st.pool.sqrtPrice) / 10 ^ 5 +
          (if a.xToY = tok then (iterGrowth s st r dust : ℚ) else 0) / 10 ^ 33) := by
  have h1 := iter_onCurve hq h tok
  have h2 : (grown tok (vworld s a st') q : ℚ) ≤ grown tok (vworld s a st) q +
      ((if InPos st.pool q ∧ a.xToY = tok then iterGrowth s st r dust else 0 : Nat) : ℚ) := by
    exact_mod_cast iter_grown hq hb hw h tok
  have h3 := mul_le_mul_of_nonneg_right h2 (Nat.cast_nonneg (α := ℚ) q.liquidity)
  have h4 := div_le_div_of_nonneg_right h3 (by positivity : (0 : ℚ) ≤ 10 ^ 33)
  unfold worth
  rw [h1]
  refine le_trans (add_le_add_right h4 _) (le_of_eq ?_)
  unfold liq
  generalize (grown tok (vworld s a st) q : ℚ) = G
  generalize (onCurve tok (vworld s a st) q) = V
  generalize coord tok st'.pool.sqrtPrice - coord tok st.pool.sqrtPrice = D
  by_cases hc : InPos st.pool q
  · by_cases ht : a.xToY = tok
    · simp only [hc, ht, and_self, if_true]
      ring
    · simp only [hc, ht, and_false, if_true, if_false, Nat.cast_zero]
      ring
  · simp only [hc, false_and, if_false, Nat.cast_zero]
    ring

/-! ### sums over the positions of a pool -/

/-- the worth of all positions of a pool -/
def poolWorth (ps : Positions) (key : PoolKey) (tok : Bool) (w : FeeWorld) : ℚ :=
  posSum ps fun q => if q.poolKey = key then worth tok w q else 0

theorem posSum_cast (ps : Positions) (f : Position → Nat) :
    ((posSum ps f : Nat) : ℚ) = posSum ps fun q => (f q : ℚ) := by
  unfold posSum
  exact Map.map_sum_hom (Nat.castAddMonoidHom ℚ) _ _

theorem posSum_mul (ps : Positions) (f : Position → ℚ) (c : ℚ) :
    posSum ps (fun q => f q * c) = posSum ps f * c := by
  unfold posSum
  exact (Map.map_sum_hom (AddMonoidHom.mulRight c) _ _).symm

theorem iter_poolWorth (hps : ∀ k q, s.positions.map.get k = some q → q.poolKey = a.key → PosIn s a.key q)
    (hb : Behind s a st) (hw : (vworld s a st).WF) (h : IterMove s a st st' target r dust p1 p2) (tok : Bool) :
    poolWorth s.positions a.key tok (vworld s a st') ≤ poolWorth s.positions a.key tok (vworld s a st) +
      activeLiq s a.key st.pool.currentTickIndex *
        ((coord tok st'.pool.sqrtPrice - coord tok st.pool.sqrtPrice) / 10 ^ 5 +
          (if a.xToY = tok then (iterGrowth s st r dust : ℚ) else 0) / 10 ^ 33) := by
  rw [activeLiq_eq, posSum_cast, ← posSum_mul]
  unfold poolWorth posSum
  rw [← Map.sum_add]
  apply Map.sum_le_sum
  intro k q hq
  unfold aC
  by_cases hk : q.poolKey = a.key
  · have h1 := iter_worth (hps k q hq hk) hb hw h tok
    unfold InPos at h1
    simp only [hk, if_true, true_and]
    exact h1
  · simp [hk]

end Verif
