import Verif.Proofs.Bits
import Verif.Spec.TickSet

/-! # The bitmap as a set of ticks -/

namespace Verif
open Spec

/-- number of grid ticks above zero -/
def gridHalf (s : Nat) : Nat := 221818 / s

theorem maxTick_div (s : Nat) : MAX_TICK.tdiv s = (gridHalf s : Int) := by
  unfold MAX_TICK gridHalf
  rw [Int.tdiv_eq_ediv_of_nonneg (by norm_num)]
  norm_cast

theorem minTick_div (s : Nat) : (-MAX_TICK).tdiv s = -(gridHalf s : Int) := by
  rw [Int.neg_tdiv, maxTick_div]

theorem getMaxTick_eq (s : Nat) : getMaxTick s = (gridHalf s : Int) * s := by
  unfold getMaxTick; rw [maxTick_div]

theorem getMinTick_eq (s : Nat) : getMinTick s = -((gridHalf s : Int) * s) := by
  unfold getMinTick
  rw [show MIN_TICK = -MAX_TICK from rfl, minTick_div]; ring

/-- the coordinate of a legal tick -/
theorem grid_coord {s : Nat} {t : Int} (hs : 1 ≤ s) (h : Grid s t) :
    ∃ j : Int, t = j * s ∧ -(gridHalf s : Int) ≤ j ∧ j ≤ gridHalf s := by
  obtain ⟨⟨j, hj⟩, h1, h2⟩ := h
  rw [mul_comm] at hj
  subst hj
  have hs' : (0 : Int) < s := by exact_mod_cast hs
  refine ⟨j, rfl, ?_, ?_⟩
  · have : -j ≤ 221818 / (s : Int) := by
      rw [Int.le_ediv_iff_mul_le hs']; linarith
    have e : ((gridHalf s : Nat) : Int) = 221818 / (s : Int) := by unfold gridHalf; norm_cast
    rw [e]; linarith
  · have : j ≤ 221818 / (s : Int) := by
      rw [Int.le_ediv_iff_mul_le hs']; linarith
    have e : ((gridHalf s : Nat) : Int) = 221818 / (s : Int) := by unfold gridHalf; norm_cast
    rw [e]; exact this

theorem gridHalf_mul_le (s : Nat) : (gridHalf s : Int) * s ≤ 221818 := by
  have : gridHalf s * s ≤ 221818 := Nat.div_mul_le_self _ _
  exact_mod_cast this

theorem coord_grid {s : Nat} {j : Int} (h1 : -(gridHalf s : Int) ≤ j)
    (h2 : j ≤ gridHalf s) : Grid s (j * s) := by
  have hm := gridHalf_mul_le s
  have hs' : (0 : Int) ≤ s := by positivity
  refine ⟨Dvd.intro_left _ rfl, ?_, ?_⟩
  · nlinarith
  · nlinarith

theorem grid_tmod {s : Nat} {t : Int} (h : Grid s t) : t.tmod s = 0 := by
  exact Int.tmod_eq_zero_of_dvd h.1

theorem tmod_grid {s : Nat} {t : Int} (h : t.tmod s = 0) : (s : Int) ∣ t :=
  Int.dvd_of_tmod_eq_zero h

theorem bitmapIndex_eq {s : Nat} {j : Int} (hs : 1 ≤ s) (h1 : -(gridHalf s : Int) ≤ j) :
    (bitmapIndex (j * s) s : Int) = j + gridHalf s := by
  have hs' : (0 : Int) < s := by exact_mod_cast hs
  have hm := gridHalf_mul_le s
  unfold bitmapIndex
  have hnn : 0 ≤ j * s + MAX_TICK := by unfold MAX_TICK; nlinarith
  rw [Int.tdiv_eq_ediv_of_nonneg hnn, add_comm (j * (s : Int)), Int.add_mul_ediv_right _ _ hs'.ne']
  have : MAX_TICK / (s : Int) = gridHalf s := by unfold MAX_TICK gridHalf; norm_cast
  rw [this]
  omega

theorem tickToPosition_ok_iff {s : Nat} {t : Int} {r : Nat × Nat} :
    tickToPosition t s = .ok r ↔
      Grid s t ∧ r = (bitmapIndex t s / 64, bitmapIndex t s % 64) := by
  unfold tickToPosition
  simp only [bind_ok_iff, ensure_ok_iff, pure_ok_iff]
  simp only [MAX_TICK, CHUNK_SIZE]
  constructor
  · rintro ⟨_, ⟨h1, h2⟩, _, h3, h4⟩
    exact ⟨⟨tmod_grid h3, h1, h2⟩, h4.symm⟩
  · rintro ⟨h, h4⟩
    exact ⟨(), ⟨h.2.1, h.2.2⟩, (), grid_tmod h, h4.symm⟩

theorem tickToPosition_ok {s : Nat} {t : Int} (h : Grid s t) :
    tickToPosition t s = .ok (bitmapIndex t s / 64, bitmapIndex t s % 64) :=
  tickToPosition_ok_iff.2 ⟨h, rfl⟩

theorem indexToTick_eq (i s : Nat) :
    indexToTick (i / 64) (i % 64) s = ((i : Int) - gridHalf s) * s := by
  unfold indexToTick CHUNK_SIZE
  rw [maxTick_div, show i / 64 * 64 + i % 64 = i by omega]

theorem tickmapGet_eq {tm : Tickmap} {s : Nat} {t : Int} {key : PoolKey} (h : Grid s t) :
    tickmapGet tm t s key = .ok (tmBit tm key (bitmapIndex t s)) := by
  unfold tickmapGet
  rw [tickToPosition_ok h, ok_bind]
  simp only []
  rw [pure_ok_iff, decide_getBit_one]
  rfl

theorem tickmapGet_ok_iff {tm : Tickmap} {s : Nat} {t : Int} {key : PoolKey} {b : Bool} :
    tickmapGet tm t s key = .ok b ↔ Grid s t ∧ b = tmBit tm key (bitmapIndex t s) := by
  constructor
  · intro h
    have hg : Grid s t := by
      unfold tickmapGet at h
      rw [bind_ok_iff] at h
      obtain ⟨r, hr, _⟩ := h
      exact (tickToPosition_ok_iff.1 hr).1
    rw [tickmapGet_eq hg] at h
    exact ⟨hg, by cases h; rfl⟩
  · rintro ⟨hg, rfl⟩
    exact tickmapGet_eq hg

theorem bitmapIndex_inj {s : Nat} {t u : Int} (hs : 1 ≤ s) (ht : Grid s t) (hu : Grid s u)
    (h : bitmapIndex t s = bitmapIndex u s) : t = u := by
  obtain ⟨j, rfl, h1, h2⟩ := grid_coord hs ht
  obtain ⟨k, rfl, h3, h4⟩ := grid_coord hs hu
  have e1 := bitmapIndex_eq hs h1
  have e2 := bitmapIndex_eq hs h3
  rw [h] at e1
  have : j = k := by omega
  rw [this]

theorem tickmapFlip_ok_iff {tm tm' : Tickmap} {v : Bool} {s : Nat} {t : Int} {key : PoolKey} :
    tickmapFlip tm v t s key = .ok tm' ↔ Grid s t ∧ tmBit tm key (bitmapIndex t s) = !v ∧
      tm' = tm.insert (bitmapIndex t s / 64, key)
        (flipBitAtPosition (chunkWord tm key (bitmapIndex t s / 64)) (bitmapIndex t s % 64)) := by
  unfold tickmapFlip
  rw [bind_ok_iff]
  constructor
  · rintro ⟨r, hr, h⟩
    obtain ⟨hg, rfl⟩ := tickToPosition_ok_iff.1 hr
    simp only [bind_ok_iff, ensure_ok_iff, pure_ok_iff] at h
    obtain ⟨_, hv, rfl⟩ := h
    refine ⟨hg, ?_, rfl⟩
    rw [decide_getBit_zero] at hv
    unfold tmBit
    rw [← hv, Bool.not_not]
  · rintro ⟨hg, hv, rfl⟩
    refine ⟨_, tickToPosition_ok hg, ?_⟩
    simp only [bind_ok_iff, ensure_ok_iff, pure_ok_iff]
    refine ⟨(), ?_, trivial⟩
    rw [decide_getBit_zero]
    unfold tmBit at hv
    rw [hv, Bool.not_not]

theorem chunkWord_insert (tm : Tickmap) (key k : PoolKey) (c c' w : Nat) :
    chunkWord (tm.insert (c, key) w) k c' = if c' = c ∧ k = key then w else chunkWord tm k c' := by
  unfold chunkWord
  rw [Map.get_insert]
  by_cases h : c' = c ∧ k = key
  · obtain ⟨rfl, rfl⟩ := h; simp
  · rw [if_neg h, if_neg]
    rintro e; exact h ⟨(Prod.mk.inj e).1, (Prod.mk.inj e).2⟩

/-- a flip changes exactly one bit -/
theorem tmBit_flip {tm tm' : Tickmap} {v : Bool} {s : Nat} {t : Int} {key : PoolKey}
    (h : tickmapFlip tm v t s key = .ok tm') (k : PoolKey) (i : Nat) :
    tmBit tm' k i = if k = key ∧ i = bitmapIndex t s then v else tmBit tm k i := by
  obtain ⟨hg, hv, rfl⟩ := tickmapFlip_ok_iff.1 h
  generalize bitmapIndex t s = n at *
  unfold tmBit
  rw [chunkWord_insert]
  by_cases hc : i / 64 = n / 64 ∧ k = key
  · rw [if_pos hc, flipBit_testBit]
    obtain ⟨hc, rfl⟩ := hc
    by_cases hb : i % 64 = n % 64
    · have : i = n := by omega
      subst this
      rw [if_pos rfl, if_pos ⟨rfl, rfl⟩]
      unfold tmBit at hv
      rw [hv]; simp
    · rw [if_neg hb, if_neg (by rintro ⟨_, rfl⟩; exact hb rfl), hc]
  · rw [if_neg hc, if_neg]
    rintro ⟨rfl, rfl⟩; exact hc ⟨rfl, rfl⟩

theorem tmWF_empty : TmWF ∅ := by
  intro key c
  have : chunkWord ∅ key c = 0 := rfl
  rw [this]; positivity

theorem tmWF_flip {tm tm' : Tickmap} {v : Bool} {s : Nat} {t : Int} {key : PoolKey} (hw : TmWF tm)
    (h : tickmapFlip tm v t s key = .ok tm') : TmWF tm' := by
  obtain ⟨hg, hv, rfl⟩ := tickmapFlip_ok_iff.1 h
  intro k c
  rw [chunkWord_insert]
  split
  · exact flipBit_lt (hw _ _) (Nat.mod_lt _ (by norm_num))
  · exact hw k c

theorem mul_lt_iff {s : Nat} (hs : 1 ≤ s) (a b : Int) : a * s < b * s ↔ a < b :=
  mul_lt_mul_iff_left₀ (by exact_mod_cast hs)

theorem mul_le_iff {s : Nat} (hs : 1 ≤ s) (a b : Int) : a * s ≤ b * s ↔ a ≤ b :=
  mul_le_mul_iff_left₀ (by exact_mod_cast hs)

theorem getSearchLimit_up {s : Nat} (hs : 1 ≤ s) (j : Int) :
    getSearchLimit (j * s) s true = min (j + 256) (gridHalf s) * s := by
  unfold getSearchLimit
  have hs' : (s : Int) ≠ 0 := by positivity
  simp only [if_true, TICK_SEARCH_RANGE, maxTick_div, Int.mul_tdiv_cancel _ hs']

theorem getSearchLimit_down {s : Nat} (hs : 1 ≤ s) (j : Int) :
    getSearchLimit (j * s) s false = max (j - 256) (-(gridHalf s : Int)) * s := by
  unfold getSearchLimit
  have hs' : (s : Int) ≠ 0 := by positivity
  simp only [Bool.false_eq_true, if_false, TICK_SEARCH_RANGE, minTick_div, Int.mul_tdiv_cancel _ hs']

/-- bit of the tick with coordinate `j` -/
theorem bitmapIndex_nat {s : Nat} {j : Int} (hs : 1 ≤ s) (h1 : -(gridHalf s : Int) ≤ j) :
    bitmapIndex (j * s) s = (j + gridHalf s).toNat := by
  have := bitmapIndex_eq hs h1
  omega

theorem nextInitialized_spec {tm : Tickmap} (hwf : TmWF tm) {s : Nat} (hs : 1 ≤ s) {t : Int}
    (ht : Grid s t) (key : PoolKey) :
    ∃ r, nextInitialized tm t s key = .ok r ∧
      (∀ u, r = some u → Grid s u ∧ tmBit tm key (bitmapIndex u s) = true ∧ t < u ∧
        u ≤ t + 256 * s ∧ ∀ v, Grid s v → t < v → v < u → tmBit tm key (bitmapIndex v s) = false) ∧
      (r = none → ∀ v, Grid s v → t < v → v ≤ t + 256 * s →
        tmBit tm key (bitmapIndex v s) = false) := by
  obtain ⟨j, rfl, h1, h2⟩ := grid_coord hs ht
  unfold nextInitialized
  simp only []
  have e1 : j * (s : Int) + s = (j + 1) * s := by ring
  rw [e1, getSearchLimit_up hs]
  by_cases hmax : (j + 1) * (s : Int) > MAX_TICK
  · rw [if_pos hmax]
    refine ⟨none, rfl, by simp, ?_⟩
    intro _ v hv h3 _
    obtain ⟨k, rfl, k1, k2⟩ := grid_coord hs hv
    rw [mul_lt_iff hs] at h3
    have hg := coord_grid (s := s) k1 k2
    have : (j + 1) * (s : Int) ≤ k * s := (mul_le_iff hs _ _).2 (by omega)
    have := hg.2.2
    unfold MAX_TICK at hmax
    omega
  · rw [if_neg hmax]
    have hj1 : j + 1 ≤ gridHalf s := by
      have hg : Grid s ((j + 1) * s) := by
        refine ⟨Dvd.intro_left _ rfl, ?_, by unfold MAX_TICK at hmax; omega⟩
        have := ht.2.1
        have : j * (s : Int) ≤ (j + 1) * s := (mul_le_iff hs _ _).2 (by omega)
        omega
      obtain ⟨k, hk, k1, k2⟩ := grid_coord hs hg
      have hs' : (s : Int) ≠ 0 := by positivity
      rw [mul_left_injective₀ hs' hk]
      exact k2
    have g1 : Grid s ((j + 1) * s) := coord_grid (by omega) hj1
    have g2 : Grid s (min (j + 256) (gridHalf s) * s) := coord_grid (by omega) (by omega)
    rw [tickToPosition_ok g1, ok_bind, tickToPosition_ok g2, ok_bind]
    simp only []
    have i1 := bitmapIndex_eq (s := s) (j := j + 1) hs (by omega)
    have i2 := bitmapIndex_eq (s := s) (j := min (j + 256) (gridHalf s)) hs (by omega)
    generalize bitmapIndex ((j + 1) * s) s = a at *
    generalize bitmapIndex (min (j + 256) (gridHalf s) * s) s = l at *
    refine ⟨_, rfl, ?_⟩
    rcases nextLoop_spec hwf key s (l / 64) (l % 64) (Nat.mod_lt _ (by norm_num)) _ (a / 64) (a % 64)
      (Nat.mod_lt _ (by norm_num)) rfl with ⟨i, b1, b2, b3, b4, b5⟩ | ⟨b1, b2⟩
    · rw [b5, indexToTick_eq]
      have hidx : bitmapIndex (((i : Int) - gridHalf s) * s) s = i := by
        have := bitmapIndex_eq (s := s) (j := (i : Int) - gridHalf s) hs (by omega)
        omega
      refine ⟨?_, by simp⟩
      intro u hu
      simp only [Option.some.injEq] at hu
      subst hu
      refine ⟨coord_grid (by omega) (by omega), by rw [hidx]; exact b3, (mul_lt_iff hs _ _).2 (by omega),
        ?_, ?_⟩
      · have : ((i : Int) - gridHalf s) * s ≤ (j + 256) * s := (mul_le_iff hs _ _).2 (by omega)
        linarith
      · intro v hv v1 v2
        obtain ⟨k, rfl, k1, k2⟩ := grid_coord hs hv
        rw [mul_lt_iff hs] at v1 v2
        rw [bitmapIndex_nat hs k1]
        exact b4 _ (by omega) (by omega)
    · rw [b2]
      refine ⟨by simp, ?_⟩
      intro _ v hv v1 v2
      obtain ⟨k, rfl, k1, k2⟩ := grid_coord hs hv
      rw [mul_lt_iff hs] at v1
      rw [← add_mul, mul_le_iff hs] at v2
      rw [bitmapIndex_nat hs k1]
      exact b1 _ (by omega) (by omega)

theorem prevInitialized_spec {tm : Tickmap} {s : Nat} (hs : 1 ≤ s) {t : Int}
    (ht : Grid s t) (key : PoolKey) :
    ∃ r, prevInitialized tm t s key = .ok r ∧
      (∀ u, r = some u → Grid s u ∧ tmBit tm key (bitmapIndex u s) = true ∧ u ≤ t ∧
        t - 256 * s ≤ u ∧ ∀ v, Grid s v → u < v → v ≤ t → tmBit tm key (bitmapIndex v s) = false) ∧
      (r = none → ∀ v, Grid s v → v ≤ t → t - 256 * s ≤ v →
        tmBit tm key (bitmapIndex v s) = false) := by
  obtain ⟨j, rfl, h1, h2⟩ := grid_coord hs ht
  unfold prevInitialized
  simp only []
  rw [getSearchLimit_down hs]
  have g2 : Grid s (max (j - 256) (-(gridHalf s : Int)) * s) := coord_grid (by omega) (by omega)
  rw [tickToPosition_ok ht, ok_bind, tickToPosition_ok g2, ok_bind]
  simp only []
  have i1 := bitmapIndex_eq (s := s) (j := j) hs (by omega)
  have i2 := bitmapIndex_eq (s := s) (j := max (j - 256) (-(gridHalf s : Int))) hs (by omega)
  generalize bitmapIndex (j * s) s = a at *
  generalize bitmapIndex (max (j - 256) (-(gridHalf s : Int)) * s) s = l at *
  refine ⟨_, rfl, ?_⟩
  rcases prevLoop_spec (tm := tm) key s (l / 64) (l % 64) (a / 64) (a % 64)
    (Nat.mod_lt _ (by norm_num)) with ⟨i, b1, b2, b3, b4, b5⟩ | ⟨b1, b2⟩ | b
  · rw [b5, indexToTick_eq]
    have hidx : bitmapIndex (((i : Int) - gridHalf s) * s) s = i := by
      have := bitmapIndex_eq (s := s) (j := (i : Int) - gridHalf s) hs (by omega)
      omega
    refine ⟨?_, by simp⟩
    intro u hu
    simp only [Option.some.injEq] at hu
    subst hu
    refine ⟨coord_grid (by omega) (by omega), by rw [hidx]; exact b3, (mul_le_iff hs _ _).2 (by omega),
      ?_, ?_⟩
    · have : (j - 256) * (s : Int) ≤ ((i : Int) - gridHalf s) * s := (mul_le_iff hs _ _).2 (by omega)
      linarith
    · intro v hv v1 v2
      obtain ⟨k, rfl, k1, k2⟩ := grid_coord hs hv
      rw [mul_lt_iff hs] at v1
      rw [mul_le_iff hs] at v2
      rw [bitmapIndex_nat hs k1]
      exact b4 _ (by omega) (by omega)
  · rw [b2]
    refine ⟨by simp, ?_⟩
    intro _ v hv v1 v2
    obtain ⟨k, rfl, k1, k2⟩ := grid_coord hs hv
    rw [mul_le_iff hs] at v1
    rw [← sub_mul, mul_le_iff hs] at v2
    rw [bitmapIndex_nat hs k1]
    exact b1 _ (by omega) (by omega)
  · have := Nat.mod_lt l (show 0 < 64 by norm_num)
    omega

end Verif
