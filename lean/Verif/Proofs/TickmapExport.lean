import Verif.Proofs.Tickmap
import Verif.Proofs.Price
import Verif.Model.Service

/-! # Enumerating the bitmap -/

namespace Verif
open Spec

theorem getMaxChunk_eq {s : Nat} (hs : 1 ≤ s) : getMaxChunk s = 2 * gridHalf s / 64 := by
  unfold getMaxChunk CHUNK_SIZE
  have h : (getMaxTick s + MAX_TICK).tdiv s = 2 * (gridHalf s : Int) := by
    rw [getMaxTick_eq]
    have := bitmapIndex_eq (s := s) (j := gridHalf s) hs (by omega)
    unfold bitmapIndex at this
    have hnn : 0 ≤ ((gridHalf s : Int) * s + MAX_TICK).tdiv s :=
      Int.tdiv_nonneg (by unfold MAX_TICK; positivity) (by positivity)
    omega
  rw [h]
  omega

/-- ticks of the set bits in the first `n` chunks -/
def bitsOf (tm : Tickmap) (key : PoolKey) (n s : Nat) : List Int :=
  (List.range n).flatMap (fun c =>
    ((List.range 64).filter (fun b => (chunkWord tm key c).testBit b)).map
      (fun b => ((c * 64 + b : Nat) : Int) * s - gridHalf s * s))

theorem mem_bitsOf {tm : Tickmap} {key : PoolKey} {n s : Nat} {t : Int} :
    t ∈ bitsOf tm key n s ↔
      ∃ i, i < 64 * n ∧ tmBit tm key i = true ∧ t = (i : Int) * s - gridHalf s * s := by
  unfold bitsOf
  simp only [List.mem_flatMap, List.mem_range, List.mem_map, List.mem_filter]
  constructor
  · rintro ⟨c, hc, b, ⟨hb, hbit⟩, rfl⟩
    exact ⟨c * 64 + b, by omega, by rw [tmBit_mk _ _ _ _ hb]; exact hbit, rfl⟩
  · rintro ⟨i, hi, hbit, rfl⟩
    refine ⟨i / 64, by omega, i % 64, ⟨Nat.mod_lt _ (by norm_num), hbit⟩, ?_⟩
    rw [show i / 64 * 64 + i % 64 = i by omega]

theorem bitsOf_nodup {tm : Tickmap} {key : PoolKey} {n s : Nat} (hs : 1 ≤ s) :
    (bitsOf tm key n s).Nodup := by
  have hs' : (s : Int) ≠ 0 := by positivity
  unfold bitsOf
  rw [List.nodup_flatMap]
  constructor
  · intro c _
    apply List.Nodup.map_on
    · intro x _ y _ h
      have : ((c * 64 + x : Nat) : Int) * s = ((c * 64 + y : Nat) : Int) * s := by linarith
      have := mul_right_cancel₀ hs' this
      omega
    · exact List.nodup_range.filter _
  · have hp : List.Pairwise (fun a b => a ≠ b) (List.range n) := List.nodup_range
    refine hp.imp ?_
    intro c d hcd
    simp only [Function.onFun]
    intro t h1 h2
    simp only [List.mem_map, List.mem_filter, List.mem_range] at h1 h2
    obtain ⟨x, ⟨hx, _⟩, rfl⟩ := h1
    obtain ⟨y, ⟨hy, _⟩, h⟩ := h2
    have : ((d * 64 + y : Nat) : Int) * s = ((c * 64 + x : Nat) : Int) * s := by linarith
    have := mul_right_cancel₀ hs' this
    omega

theorem bitsOf_length (tm : Tickmap) (key : PoolKey) (n s : Nat) :
    (bitsOf tm key n s).length =
      ((List.range n).map (fun c => countOnes (chunkWord tm key c))).sum := by
  unfold bitsOf
  rw [List.length_flatMap]
  congr 1
  apply List.map_congr_left
  intro c _
  rw [List.length_map]
  rfl

theorem liquidityTicksCount_eq (tm : Tickmap) (key : PoolKey) :
    liquidityTicksCount tm key =
      (bitsOf tm key (getMaxChunk key.feeTier.tickSpacing) key.feeTier.tickSpacing).length := by
  rw [bitsOf_length]
  unfold liquidityTicksCount
  congr 1
  apply List.map_congr_left
  intro c _
  unfold chunkWord
  cases tm.get (c, key) with
  | none =>
    simp only [Option.getD_none]
    decide +kernel
  | some w => rfl

/-- only bits of legal ticks are set -/
def TmLegal (tm : Tickmap) : Prop :=
  ∀ key i, tmBit tm key i = true → 1 ≤ key.feeTier.tickSpacing →
    i ≤ 2 * gridHalf key.feeTier.tickSpacing

theorem tmBit_empty (key : PoolKey) (i : Nat) : tmBit ∅ key i = false := by
  unfold tmBit
  have : chunkWord ∅ key (i / 64) = 0 := rfl
  rw [this, Nat.zero_testBit]

theorem tmLegal_empty : TmLegal ∅ := by
  intro key i h
  rw [tmBit_empty] at h; cases h

theorem tmLegal_flip {tm tm' : Tickmap} {v : Bool} {t : Int} {key : PoolKey} (hl : TmLegal tm)
    (h : tickmapFlip tm v t key.feeTier.tickSpacing key = .ok tm') : TmLegal tm' := by
  intro k i hb hs
  rw [tmBit_flip h] at hb
  split at hb
  · next hc =>
    obtain ⟨rfl, rfl⟩ := hc
    obtain ⟨hg, _⟩ := tickmapFlip_ok_iff.1 h
    obtain ⟨j, rfl, h1, h2⟩ := grid_coord hs hg
    have := bitmapIndex_eq hs h1
    omega
  · exact hl k i hb hs

theorem tmLegal_mem {tm : Tickmap} {key : PoolKey} {n : Nat} {t : Int} (hl : TmLegal tm)
    (hs : 1 ≤ key.feeTier.tickSpacing) :
    t ∈ bitsOf tm key n key.feeTier.tickSpacing ↔
      tickmapGet tm t key.feeTier.tickSpacing key = .ok true ∧
      bitmapIndex t key.feeTier.tickSpacing < 64 * n := by
  rw [mem_bitsOf, tickmapGet_ok_iff]
  generalize hsp : key.feeTier.tickSpacing = s at *
  constructor
  · rintro ⟨i, hi, hb, rfl⟩
    have hle := hl key i hb (by rw [hsp]; exact hs)
    rw [hsp] at hle
    have e : (i : Int) * s - gridHalf s * s = ((i : Int) - gridHalf s) * s := by ring
    have hidx : bitmapIndex (((i : Int) - gridHalf s) * s) s = i := by
      have := bitmapIndex_eq (s := s) (j := (i : Int) - gridHalf s) hs (by omega)
      omega
    rw [e, hidx]
    exact ⟨⟨coord_grid (by omega) (by omega), hb.symm⟩, hi⟩
  · rintro ⟨⟨hg, hb⟩, hi⟩
    refine ⟨_, hi, hb.symm, ?_⟩
    obtain ⟨j, rfl, h1, h2⟩ := grid_coord hs hg
    rw [bitmapIndex_eq hs h1]
    ring

theorem grid_index_le {s : Nat} {t : Int} (hs : 1 ≤ s) (h : Grid s t) :
    bitmapIndex t s < 64 * (getMaxChunk s + 1) := by
  obtain ⟨j, rfl, h1, h2⟩ := grid_coord hs h
  have := bitmapIndex_eq hs h1
  rw [getMaxChunk_eq hs]
  omega

theorem grid_bounds {s : Nat} {t : Int} (h : Grid s t) : MIN_TICK ≤ t ∧ t ≤ MAX_TICK := ⟨h.2.1, h.2.2⟩

end Verif
