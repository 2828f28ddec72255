import Verif.Proofs.Sdk
import Verif.Proofs.PoolKeys
import Verif.Props.Tickmap

/-! # What the SDK fetches is what the contract stores -/

set_option exponentiation.threshold 1000

namespace Verif.Sdk
open Service Spec

variable {s : Inv} {key : PoolKey}

theorem lookup_slice (tm : Tickmap) (key : PoolKey) (c : Nat) : ∀ l : List Nat,
    (tickmapSlice tm l key).lookup c = if c ∈ l then tm.get (c, key) else none := by
  intro l
  unfold tickmapSlice
  induction l with
  | nil => simp
  | cons d l ih =>
    rw [List.filterMap_cons]
    by_cases hcd : c = d
    · subst hcd
      cases h : tm.get (c, key) with
      | none =>
        simp only [Option.map_none, ih, List.mem_cons, true_or, if_true, h]
        split <;> rfl
      | some w => simp [List.lookup_cons]
    · cases h : tm.get (d, key) with
      | none => simp only [Option.map_none, ih, List.mem_cons, hcd, false_or]
      | some w =>
        have hb : (c == d) = false := by simp [hcd]
        simp only [Option.map_some, List.lookup_cons, hb, ih, List.mem_cons, hcd, false_or]

/-- words beyond the last chunk are zero -/
theorem chunkWord_beyond (hw : StoreWF s) (hs : 1 ≤ key.feeTier.tickSpacing) {c : Nat}
    (hc : getMaxChunk key.feeTier.tickSpacing < c) : chunkWord s.tickmap key c = 0 := by
  apply Nat.eq_of_testBit_eq
  intro b
  rw [Nat.zero_testBit]
  by_cases hb : b < 64
  · by_contra hne
    have hbit : tmBit s.tickmap key (c * 64 + b) = true := by
      rw [tmBit_mk _ _ _ _ hb]; simpa using hne
    have := hw.legal key _ hbit hs
    rw [getMaxChunk_eq hs] at hc
    omega
  · exact Nat.testBit_lt_two_pow (lt_of_lt_of_le (hw.wf key c) (Nat.pow_le_pow_right (by norm_num) (by omega)))

theorem word_export (hw : StoreWF s) (hs : 1 ≤ key.feeTier.tickSpacing) (c : Nat) :
    word (getTickmap s key) c = chunkWord s.tickmap key c := by
  unfold word getTickmap
  rw [lookup_slice]
  by_cases hc : c ∈ List.range (getMaxChunk key.feeTier.tickSpacing + 1)
  · rw [if_pos hc]; rfl
  · rw [if_neg hc, chunkWord_beyond hw hs (by simpa [Nat.lt_succ_iff] using hc)]
    rfl

theorem land_bit (w b : Nat) : (w &&& (1 <<< b) ≠ 0) ↔ w.testBit b = true := by
  rw [Nat.one_shiftLeft]
  constructor
  · intro h
    by_contra hb
    refine h (Nat.eq_of_testBit_eq fun i => ?_)
    rw [Nat.testBit_and, Nat.testBit_two_pow, Nat.zero_testBit]
    by_cases hi : b = i
    · subst hi
      rw [Bool.not_eq_true] at hb
      simp [hb]
    · simp [hi]
  · intro h h0
    have : (w &&& 2 ^ b).testBit b = true := by
      rw [Nat.testBit_and, Nat.testBit_two_pow, h]; simp
    rw [h0, Nat.zero_testBit] at this
    cases this

theorem tickIndexes_eq (bm : List (Nat × Nat)) (sp : Nat) : tickIndexes bm sp = Spec.decode sp bm := by
  unfold tickIndexes Spec.decode
  congr 1
  funext cw
  have h1 : (List.range 64).filter (fun b => decide (cw.2 &&& (1 <<< b) ≠ 0)) =
      (List.range 64).filter (fun b => cw.2.testBit b) := by
    apply List.filter_congr
    intro b _
    rw [Bool.eq_iff_iff, decide_eq_true_iff, land_bit]
  rw [h1]
  apply List.map_congr_left
  intro b _
  have h2 : MAX_TICK - MAX_TICK.tmod sp = ((221818 / sp : Nat) : Int) * sp := by
    rw [Int.tmod_def]
    have : (MAX_TICK).tdiv sp = ((221818 / sp : Nat) : Int) := rfl
    rw [this]
    unfold MAX_TICK
    ring
  rw [h2]
  push_cast
  ring

/-- the fetched indices are the indices of the stored ticks -/
theorem mem_tickIndexes (hw : StoreWF s) (hs : 1 ≤ key.feeTier.tickSpacing) (i : Int) :
    i ∈ tickIndexes (getTickmap s key) key.feeTier.tickSpacing ↔ (s.ticks.get (key, i)).isSome := by
  rw [tickIndexes_eq]
  unfold getTickmap
  rw [decode_export, tmLegal_mem hw.legal hs, tickmapGet_ok_iff]
  constructor
  · rintro ⟨⟨hg, hb⟩, _⟩
    rw [hw.bit key i hs hg] at hb
    exact hb.symm
  · intro h
    obtain ⟨t, ht⟩ := Option.isSome_iff_exists.1 h
    have hg := (hw.tick key i t ht).1.grid
    refine ⟨⟨hg, ?_⟩, grid_index_le hs hg⟩
    rw [hw.bit key i hs hg]
    exact h.symm

theorem nodup_tickIndexes (hs : 1 ≤ key.feeTier.tickSpacing) :
    (tickIndexes (getTickmap s key) key.feeTier.tickSpacing).Nodup := by
  rw [tickIndexes_eq]
  unfold getTickmap
  rw [decode_export]
  exact bitsOf_nodup hs

/-- what is read for an index -/
def readOne (s : Inv) (key : PoolKey) (i : Int) : Option LiquidityTick :=
  (s.ticks.get (key, i)).map LiquidityTick.ofTick

theorem readTicks_ok : ∀ l : List Int, (∀ i ∈ l, (s.ticks.get (key, i)).isSome) →
    readTicks s key l = .ok (l.filterMap (readOne s key)) := by
  intro l
  induction l with
  | nil => intro _; rfl
  | cons i l ih =>
    intro h
    obtain ⟨t, ht⟩ := Option.isSome_iff_exists.1 (h i (by simp))
    unfold readTicks
    have : unwrap (ticksGet s.ticks key i) = .ok t := by
      unfold ticksGet okOr
      rw [ht]; rfl
    have hr : readOne s key i = some (LiquidityTick.ofTick t) := by unfold readOne; rw [ht]; rfl
    rw [this, ok_bind, ih (fun j hj => h j (by simp [hj])), ok_bind, List.filterMap_cons, hr]
    rfl

theorem fetch_ok : ∀ n (l : List Int), l.length ≤ n → (∀ i ∈ l, (s.ticks.get (key, i)).isSome) →
    fetch s key n l = .ok (l.filterMap (readOne s key)) := by
  intro n
  induction n with
  | zero =>
    intro l hl _
    have : l = [] := List.length_eq_zero_iff.1 (by omega)
    rw [this]; rfl
  | succ n ih =>
    intro l hl h
    unfold fetch
    by_cases h0 : l = []
    · rw [if_pos h0, h0]; rfl
    rw [if_neg h0]
    have h1 : getLiquidityTicks s key (l.take LIQUIDITY_TICK_LIMIT) =
        .ok ((l.take LIQUIDITY_TICK_LIMIT).filterMap (readOne s key)) := by
      unfold getLiquidityTicks
      rw [failIf_neg (by rw [List.length_take]; omega), ok_bind]
      exact readTicks_ok _ (fun i hi => h i (List.mem_of_mem_take hi))
    have hpos := List.length_pos_iff.2 h0
    have h2 := ih (l.drop LIQUIDITY_TICK_LIMIT) (by
      rw [List.length_drop]
      have : 0 < LIQUIDITY_TICK_LIMIT := by decide
      omega) (fun i hi => h i (List.mem_of_mem_drop hi))
    rw [h1, ok_bind, h2, ok_bind, ← List.filterMap_append, List.take_append_drop]
    rfl

theorem find_read (hw : StoreWF s) {i : Int} {t : Tick} (ht : s.ticks.get (key, i) = some t) :
    ∀ l : List Int, i ∈ l →
      (l.filterMap (readOne s key)).find? (fun u => u.index = i) = some (LiquidityTick.ofTick t) := by
  intro l
  induction l with
  | nil => intro h; simp at h
  | cons j l ih =>
    intro h
    rw [List.filterMap_cons]
    by_cases hij : i = j
    · subst hij
      have hr : readOne s key i = some (LiquidityTick.ofTick t) := by unfold readOne; rw [ht]; rfl
      rw [hr]
      have hi : (LiquidityTick.ofTick t).index = i := (hw.tick key i t ht).1.index
      rw [List.find?_cons]
      simp [hi]
    · have hm : i ∈ l := by
        rcases List.mem_cons.1 h with h | h
        · exact absurd h hij
        · exact h
      cases hr : s.ticks.get (key, j) with
      | none =>
        have : readOne s key j = none := by unfold readOne; rw [hr]; rfl
        rw [this]; exact ih hm
      | some u =>
        have : readOne s key j = some (LiquidityTick.ofTick u) := by unfold readOne; rw [hr]; rfl
        rw [this]
        dsimp only
        rw [List.find?_cons]
        have hj : (LiquidityTick.ofTick u).index = j := (hw.tick key j u hr).1.index
        have : decide ((LiquidityTick.ofTick u).index = i) = false := by
          rw [hj]; simp; exact fun h => hij h.symm
        rw [this]
        exact ih hm

/-- fetching all ticks succeeds and the list agrees with the storage -/
theorem fetchAll_ok (hw : StoreWF s) (hs : 1 ≤ key.feeTier.tickSpacing) :
    ∃ ticks, getAllLiquidityTicks s key (getTickmap s key) = .ok ticks ∧ TicksAgree s key ticks ∧
      ticks = (tickIndexes (getTickmap s key) key.feeTier.tickSpacing).filterMap (readOne s key) := by
  refine ⟨_, fetch_ok _ _ (le_refl _) (fun i hi => (mem_tickIndexes hw hs i).1 hi), ?_, rfl⟩
  intro i t ht
  exact find_read hw ht _ ((mem_tickIndexes hw hs i).2 (by rw [ht]; rfl))

end Verif.Sdk
