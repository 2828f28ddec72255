import Verif.Props.Active
import Verif.Proofs.BalanceFrame
import Mathlib.Data.List.Perm.Subperm
import Mathlib.Data.List.ProdSigma

/-!
# C97: what the storage holds is bounded by what is in use

The numbers of entries of the maps. `C97_negation`: the words of the tick map stay when their last tick goes.
-/

namespace Verif
open Service Spec

namespace Stored

variable {K V L : Type} [DecidableEq K] {s : Inv} {env : Env}

/-- a map has at most as many entries as a list that contains all its keys -/
private theorem length_le (m : Map K V) (l : List K) (h : ∀ k v, m.get k = some v → k ∈ l) :
    m.entries.length ≤ l.length := by
  rw [← List.length_map (f := Prod.fst)]
  refine (List.subperm_of_subset m.nodup ?_).length_le
  intro k hk
  obtain ⟨⟨k', v⟩, hm, rfl⟩ := List.mem_map.1 hk
  exact h k' v ((Map.get_mem m k' v).2 hm)

/-- the stored words belong to pools and hold legal ticks -/
private def WordsOK (s : Inv) : Prop :=
  ∀ c k w, s.tickmap.get (c, k) = some w → (s.pools.get k).isSome ∧ c < 6932

private theorem index_lt {sp : Nat} {t : Int} (h : Grid sp t) : bitmapIndex t sp / 64 < 6932 := by
  rcases Nat.eq_zero_or_pos sp with rfl | hs
  · obtain ⟨⟨j, hj⟩, _, _⟩ := h
    have : t = 0 := by simpa using hj
    subst this
    decide
  · obtain ⟨j, rfl, h1, h2⟩ := grid_coord hs h
    have h3 := bitmapIndex_eq hs h1
    have h4 : gridHalf sp ≤ 221818 := Nat.div_le_self _ _
    omega

private theorem flipIf_words {b v : Bool} {tm tm' : Tickmap} {i : Int} {key : PoolKey} (h : flipIf b tm v i key tm')
    {c : Nat} {k : PoolKey} {w : Nat} (hg : tm'.get (c, k) = some w) :
    (k = key ∧ c < 6932) ∨ ∃ w', tm.get (c, k) = some w' := by
  cases b with
  | false => rw [h.2 rfl] at hg; exact Or.inr ⟨w, hg⟩
  | true =>
    obtain ⟨h1, _, h2⟩ := tickmapFlip_ok_iff.1 (h.1 rfl)
    rw [h2, Map.get_insert] at hg
    split at hg
    · next e => cases e; exact Or.inl ⟨rfl, index_lt h1⟩
    · exact Or.inr ⟨w, hg⟩

private theorem isSome_insert' {m : Map K V} {k k' : K} {v : V} (h : (m.get k').isSome ∨ k' = k) :
    ((m.insert k v).get k').isSome := by
  rw [Map.get_insert]
  split
  · rfl
  · next hn => exact h.resolve_right hn

private theorem reach_words : ∀ s, Reach s → WordsOK s := by
  refine reach_ind ?_ (fun s b aw h => h) ?_
  · intro a f c k w h
    cases h
  · intro env s s' hr hI he
    have hi := (reach_wf s hr).indexed
    cases he with
    | other pf ft b => exact hI
    | newPool _ _ hn _ =>
      intro c k w hg
      exact ⟨isSome_insert' (Or.inl (hI c k w hg).1), (hI c k w hg).2⟩
    | poolField hp _ =>
      intro c k w hg
      exact ⟨isSome_insert' (Or.inl (hI c k w hg).1), (hI c k w hg).2⟩
    | create h =>
      obtain ⟨pool, lt, ut, m, b, tm1, tm2, h1, _⟩ := createPosition_full hi h
      intro c k w hg
      rw [h1.res] at hg ⊢
      dsimp only at hg ⊢
      rcases flipIf_words h1.flip2 hg with ⟨e, hc⟩ | ⟨w', hg⟩
      · exact ⟨isSome_insert' (Or.inr e), hc⟩
      · rcases flipIf_words h1.flip1 hg with ⟨e, hc⟩ | ⟨w', hg⟩
        · exact ⟨isSome_insert' (Or.inr e), hc⟩
        · exact ⟨isSome_insert' (Or.inl (hI c k _ hg).1), (hI c k _ hg).2⟩
    | remove h =>
      obtain ⟨p, lower, upper, pool, m, ps, b, tm1, tm2, h1, _⟩ := removePosition_full hi h
      intro c k w hg
      rw [h1.res] at hg ⊢
      dsimp only at hg ⊢
      rcases flipIf_words h1.flip2 hg with ⟨e, hc⟩ | ⟨w', hg⟩
      · exact ⟨isSome_insert' (Or.inr e), hc⟩
      · rcases flipIf_words h1.flip1 hg with ⟨e, hc⟩ | ⟨w', hg⟩
        · exact ⟨isSome_insert' (Or.inr e), hc⟩
        · exact ⟨isSome_insert' (Or.inl (hI c k _ hg).1), (hI c k _ hg).2⟩
    | claim h =>
      obtain ⟨p, lower, upper, pool, m, ps, b, h1, _⟩ := claimFee_full hi h
      intro c k w hg
      rw [h1.res] at hg ⊢
      exact ⟨isSome_insert' (Or.inl (hI c k w hg).1), (hI c k w hg).2⟩
    | transfer h => exact hI
    | swap h _ =>
      obtain ⟨ticks, b1, b2, _, _, _, _, e⟩ := swap_ok h
      intro c k w hg
      rw [e] at hg ⊢
      exact ⟨isSome_insert' (Or.inl (hI c k w hg).1), (hI c k w hg).2⟩

/-- C97, ticks: every stored tick bounds a stored position, so there are at most twice as many ticks as positions. -/
theorem C97_ticks (h : Reach32 s) : s.ticks.entries.length ≤ 2 * s.positions.map.entries.length := by
  have h1 := length_le s.ticks
    (s.positions.map.entries.flatMap fun e => [(e.2.poolKey, e.2.lowerTickIndex), (e.2.poolKey, e.2.upperTickIndex)])
    (fun k t hk => by
      obtain ⟨key, i⟩ := k
      obtain ⟨a, n, p, hp, rfl, hb⟩ := ((C33_ledger_partial h key i).2.2.1).1 (by rw [hk]; rfl)
      refine List.mem_flatMap.2 ⟨((a, n), p), (Map.get_mem _ _ _).1 (posGet_ok.1 hp), ?_⟩
      rcases hb with rfl | rfl
      · exact List.mem_cons_self
      · exact List.mem_cons_of_mem _ List.mem_cons_self)
  rw [List.length_flatMap] at h1
  simp only [List.length_cons, List.length_nil, List.map_const', List.sum_replicate] at h1
  simpa [Nat.mul_comm] using h1

/-- C97, the tick map: every stored word belongs to an existing pool and there are at most 6932 for each. -/
theorem C97_words (h : Reach s) :
    (∀ c k w, s.tickmap.get (c, k) = some w → (s.pools.get k).isSome ∧ c < 6932) ∧
    s.tickmap.entries.length ≤ 6932 * s.pools.entries.length := by
  have hw := reach_words s h
  refine ⟨hw, ?_⟩
  have h1 := length_le s.tickmap ((List.range 6932) ×ˢ (s.pools.entries.map Prod.fst)) (fun k w hk => by
    obtain ⟨c, k⟩ := k
    obtain ⟨h1, h2⟩ := hw c k w hk
    obtain ⟨p, hp⟩ := Option.isSome_iff_exists.1 h1
    exact List.mem_product.2 ⟨List.mem_range.2 h2, List.mem_map.2 ⟨_, (Map.get_mem _ _ _).1 hp, rfl⟩⟩)
  rwa [List.length_product, List.length_range, List.length_map] at h1

/-- C97, balances: only balances other than zero are stored. -/
theorem C97_balances (h : Reach s) {k : ActorId × ActorId} {v : Nat} (hv : s.balances.get k = some v) : v ≠ 0 :=
  (reach_balWF h k v hv).1

/-- C97, a pool without positions has no ticks, and no bit of its part of the tick map is set (full statement: nor is
any word stored for it; see `C97_negation`). -/
theorem C97_empty_partial (h : Reach32 s) {key : PoolKey} (hs : 1 ≤ key.feeTier.tickSpacing)
    (h0 : ∀ a n p, s.positions.get a n = .ok p → p.poolKey ≠ key) (i : Int) :
    s.ticks.get (key, i) = none ∧ tickmapGet s.tickmap i key.feeTier.tickSpacing key ≠ .ok true ∧
    ∀ c w, s.tickmap.get (c, key) = some w → w = 0 := by
  have hn : ∀ i, s.ticks.get (key, i) = none := by
    intro i
    cases hg : s.ticks.get (key, i) with
    | none => rfl
    | some t =>
      obtain ⟨a, n, p, hp, hk, _⟩ := ((C33_ledger_partial h key i).2.2.1).1 (by rw [hg]; rfl)
      exact absurd hk (h0 a n p hp)
  have hb : ∀ i, tickmapGet s.tickmap i key.feeTier.tickSpacing key ≠ .ok true := by
    intro i hi
    have := ((C33_ledger_partial h key i).2.2.2 hs).2 hi
    rw [hn i] at this
    cases this
  refine ⟨hn i, hb i, ?_⟩
  intro c w hw
  have hr := reach_wf s (reach32_reach s h).1
  have hc : chunkWord s.tickmap key c = w := by unfold chunkWord; rw [hw]; rfl
  refine Nat.eq_of_testBit_eq fun b => ?_
  rw [Nat.zero_testBit]
  rcases Nat.lt_or_ge b 64 with hb64 | hb64
  · by_contra ht
    rw [Bool.not_eq_false] at ht
    have hbit : tmBit s.tickmap key (c * 64 + b) = true := by rw [tmBit_mk _ _ _ _ hb64, hc, ht]
    have hle := hr.legal key _ hbit hs
    have hm := gridHalf_mul_le key.feeTier.tickSpacing
    have hspos : (0 : Int) < key.feeTier.tickSpacing := by exact_mod_cast hs
    obtain ⟨j, hj⟩ : ∃ j : Int, j = ((c * 64 + b : Nat) : Int) - gridHalf key.feeTier.tickSpacing := ⟨_, rfl⟩
    have h1 : -(gridHalf key.feeTier.tickSpacing : Int) ≤ j := by omega
    have h2 : j ≤ gridHalf key.feeTier.tickSpacing := by omega
    have hi := bitmapIndex_eq hs h1
    have hg : Grid key.feeTier.tickSpacing (j * key.feeTier.tickSpacing) :=
      ⟨Dvd.intro_left _ rfl, by nlinarith, by nlinarith⟩
    have hbb := hr.bit key _ hs hg
    rw [show bitmapIndex (j * key.feeTier.tickSpacing) key.feeTier.tickSpacing = c * 64 + b by omega, hbit,
      hn] at hbb
    cases hbb
  · refine Nat.testBit_lt_two_pow (Nat.lt_of_lt_of_le ?_ (Nat.pow_le_pow_right (by decide) hb64))
    rw [← hc]
    exact hr.wf key c

/-- the demo after the only position of the second pool is gone -/
private def closed : Inv := run (Demo.by_ 3) Demo.start (.removePosition 1)

private theorem closed_reach : Reach32 closed := by
  have h : ∃ s', step (Demo.by_ 3) Demo.start (.removePosition 1) = .ok s' ∧ closed = s' := by
    unfold closed run
    have h0 : ((step (Demo.by_ 3) Demo.start (.removePosition 1)).toOption.isSome) = true := by decide +kernel
    cases hx : step (Demo.by_ 3) Demo.start (.removePosition 1) with
    | error e => rw [hx] at h0; cases h0
    | ok s' => exact ⟨s', rfl, rfl⟩
  obtain ⟨s', h1, h2⟩ := h
  rw [h2]
  refine .call (clear_reach32 _ demo_start_clear) h1 ?_
  rw [← h2]
  exact few_of_all (by decide +kernel)

/-- C97 as stated is false: the tick map keeps a word for a pool that has no position any more. -/
theorem C97_negation : ∃ s key c, Reach32 s ∧ (∀ a n p, s.positions.get a n = .ok p → p.poolKey ≠ key) ∧
    s.tickmap.get (c, key) = some 0 := by
  refine ⟨closed, Demo.key2, 346, closed_reach, ?_, by decide +kernel⟩
  have h0 : closed.positions.map.entries.all (fun e => decide (e.2.poolKey ≠ Demo.key2)) = true := by decide +kernel
  intro a n p hp
  have := List.all_eq_true.1 h0 _ ((Map.get_mem _ _ _).1 (posGet_ok.1 hp))
  exact of_decide_eq_true this

/-- the demo with three positions: six ticks, one word for each of the two pools; after the removal four ticks and
still two words -/
example : Demo.start.positions.map.entries.length = 3 ∧ Demo.start.ticks.entries.length = 6 ∧
    Demo.start.tickmap.entries.length = 2 ∧ closed.positions.map.entries.length = 2 ∧
    closed.ticks.entries.length = 4 ∧ closed.tickmap.entries.length = 2 ∧ closed.pools.entries.length = 2 := by
  decide +kernel

end Stored
end Verif
