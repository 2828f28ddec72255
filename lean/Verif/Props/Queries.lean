import Verif.Proofs.Queries
import Verif.Proofs.Active
import Verif.Spec.Queries
import Verif.Spec.Demo

/-!
# Properties C55, C56: what the queries report

C55 is stated for histories in which no account gets to 2^32 - 1 positions (`Reach32`); beyond that positions
are overwritten (C19).
-/

namespace Verif
open Service Spec

variable {s : Inv} {L : Lists}

/-- the lists the theorems below speak about exist and are unique -/
theorem C55_lists (hr : Reach32 s) : ∃ L, Holds s L ∧ ∀ L', Holds s L' → L' = L := by
  obtain ⟨L, hL⟩ := reach32_listed s hr
  refine ⟨L, hL, fun L' h => ?_⟩
  funext a
  apply List.ext_getElem?
  intro i
  rw [← (h a).2 i, ← (hL a).2 i]

private theorem stored_pool (hr : Reach32 s) (hL : Holds s L) {owner : ActorId} {p : Position} (h : p ∈ L owner) :
    ∃ pool, s.pools.get p.poolKey = some pool := by
  obtain ⟨i, hi⟩ := List.mem_iff_getElem?.1 h
  rw [← (hL owner).2 i] at hi
  exact Option.isSome_iff_exists.1 (((reach_wf s (reach32_reach s hr).1).pos _ _ hi).2)

private theorem stored (hr : Reach32 s) {k : ActorId × Nat} {q : Position} (hq : s.positions.map.get k = some q) :
    ∃ p l u, s.pools.get q.poolKey = some p ∧ s.ticks.get (q.poolKey, q.lowerTickIndex) = some l ∧
      s.ticks.get (q.poolKey, q.upperTickIndex) = some u := by
  have hw := reach_wf s (reach32_reach s hr).1
  obtain ⟨h1, h2⟩ := pos_ticks hw (reach32_ledger s hr) hq
  obtain ⟨p, hp⟩ := Option.isSome_iff_exists.1 (hw.pos _ _ hq).2
  obtain ⟨l, hl⟩ := Option.isSome_iff_exists.1 h1
  obtain ⟨u, hu⟩ := Option.isSome_iff_exists.1 h2
  exact ⟨p, l, u, hp, hl, hu⟩

private theorem zip_page (l : List Position) (offset size : Nat) :
    ((l.drop offset).take size).zip (List.range' offset ((l.drop offset).take size).length) = page l offset size := by
  unfold page
  rw [List.zipIdx_eq_zip_range']

private theorem mem_page {l : List Position} {offset size : Nat} {e : Position × Nat} (h : e ∈ page l offset size) :
    e.1 ∈ l := by
  unfold page at h
  have := List.fst_mem_of_mem_zipIdx h
  exact List.mem_of_mem_drop (List.mem_of_mem_take this)

/-- C55, `get_positions`: the reply splits the requested page by pool, with the index of every position and
the stored pool, and ends with the number of positions of the owner. It fails only if the end of the page
does not fit into 32 bits. -/
theorem C55_positions (hr : Reach32 s) (hL : Holds s L) (owner : ActorId) (size offset : Nat) :
    (offset + size < 2 ^ 32 → ∃ groups, Service.getPositions s owner size offset = .ok (groups, (L owner).length) ∧
      groups.map (·.2) = byPool (page (L owner) offset size) ∧
      ∀ g ∈ groups, ∀ e ∈ g.2, s.pools.get e.1.poolKey = some g.1) ∧
    (2 ^ 32 ≤ offset + size → Service.getPositions s owner size offset = .error .panic) := by
  constructor
  · intro h
    obtain ⟨r, h1, h2, h3⟩ := groupAll_ok (pools := s.pools) (page (L owner) offset size) [] []
      (fun e he => by
        obtain ⟨pool, hp⟩ := stored_pool hr hL (mem_page he)
        rw [hp]; rfl) rfl (fun g hg => by simp at hg)
    refine ⟨r, ?_, h3, h2⟩
    unfold Service.getPositions
    rw [posRepr_getSlice hL owner h]
    simp only [ok_bind]
    rw [zip_page, h1, (hL owner).1]
    rfl
  · intro h
    unfold Service.getPositions Positions.getSlice addC fit
    rw [if_neg (by omega)]
    rfl

theorem sdk_page (hr : Reach32 s) (hL : Holds s L) (owner : ActorId) {size offset : Nat}
    (h : offset + size < 2 ^ 32) :
    ∃ r, Sdk.getPositions s owner size offset = .ok (r, (L owner).length) ∧
      r.map (·.1) = ((L owner).drop offset).take size ∧ ∀ e ∈ r, s.pools.get e.1.poolKey = some e.2 := by
  obtain ⟨groups, h1, h2, h3⟩ := (C55_positions hr hL owner size offset).1 h
  let poolOf : Position × Nat → Pool := fun e => (s.pools.get e.1.poolKey).getD ⟨0, 0, 0, 0, 0, 0, 0, 0, 0, 0⟩
  have hflat : groups.flatMap (fun g => g.2.map (fun e => (e, g.1))) =
      (byPool (page (L owner) offset size)).flatten.map (fun e => (e, poolOf e)) := by
    rw [← h2, ← List.flatMap_def, List.map_flatMap]
    simp only [List.flatMap_def]
    congr 1
    apply List.map_congr_left
    intro g hg
    apply List.map_congr_left
    intro e he
    have := h3 g hg e he
    simp only [poolOf, this, Option.getD_some]
  have hperm : (byPool (page (L owner) offset size)).flatten.Perm (page (L owner) offset size) := by
    unfold byPool
    rw [← List.flatMap_def]
    refine groups_perm (fun e : Position × Nat => e.1.poolKey) _ _ (nodup_dups _ _ le_rfl) ?_
    intro x hx
    rw [List.mem_eraseDups]
    exact List.mem_map.2 ⟨x, hx, rfl⟩
  have hsort : ((page (L owner) offset size).map (fun e => (e, poolOf e))).Pairwise (fun a b => a.1.2 < b.1.2) := by
    rw [List.pairwise_map]
    have : ((page (L owner) offset size).map (·.2)).Pairwise (· < ·) := by
      unfold page
      rw [List.zipIdx_map_snd]
      exact List.pairwise_lt_range'
    exact List.pairwise_map.1 this
  have hs := sortByIndex_eq (hflat ▸ hperm.map (fun e => (e, poolOf e))) hsort
  refine ⟨_, by
    unfold Sdk.getPositions
    rw [h1]
    simp only [ok_bind]
    rw [hs]
    rfl, ?_, ?_⟩
  · rw [List.map_map, List.map_map]
    unfold page
    exact List.zipIdx_map_fst _ _
  · intro e he
    rw [List.map_map, List.mem_map] at he
    obtain ⟨x, hx, rfl⟩ := he
    obtain ⟨pool, hp⟩ := stored_pool hr hL (mem_page hx)
    simp only [Function.comp, poolOf, hp, Option.getD_some]

theorem chunks {α : Type} (l : List α) (pp : Nat) : ∀ n i,
    (List.range' i n).flatMap (fun j => (l.drop (j * pp)).take pp) = (l.drop (i * pp)).take (n * pp) := by
  intro n
  induction n with
  | zero => intro i; simp
  | succ n ih =>
    intro i
    rw [List.range'_succ, List.flatMap_cons, ih, show (n + 1) * pp = pp + n * pp by ring, List.take_add,
      List.drop_drop, show i * pp + pp = (i + 1) * pp by ring]

private theorem sdk_later (hr : Reach32 s) (hL : Holds s L) (owner : ActorId) {pp : Nat} : ∀ n i,
    (0 < n → (i + n - 1) * pp + pp < 2 ^ 32) →
    ∃ pages, Sdk.laterPages s owner pp n i = .ok pages ∧ pages.map (·.1) = List.range' i n ∧
      (∀ pg ∈ pages, ∀ e ∈ pg.2, s.pools.get e.1.poolKey = some e.2) ∧
      ∀ pg ∈ pages, pg.2.map (·.1) = ((L owner).drop (pg.1 * pp)).take pp := by
  intro n
  induction n with
  | zero => intro i _; exact ⟨[], rfl, rfl, by simp, by simp⟩
  | succ n ih =>
    intro i hn
    have hn := hn (Nat.succ_pos n)
    have hi : i * pp + pp < 2 ^ 32 := by
      have : i * pp ≤ (i + (n + 1) - 1) * pp := Nat.mul_le_mul_right _ (by omega)
      omega
    obtain ⟨r, a1, a2, a3⟩ := sdk_page hr hL owner hi
    obtain ⟨pages, b1, b2, b3, b4⟩ := ih (i + 1) (fun _ => by rw [show i + 1 + n - 1 = i + (n + 1) - 1 by omega]; exact hn)
    refine ⟨(i, r) :: pages, ?_, by rw [List.map_cons, b2, List.range'_succ], ?_, ?_⟩
    · unfold Sdk.laterPages
      rw [a1]
      simp only [ok_bind]
      rw [b1]
      rfl
    · intro pg hpg
      rcases List.mem_cons.1 hpg with rfl | hpg
      · exact a3
      · exact b3 pg hpg
    · intro pg hpg
      rcases List.mem_cons.1 hpg with rfl | hpg
      · exact a2
      · exact b4 pg hpg

/-- C55, the paging of the SDK: it requests exactly the pages there are, and together they list every
position of the owner exactly once, in index order, each with the state of its pool. -/
theorem C55_paging (hr : Reach32 s) (hL : Holds s L) (owner : ActorId) {perPage : Nat} (h1 : 1 ≤ perPage)
    (h2 : (L owner).length + perPage < 2 ^ 32) :
    ∃ pages, Sdk.getAllPositions s owner perPage = .ok pages ∧
      pages.map (·.1) = List.range pages.length ∧
      (pages.flatMap (·.2)).map (·.1) = L owner ∧
      (∀ pg ∈ pages, ∀ e ∈ pg.2, s.pools.get e.1.poolKey = some e.2) ∧
      ∀ pg ∈ pages, pg.2.map (·.1) = ((L owner).drop (pg.1 * perPage)).take perPage := by
  obtain ⟨r, a1, a2, a3⟩ := sdk_page (offset := 0) hr hL owner (by omega : 0 + perPage < 2 ^ 32)
  have hq : ((L owner).length + perPage - 1) / perPage * perPage ≤ (L owner).length + perPage - 1 :=
    Nat.div_mul_le_self _ _
  obtain ⟨pages, b1, b2, b3, b4⟩ := sdk_later hr hL owner (pp := perPage)
    (((L owner).length + perPage - 1) / perPage - 1) 1 (by
      intro hpos
      rw [Nat.add_sub_cancel_left, Nat.sub_mul]
      have := Nat.mul_le_mul_right perPage (show 1 ≤ ((L owner).length + perPage - 1) / perPage by omega)
      omega)
  have e1 : ((0, r) :: pages).map (·.1) = List.range' 0 (((L owner).length + perPage - 1) / perPage - 1 + 1) := by
    rw [List.map_cons, b2, List.range'_succ]
  have hlen : ((0, r) :: pages).length = ((L owner).length + perPage - 1) / perPage - 1 + 1 := by
    rw [← List.length_map (f := (·.1)), e1, List.length_range']
  have e2 : ∀ pg ∈ (0, r) :: pages, pg.2.map (·.1) = ((L owner).drop (pg.1 * perPage)).take perPage := by
    intro pg hpg
    rcases List.mem_cons.1 hpg with rfl | hpg
    · rw [Nat.zero_mul]; exact a2
    · exact b4 pg hpg
  refine ⟨(0, r) :: pages, ?_, ?_, ?_, ?_, e2⟩
  · unfold Sdk.getAllPositions
    rw [a1]
    simp only [ok_bind]
    rw [b1]
    rfl
  · rw [hlen, e1, List.range_eq_range']
  · rw [List.map_flatMap]
    have e3 : (((0, r) :: pages).flatMap fun pg => pg.2.map (·.1)) =
        (((0, r) :: pages).map (·.1)).flatMap (fun j => ((L owner).drop (j * perPage)).take perPage) := by
      rw [List.flatMap_map]
      simp only [List.flatMap_def]
      congr 1
      exact List.map_congr_left e2
    rw [e3, e1, chunks, Nat.zero_mul, List.drop_zero, List.take_of_length_le]
    rcases Nat.eq_zero_or_pos (((L owner).length + perPage - 1) / perPage) with h0 | h0
    · have := (Nat.div_eq_zero_iff_lt h1).1 h0
      rw [h0]; omega
    · rw [Nat.sub_add_cancel h0]
      have := Nat.div_add_mod ((L owner).length + perPage - 1) perPage
      have h3 := Nat.mod_lt ((L owner).length + perPage - 1) h1
      rw [Nat.mul_comm] at this
      omega
  · intro pg hpg
    rcases List.mem_cons.1 hpg with rfl | hpg
    · exact a3
    · exact b3 pg hpg

/-- C55, `get_position_with_associates`: it succeeds exactly for existing positions and reports the position,
its pool and its two ticks. -/
theorem C55_associates (hr : Reach32 s) (hL : Holds s L) (owner : ActorId) (index : Nat) :
    (∀ p, (L owner)[index]? = some p → ∃ pool lower upper,
      getPositionWithAssociates s owner index = .ok (p, pool, lower, upper) ∧
      s.pools.get p.poolKey = some pool ∧
      s.ticks.get (p.poolKey, p.lowerTickIndex) = some lower ∧ lower.index = p.lowerTickIndex ∧
      s.ticks.get (p.poolKey, p.upperTickIndex) = some upper ∧ upper.index = p.upperTickIndex) ∧
    ((L owner)[index]? = none → getPositionWithAssociates s owner index = .error (.inv .PositionNotFound)) := by
  constructor
  · intro p hp
    rw [← (hL owner).2 index] at hp
    obtain ⟨pool, lower, upper, h1, h2, h3⟩ := stored hr hp
    have hi := (reach_wf s (reach32_reach s hr).1).indexed
    refine ⟨pool, lower, upper, ?_, h1, h2, hi _ _ _ h2, h3, hi _ _ _ h3⟩
    unfold getPositionWithAssociates Positions.get poolsGet ticksGet
    rw [hp]
    simp only [okOr, ok_bind]
    rw [h1, h2, h3]
    rfl
  · intro hp
    rw [← (hL owner).2 index] at hp
    unfold getPositionWithAssociates Positions.get
    rw [hp]
    rfl

private theorem ticks_reported (hr : Reach32 s) (hL : Holds s L) (owner : ActorId) (offset : Nat) :
    (getPositionTicks s owner offset).map some =
      (((L owner).drop offset).take 8936).flatMap (fun p =>
        [(s.ticks.get (p.poolKey, p.lowerTickIndex)).map PositionTick.ofTick,
         (s.ticks.get (p.poolKey, p.upperTickIndex)).map PositionTick.ofTick]) := by
  have key : ∀ (l : List Position) (i m : Nat) (acc : List PositionTick), (L owner).drop i = l →
      acc.length = 2 * m → m < 8936 →
      (positionTicksLoop s owner (List.range' i l.length) acc).map some = acc.map some ++
        (l.take (8936 - m)).flatMap (fun p =>
          [(s.ticks.get (p.poolKey, p.lowerTickIndex)).map PositionTick.ofTick,
           (s.ticks.get (p.poolKey, p.upperTickIndex)).map PositionTick.ofTick]) := by
    intro l
    induction l with
    | nil => intro i m acc _ _ _; simp [positionTicksLoop]
    | cons p l ih =>
      intro i m acc hd ha hm
      have hp : s.positions.map.get (owner, i) = some p := by
        rw [(hL owner).2 i]
        have := congrArg List.head? hd
        rwa [List.head?_drop, List.head?_cons] at this
      obtain ⟨pool, lower, upper, h1, h2, h3⟩ := stored hr hp
      have hacc : pushTick s p.poolKey p.upperTickIndex (pushTick s p.poolKey p.lowerTickIndex acc) =
          acc ++ [.ofTick lower, .ofTick upper] := by
        unfold pushTick ticksGet
        rw [h2, h3]
        simp [okOr]
      rw [List.length_cons, List.range'_succ]
      unfold positionTicksLoop
      have hg : s.positions.get owner i = .ok p := by
        unfold Positions.get; rw [hp]; rfl
      rw [hg]
      dsimp only
      rw [hacc]
      have hl : (acc ++ [PositionTick.ofTick lower, .ofTick upper]).length = 2 * (m + 1) := by
        rw [List.length_append, ha]; rfl
      rw [show 8936 - m = (8936 - (m + 1)) + 1 by omega, List.take_succ_cons, List.flatMap_cons, h2, h3]
      by_cases hm1 : m + 1 < 8936
      · rw [if_neg (by rw [hl]; unfold POSITION_TICK_LIMIT; omega)]
        rw [ih (i + 1) (m + 1) _ (by rw [← List.drop_drop, hd]; rfl) hl hm1]
        simp
      · rw [if_pos (by rw [hl]; unfold POSITION_TICK_LIMIT; omega)]
        simp [show 8936 - (m + 1) = 0 by omega]
  have h := key _ offset 0 [] rfl rfl (by omega)
  unfold getPositionTicks rangeFromTo
  rw [(hL owner).1]
  simp only [List.length_drop, List.map_nil, List.nil_append, Nat.sub_zero] at h
  exact h

/-- C55, `get_position_ticks`: the two ticks of every position from the offset on, lower before upper, for at
most 8936 positions, each with its index, the fee growth of both tokens and the seconds outside. -/
theorem C55_ticks (hr : Reach32 s) (hL : Holds s L) (owner : ActorId) (offset : Nat) :
    (getPositionTicks s owner offset).map (fun t =>
        some (t.index, t.feeGrowthOutsideX, t.feeGrowthOutsideY, t.secondsOutside)) =
      (((L owner).drop offset).take 8936).flatMap (fun p => [p.lowerTickIndex, p.upperTickIndex].map (fun i =>
        (s.ticks.get (p.poolKey, i)).map (fun t =>
          (t.index, t.feeGrowthOutsideX, t.feeGrowthOutsideY, t.secondsOutside)))) := by
  have h := congrArg (List.map (Option.map (fun t : PositionTick =>
    (t.index, t.feeGrowthOutsideX, t.feeGrowthOutsideY, t.secondsOutside)))) (ticks_reported hr hL owner offset)
  rw [List.map_map, List.map_flatMap] at h
  refine Eq.trans h ?_
  congr 1
  funext p
  simp only [List.map_cons, List.map_nil, Option.map_map]
  rfl

/-! ### Example: account 3 has one position in each of the two pools -/

/-- both positions on one page, split by pool; each on its own page; both with their ticks -/
example :
    (Service.getPositions Demo.traded 3 10 0).toOption.map (fun r => (r.1.map (fun g => g.2.map (fun e =>
      (e.1.liquidity, e.2))), r.2)) = some ([[(3 * 10 ^ 15, 0)], [(10 ^ 16, 1)]], 2) ∧
    (Sdk.getAllPositions Demo.traded 3 1).toOption.map (fun r => r.map (fun g => (g.1, g.2.map (fun e =>
      (e.1.liquidity, e.2.currentTickIndex))))) = some [(0, [(3 * 10 ^ 15, -20)]), (1, [(10 ^ 16, 0)])] ∧
    (getPositionTicks Demo.traded 3 1).map (·.index) = [-100, 100] ∧
    (getPositionWithAssociates Demo.traded 3 0).toOption.map (fun r => (r.2.2.1.index, r.2.2.2.index)) =
      some (-10, 10) := by decide +kernel

/-! ### C56: the pools of a pair -/

/-- C56 for the pools whose fee tier is listed (full statement: every pool of the pair is reported; refuted
by `C56_negation`): the pools of the pair, in any order of the tokens, each with its tier, in the order of
the list of tiers. -/
theorem C56_pair_partial (s : Inv) {a b : ActorId} (hab : a ≠ b) :
    ∃ r, getAllPoolsForPair s a b s.feeTiers = .ok r ∧ getAllPoolsForPair s b a s.feeTiers = .ok r ∧
      (r.map (·.1)).Sublist s.feeTiers ∧
      ∀ t p, (t, p) ∈ r ↔ t ∈ s.feeTiers ∧ ∃ k, s.pools.get k = some p ∧ k.feeTier = t ∧
        k.tokenX < k.tokenY ∧ ((k.tokenX = a ∧ k.tokenY = b) ∨ (k.tokenX = b ∧ k.tokenY = a)) := by
  have hsym : ∀ t, PoolKey.new b a t = PoolKey.new a b t := by
    intro t
    unfold PoolKey.new
    rw [if_neg hab, if_neg (Ne.symm hab)]
    rcases Nat.lt_or_gt_of_ne hab with h | h
    · rw [if_pos h, if_neg (Nat.not_lt.2 h.le)]
    · rw [if_pos h, if_neg (Nat.not_lt.2 h.le)]
  have hnew : ∀ t, ∃ k, PoolKey.new a b t = .ok k ∧ ∀ k', k' = k ↔ k'.feeTier = t ∧ k'.tokenX < k'.tokenY ∧
      ((k'.tokenX = a ∧ k'.tokenY = b) ∨ (k'.tokenX = b ∧ k'.tokenY = a)) := by
    intro t
    unfold PoolKey.new
    rw [if_neg hab]
    rcases Nat.lt_or_gt_of_ne hab with h | h
    · rw [if_pos h]
      refine ⟨_, rfl, fun k' => ⟨?_, ?_⟩⟩
      · rintro rfl; exact ⟨rfl, h, .inl ⟨rfl, rfl⟩⟩
      · rintro ⟨rfl, h1, ⟨rfl, rfl⟩ | ⟨rfl, rfl⟩⟩
        · rfl
        · exact absurd h1 (Nat.not_lt.2 h.le)
    · rw [if_neg (Nat.not_lt.2 h.le)]
      refine ⟨_, rfl, fun k' => ⟨?_, ?_⟩⟩
      · rintro rfl; exact ⟨rfl, h, .inr ⟨rfl, rfl⟩⟩
      · rintro ⟨rfl, h1, ⟨rfl, rfl⟩ | ⟨rfl, rfl⟩⟩
        · exact absurd h1 (Nat.not_lt.2 h.le)
        · rfl
  have key : ∀ l : List FeeTier, ∃ r, getAllPoolsForPair s a b l = .ok r ∧ getAllPoolsForPair s b a l = .ok r ∧
      (r.map (·.1)).Sublist l ∧
      ∀ t p, (t, p) ∈ r ↔ t ∈ l ∧ ∃ k, s.pools.get k = some p ∧ k.feeTier = t ∧
        k.tokenX < k.tokenY ∧ ((k.tokenX = a ∧ k.tokenY = b) ∨ (k.tokenX = b ∧ k.tokenY = a)) := by
    intro l
    induction l with
    | nil => exact ⟨[], rfl, rfl, .slnil, by simp⟩
    | cons t l ih =>
      obtain ⟨r, h1, h2, h3, h4⟩ := ih
      obtain ⟨k, hk, hk'⟩ := hnew t
      have hmem : ∀ t' p, (∃ k', s.pools.get k' = some p ∧ k'.feeTier = t' ∧ k'.tokenX < k'.tokenY ∧
          ((k'.tokenX = a ∧ k'.tokenY = b) ∨ (k'.tokenX = b ∧ k'.tokenY = a))) → t' = t →
          s.pools.get k = some p := by
        rintro t' p ⟨k', e1, e2, e3, e4⟩ rfl
        have := (hk' k').2 ⟨e2, e3, e4⟩
        rwa [this] at e1
      cases hp : s.pools.get k with
      | none =>
        refine ⟨r, ?_, ?_, h3.cons t, ?_⟩
        · unfold getAllPoolsForPair
          rw [hk]
          simp only [ok_bind]
          rw [h1]
          simp only [ok_bind, hp]
          rfl
        · unfold getAllPoolsForPair
          rw [hsym, hk]
          simp only [ok_bind]
          rw [h2]
          simp only [ok_bind, hp]
          rfl
        · intro t' p
          rw [h4]
          constructor
          · rintro ⟨e1, e2⟩; exact ⟨List.mem_cons_of_mem _ e1, e2⟩
          · rintro ⟨e1, e2⟩
            refine ⟨?_, e2⟩
            rcases List.mem_cons.1 e1 with e | e
            · have := hmem t' p e2 e
              rw [hp] at this; cases this
            · exact e
      | some pool =>
        refine ⟨(t, pool) :: r, ?_, ?_, by rw [List.map_cons]; exact h3.cons_cons t, ?_⟩
        · unfold getAllPoolsForPair
          rw [hk]
          simp only [ok_bind]
          rw [h1]
          simp only [ok_bind, hp]
          rfl
        · unfold getAllPoolsForPair
          rw [hsym, hk]
          simp only [ok_bind]
          rw [h2]
          simp only [ok_bind, hp]
          rfl
        · intro t' p
          rw [List.mem_cons, h4]
          constructor
          · rintro (e | ⟨e1, e2⟩)
            · cases e
              exact ⟨List.mem_cons_self, k, hp, (hk' k).1 rfl⟩
            · exact ⟨List.mem_cons_of_mem _ e1, e2⟩
          · rintro ⟨e1, e2⟩
            rcases List.mem_cons.1 e1 with e | e
            · have := hmem t' p e2 e
              rw [hp] at this
              cases this
              exact .inl (by rw [e])
            · exact .inr ⟨e, e2⟩
  exact key s.feeTiers

/-- C56, a pair of equal tokens: refused, unless no tier is listed -/
theorem C56_same (s : Inv) (a : ActorId) :
    getAllPoolsForPair s a a s.feeTiers =
      if s.feeTiers = [] then .ok [] else .error (.inv .TokensAreSame) := by
  cases h : s.feeTiers with
  | nil => rfl
  | cons t l =>
    unfold getAllPoolsForPair PoolKey.new
    rw [if_pos rfl]
    simp [error_bind]

/-- C56 is false: a pool whose fee tier has been removed still trades but is not reported. -/
theorem C56_negation : ¬ ∀ s, Reach s → ∀ k p, s.pools.get k = some p →
    ∃ r, getAllPoolsForPair s k.tokenX k.tokenY s.feeTiers = .ok r ∧ (k.feeTier, p) ∈ r := by
  intro h
  have hr : Reach (runAll (Inv.init 1 0) [(Demo.by_ 1, .addFeeTier Demo.tier), (Demo.by_ 1, .addFeeTier Demo.tier2),
      (Demo.by_ 2, .createPool 5 7 Demo.tier (10 ^ 24) 0), (Demo.by_ 1, .removeFeeTier Demo.tier)]) := by
    have h0 : ∀ (l : List (Env × Call)) (s : Inv), Reach s → Reach (runAll s l) := by
      intro l
      induction l with
      | nil => exact fun s h => h
      | cons x l ih =>
        intro s h
        refine ih _ ?_
        unfold run
        split
        · next hs => exact .call h hs
        · exact h
    exact h0 _ _ (.init 1 0)
  revert hr
  generalize hs : runAll (Inv.init 1 0) [(Demo.by_ 1, .addFeeTier Demo.tier), (Demo.by_ 1, .addFeeTier Demo.tier2),
      (Demo.by_ 2, .createPool 5 7 Demo.tier (10 ^ 24) 0), (Demo.by_ 1, .removeFeeTier Demo.tier)] = s
  intro hr
  have h1 : (s.pools.get Demo.key).isSome = true := by rw [← hs]; decide +kernel
  have h2 : (getAllPoolsForPair s 5 7 s.feeTiers).toOption.map (List.map Prod.fst) = some [] := by
    rw [← hs]; decide +kernel
  obtain ⟨p, hp⟩ := Option.isSome_iff_exists.1 h1
  obtain ⟨r, e1, e2⟩ := h s hr Demo.key p hp
  rw [show getAllPoolsForPair s 5 7 s.feeTiers = .ok r from e1] at h2
  simp only [Except.toOption, Option.map_some, Option.some.injEq, List.map_eq_nil_iff] at h2
  rw [h2] at e2
  cases e2

/-- two pools of the pair, asked for in either order of the tokens -/
example : (getAllPoolsForPair Demo.start 7 5 Demo.start.feeTiers).toOption.map (List.map Prod.fst) =
    some [Demo.tier, Demo.tier2] := by decide +kernel

/-! ### C23: the list of balances -/

/-- C23, `get_user_balances`: every token in which the account has something occurs once, with the amount. -/
theorem C23_query (hr : Reach s) (user : ActorId) :
    ((getUserBalances s user).map (·.1)).Nodup ∧
    ∀ t v, (t, v) ∈ getUserBalances s user ↔ v ≠ 0 ∧ bal s.balances user t = v := by
  have hmem : ∀ t v, (t, v) ∈ getUserBalances s user ↔ s.balances.get (user, t) = some v := by
    intro t v
    unfold getUserBalances
    rw [List.mem_filterMap, Map.get_mem]
    constructor
    · rintro ⟨⟨⟨u, t'⟩, v'⟩, h1, h2⟩
      dsimp only at h2
      split at h2
      · next e => cases h2; rw [← e]; exact h1
      · cases h2
    · intro h
      exact ⟨((user, t), v), h, by simp⟩
  constructor
  · unfold getUserBalances
    have hn := s.balances.nodup
    generalize s.balances.entries = l at hn
    induction l with
    | nil => simp
    | cons e l ih =>
      rw [List.map_cons, List.nodup_cons] at hn
      rw [List.filterMap_cons]
      by_cases he : e.1.1 = user
      · rw [if_pos he]
        dsimp only
        rw [List.map_cons, List.nodup_cons]
        refine ⟨?_, ih hn.2⟩
        intro hc
        rw [List.mem_map] at hc
        obtain ⟨x, hx, hx2⟩ := hc
        rw [List.mem_filterMap] at hx
        obtain ⟨y, hy, hy2⟩ := hx
        split at hy2
        · next e2 =>
          cases hy2
          apply hn.1
          rw [List.mem_map]
          refine ⟨y, hy, Prod.ext (e2.trans he.symm) hx2⟩
        · cases hy2
      · rw [if_neg he]
        exact ih hn.2
  · intro t v
    rw [hmem]
    unfold bal
    constructor
    · intro h
      rw [h]
      exact ⟨(reach_balWF hr _ _ h).1, rfl⟩
    · rintro ⟨h1, h2⟩
      cases hg : s.balances.get (user, t) with
      | none => rw [hg] at h2; exact absurd h2.symm h1
      | some w => rw [hg] at h2; rw [← h2]

example : (getUserBalances Demo.traded 2).length = 2 ∧ (5, bal Demo.traded.balances 2 5) ∈ getUserBalances Demo.traded 2 := by
  decide +kernel

end Verif
