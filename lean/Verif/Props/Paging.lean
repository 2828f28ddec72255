import Verif.Props.Queries
import Verif.Props.Collections
import Verif.Spec.WorldDemo

/-!
# Property C82: the page-by-page queries of the SDK leave nothing out

The SDK asks for pool keys and positions page by page and puts the pages together. False for more than 57540
pools (`C82_negation`), where the last request is refused, and where the first page is to be skipped
(`C82_skip_negation`).
-/

namespace Verif
open Service Spec

variable {s : Inv} {L : Lists}

/-- the pages from page `i` on -/
theorem poolKeyPages_eq {K : List PoolKey} (h : Created s K) (hK : K.length < 2 ^ 16) : ∀ n i,
    (i + n) * Sdk.MAX_POOL_KEYS_RETURNED < 2 ^ 16 → Sdk.poolKeyPages s n i =
      .ok ((K.drop (i * Sdk.MAX_POOL_KEYS_RETURNED)).take (n * Sdk.MAX_POOL_KEYS_RETURNED)) := by
  intro n
  induction n with
  | zero => intro i _; simp [Sdk.poolKeyPages]
  | succ n ih =>
    intro i hi
    have ih := ih (i + 1)
    unfold Sdk.poolKeyPages
    generalize Sdk.MAX_POOL_KEYS_RETURNED = pp at hi ih ⊢
    have e1 : (i + (n + 1)) * pp = i * pp + pp + n * pp := by ring
    have e2 : (i + 1 + n) * pp = i * pp + pp + n * pp := by ring
    have h1 := (C21_enumeration_partial h hK).2.2 pp (i * pp) (by omega)
    rw [h1]
    simp only [ok_bind]
    rw [ih (by omega)]
    simp only [ok_bind]
    change (.ok _ : M _) = _
    rw [show (n + 1) * pp = pp + n * pp by ring, List.take_add, List.drop_drop,
      show i * pp + pp = (i + 1) * pp by ring]

/-- C82 for up to 57540 pools (full statement: for any number the contract counts, that is up to 65535; refuted
by `C82_negation`): `getAllPoolKeys` lists every pool once, in creation order. -/
theorem C82_pool_keys_partial {K : List PoolKey} (h : Created s K) (hK : K.length ≤ 57540) :
    Sdk.getAllPoolKeys s = .ok K := by
  have hK' : K.length < 2 ^ 16 := by omega
  have hp : Sdk.MAX_POOL_KEYS_RETURNED = 9590 := rfl
  have h1 := (C21_enumeration_partial h hK').2.2 Sdk.MAX_POOL_KEYS_RETURNED 0 (by omega)
  have h2 := poolKeyPages_eq h hK'
    ((K.length + Sdk.MAX_POOL_KEYS_RETURNED - 1) / Sdk.MAX_POOL_KEYS_RETURNED - 1) 1 (by rw [hp]; omega)
  have h3 : K.length ≤ Sdk.MAX_POOL_KEYS_RETURNED +
      ((K.length + Sdk.MAX_POOL_KEYS_RETURNED - 1) / Sdk.MAX_POOL_KEYS_RETURNED - 1) *
        Sdk.MAX_POOL_KEYS_RETURNED := by rw [hp]; omega
  unfold Sdk.getAllPoolKeys
  generalize Sdk.MAX_POOL_KEYS_RETURNED = pp at h1 h2 h3 ⊢
  rw [h1]
  simp only [ok_bind]
  rw [h2]
  simp only [ok_bind]
  change (.ok _ : M _) = _
  rw [List.drop_zero, Nat.one_mul, ← List.take_add, List.take_of_length_le h3]

/-- the two pools of the demo are listed, and 20000 pools on three pages -/
example : (Sdk.getAllPoolKeys Demo.start).toOption.map (·.length) = some 2 ∧
    ∃ s K, Created s K ∧ K.length = 20000 ∧ Sdk.getAllPoolKeys s = .ok K := by
  refine ⟨by decide +kernel, ?_⟩
  obtain ⟨s, K, h1, h2, _⟩ := many_pools 20000
  exact ⟨s, K, h1, h2, C82_pool_keys_partial h1 (by omega)⟩

theorem poolKeyPages_panic {n i : Nat} (hn : 6 < i + n) (hi : i ≤ 6) :
    ∃ e, Sdk.poolKeyPages s n i = .error e := by
  induction n generalizing i with
  | zero => omega
  | succ n ih =>
    unfold Sdk.poolKeyPages
    cases h : getPoolKeys s Sdk.MAX_POOL_KEYS_RETURNED (i * Sdk.MAX_POOL_KEYS_RETURNED) with
    | error e => exact ⟨e, rfl⟩
    | ok r =>
      simp only [ok_bind]
      have : i ≠ 6 := by
        rintro rfl
        unfold getPoolKeys PoolKeys.getAll addC fit Sdk.MAX_POOL_KEYS_RETURNED at h
        rw [if_neg (by norm_num)] at h
        cases h
      obtain ⟨e, he⟩ := ih (i := i + 1) (by omega) (by omega)
      rw [he]
      exact ⟨e, rfl⟩

/-- C82 is false: with 57541 pools, which the contract lists without error in smaller pages, `getAllPoolKeys`
fails, since the offset and the size of its seventh request add up to more than 16 bits. -/
theorem C82_negation : ∃ s K, Created s K ∧ K.length = 57541 ∧
    (∀ off, off + 100 < 2 ^ 16 → getPoolKeys s 100 off = .ok ((K.drop off).take 100, K.length)) ∧
    ∃ e, Sdk.getAllPoolKeys s = .error e := by
  obtain ⟨s, K, h1, h2, _⟩ := many_pools 57541
  have h3 := (C21_enumeration_partial h1 (by omega)).2.2
  refine ⟨s, K, h1, h2, fun off ho => h3 100 off ho, ?_⟩
  have h4 := h3 Sdk.MAX_POOL_KEYS_RETURNED 0 (by unfold Sdk.MAX_POOL_KEYS_RETURNED; norm_num)
  obtain ⟨e, he⟩ := poolKeyPages_panic (s := s)
    (n := (K.length + Sdk.MAX_POOL_KEYS_RETURNED - 1) / Sdk.MAX_POOL_KEYS_RETURNED - 1) (i := 1)
    (by rw [h2]; unfold Sdk.MAX_POOL_KEYS_RETURNED; norm_num) (by norm_num)
  unfold Sdk.getAllPoolKeys
  generalize Sdk.MAX_POOL_KEYS_RETURNED = pp at h4 he ⊢
  rw [h4]
  simp only [ok_bind]
  rw [he]
  exact ⟨e, rfl⟩

theorem pagesAt_ok (hr : Reach32 s) (hL : Holds s L) (owner : ActorId) {pp : Nat} (l : List Nat)
    (hl : ∀ i ∈ l, i * pp + pp < 2 ^ 32) :
    ∃ pages, Sdk.pagesAt s owner pp l = .ok pages ∧ pages.map (·.1) = l ∧
      (∀ pg ∈ pages, ∀ e ∈ pg.2, s.pools.get e.1.poolKey = some e.2) ∧
      ∀ pg ∈ pages, pg.2.map (·.1) = ((L owner).drop (pg.1 * pp)).take pp := by
  induction l with
  | nil => exact ⟨[], rfl, rfl, by simp, by simp⟩
  | cons i l ih =>
    obtain ⟨r, a1, a2, a3⟩ := sdk_page hr hL owner (hl i List.mem_cons_self)
    obtain ⟨pages, b1, b2, b3, b4⟩ := ih fun j hj => hl j (List.mem_cons_of_mem _ hj)
    refine ⟨(i, r) :: pages, ?_, by rw [List.map_cons, b2], ?_, ?_⟩
    · unfold Sdk.pagesAt
      rw [a1]
      simp only [ok_bind]
      rw [b1]
      rfl
    · intro pg hpg
      rcases List.mem_cons.1 hpg with rfl | hpg
      · exact a3
      · exact b3 pg hpg
    · intro pg hpg
      rcases List.mem_cons.1 hpg with rfl | hpg
      · exact a2
      · exact b4 pg hpg

theorem first_page (skip : List Nat) : (skip.find? (fun i => !skip.contains i)).getD 0 = 0 := by
  have : skip.find? (fun i => !skip.contains i) = none := by
    rw [List.find?_eq_none]
    intro i hi
    simpa using hi
  rw [this]
  rfl

/-- pages that are there, one at least, without those to be skipped -/
def Spec.pagesWanted (len perPage : Nat) (skip : List Nat) : List Nat :=
  (List.range (max 1 ((len + perPage - 1) / perPage))).filter (fun i => !skip.contains i)

/-- C82 where the first page is not to be skipped or the number of positions is given (full statement: for all
lists of pages to be skipped; refuted by `C82_skip_negation`): `getAllPositions` returns exactly the pages that are
not skipped, each with its index and the positions on it in order and the state of their pools. -/
theorem C82_positions_partial (hr : Reach32 s) (hL : Holds s L) (owner : ActorId) {count : Option Nat}
    {skip : List Nat} {perPage : Nat} (h1 : 1 ≤ perPage) (h2 : (L owner).length + perPage < 2 ^ 32)
    (hc : (count = some (L owner).length ∧ (L owner).length ≠ 0) ∨ (count = none ∧ 0 ∉ skip)) :
    ∃ pages, Sdk.getAllPositionsWith s owner count skip perPage = .ok pages ∧
      pages.map (·.1) = pagesWanted (L owner).length perPage skip ∧
      (∀ pg ∈ pages, ∀ e ∈ pg.2, s.pools.get e.1.poolKey = some e.2) ∧
      ∀ pg ∈ pages, pg.2.map (·.1) = ((L owner).drop (pg.1 * perPage)).take perPage := by
  have fits : ∀ i, i < (((L owner).length + perPage - 1) / perPage) → i * perPage + perPage < 2 ^ 32 := by
    intro i hi
    have := Nat.mul_le_mul_right perPage (Nat.succ_le_of_lt hi)
    have h4 := Nat.div_mul_le_self ((L owner).length + perPage - 1) perPage
    rw [Nat.succ_mul] at this
    omega
  unfold Sdk.getAllPositionsWith
  rw [first_page]
  rcases hc with ⟨rfl, h0⟩ | ⟨rfl, h0⟩
  · have e : (some (L owner).length).filter (fun x => decide (x ≠ 0)) = some (L owner).length := by
      simp [Option.filter, h0]
    simp only [e]
    have hpos : 1 ≤ ((L owner).length + perPage - 1) / perPage := by
      rw [Nat.le_div_iff_mul_le (by omega)]; omega
    obtain ⟨pages, b1, b2, b3⟩ := pagesAt_ok (pp := perPage) hr hL owner
      ((List.range' 0 (((L owner).length + perPage - 1) / perPage - 0)).filter (fun i => !skip.contains i))
      (fun i hi => by
        have := (List.mem_filter.1 hi).1
        rw [List.mem_range'_1] at this
        exact fits i (by omega))
    refine ⟨pages, b1, ?_, b3⟩
    rw [b2]
    unfold pagesWanted
    rw [max_eq_right hpos, List.range_eq_range']
    rfl
  · simp only [Option.filter_none, Nat.zero_mul, Nat.zero_add]
    obtain ⟨r, a1, a2, a3⟩ := sdk_page hr hL owner (size := perPage) (offset := 0) (by omega)
    rw [a1]
    simp only [ok_bind]
    obtain ⟨pages, b1, b2, b3, b4⟩ := pagesAt_ok (pp := perPage) hr hL owner
      ((List.range' 1 (((L owner).length + perPage - 1) / perPage - 1)).filter (fun i => !skip.contains i))
      (fun i hi => by
        have := (List.mem_filter.1 hi).1
        rw [List.mem_range'_1] at this
        exact fits i (by omega))
    rw [b1]
    refine ⟨(0, r) :: pages, rfl, ?_, ?_, ?_⟩
    · rw [List.map_cons, b2]
      unfold pagesWanted
      have : max 1 (((L owner).length + perPage - 1) / perPage) =
          ((L owner).length + perPage - 1) / perPage - 1 + 1 := by omega
      rw [this, List.range_eq_range', List.range'_succ, List.filter_cons_of_pos (by simpa using h0)]
    · intro pg hpg
      rcases List.mem_cons.1 hpg with rfl | hpg
      · exact a3
      · exact b3 pg hpg
    · intro pg hpg
      rcases List.mem_cons.1 hpg with rfl | hpg
      · rw [Nat.zero_mul]; exact a2
      · exact b4 pg hpg

/-- the two positions of account 3 on pages of one: page 1 skipped without the count, page 0 skipped with it; of five
pages of two with page 1 skipped, pages 0, 2, 3 and 4 remain -/
example :
    (Sdk.getAllPositionsWith Demo.traded 3 none [1] 1).toOption.map (·.map (fun p =>
      (p.1, p.2.map (fun e => e.1.liquidity)))) = some [(0, [3 * 10 ^ 15])] ∧ pagesWanted 2 1 [1] = [0] ∧
    (Sdk.getAllPositionsWith Demo.traded 3 (some 2) [0] 1).toOption.map (·.map (fun p =>
      (p.1, p.2.map (fun e => e.1.liquidity)))) = some [(1, [10 ^ 16])] ∧ pagesWanted 2 1 [0] = [1] ∧
    pagesWanted 9 2 [1] = [0, 2, 3, 4] ∧ pagesWanted 0 2 [] = [0] := by decide +kernel

/-- C82 is false where the first page is to be skipped: account 3 of the demo, which has two positions, asks for all
pages of one but page 0 and gets both. -/
theorem C82_skip_negation :
    Demo.traded.positions.getLength 3 = 2 ∧ pagesWanted 2 1 [0] = [1] ∧
    (Sdk.getAllPositionsWith Demo.traded 3 none [0] 1).toOption.map (·.map (fun p =>
      (p.1, p.2.map (fun e => e.1.liquidity)))) = some [(0, [3 * 10 ^ 15]), (1, [10 ^ 16])] := by decide +kernel

end Verif
