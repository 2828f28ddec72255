import Verif.Model.Queries
import Verif.Proofs.Ledger
import Mathlib.Data.List.Perm.Basic
import Mathlib.Data.List.Dedup

/-! # Lemmas about the combined queries -/

namespace Verif
open Service Spec

/-! ### grouping -/

theorem nodup_dups {α : Type} [BEq α] [LawfulBEq α] : ∀ (n : Nat) (l : List α), l.length ≤ n → l.eraseDups.Nodup
  | 0, l, h => by
    have : l = [] := List.length_eq_zero_iff.1 (Nat.le_zero.1 h)
    subst this; simp
  | n + 1, [], _ => by simp
  | n + 1, a :: l, h => by
    rw [List.eraseDups_cons, List.nodup_cons]
    refine ⟨by simp [List.mem_eraseDups], nodup_dups n _ ?_⟩
    exact (List.length_filter_le _ _).trans (Nat.le_of_succ_le_succ h)

/-- the groups of a list of positions: one per pool, in order of first occurrence -/
def groupsOf (l : List (Position × Nat)) : List (List (Position × Nat)) :=
  (l.map (·.1.poolKey)).eraseDups.map (fun k => l.filter (fun e => decide (e.1.poolKey = k)))

/-- the entries belong to their pools -/
def PoolsOf (pools : Map PoolKey Pool) (gs : List Group) : Prop :=
  ∀ g ∈ gs, ∀ e ∈ g.2, pools.get e.1.poolKey = some g.1

theorem groupInsert_ok {pools : Map PoolKey Pool} {e : Position × Nat} {pool : Pool}
    (hp : pools.get e.1.poolKey = some pool) :
    ∀ (ks : List PoolKey) (gs : List Group) (f : PoolKey → List (Position × Nat)), ks.Nodup →
      gs.map (·.2) = ks.map f → (∀ k ∈ ks, f k ≠ []) → (∀ k ∈ ks, ∀ x ∈ f k, x.1.poolKey = k) →
      PoolsOf pools gs →
      ∃ gs', groupInsert pools e gs = .ok gs' ∧ PoolsOf pools gs' ∧
        gs'.map (·.2) = if e.1.poolKey ∈ ks then
          ks.map (fun k => if k = e.1.poolKey then f k ++ [e] else f k) else ks.map f ++ [[e]] := by
  intro ks
  induction ks with
  | nil =>
    intro gs f _ hm _ _ hP
    have : gs = [] := by simpa using hm
    subst this
    refine ⟨[(pool, [e])], ?_, ?_, by simp⟩
    · unfold groupInsert poolsGet
      rw [hp]; rfl
    · intro g hg x hx
      simp only [List.mem_singleton] at hg
      subst hg
      simp only [List.mem_singleton] at hx
      subst hx
      exact hp
  | cons k ks ih =>
    intro gs f hnd hm hne hk hP
    cases gs with
    | nil => simp at hm
    | cons g gs =>
      simp only [List.map_cons, List.cons.injEq] at hm
      obtain ⟨hg, hm⟩ := hm
      obtain ⟨x, xs, hx⟩ := List.exists_cons_of_ne_nil (hne k List.mem_cons_self)
      have hxk : x.1.poolKey = k := hk k List.mem_cons_self x (by rw [hx]; exact List.mem_cons_self)
      have hnk : k ∉ ks := (List.nodup_cons.1 hnd).1
      unfold groupInsert
      rw [hg, hx]
      simp only [List.head?_cons, okOr, ok_bind]
      rw [hxk]
      by_cases hek : k = e.1.poolKey
      · subst hek
        rw [if_pos rfl, if_pos List.mem_cons_self]
        refine ⟨_, rfl, ?_, ?_⟩
        · intro g' hg' y hy
          rcases List.mem_cons.1 hg' with rfl | hg'
          · dsimp only at hy
            rw [List.mem_append, List.mem_singleton] at hy
            rcases hy with hy | rfl
            · exact hP g List.mem_cons_self y (by rw [hg, hx]; exact hy)
            · have := hP g List.mem_cons_self x (by rw [hg, hx]; exact List.mem_cons_self)
              rw [hxk] at this
              exact this
          · exact hP g' (List.mem_cons_of_mem _ hg') y hy
        · simp only [List.map_cons, if_true, hx, hm]
          congr 1
          apply List.map_congr_left
          intro k' hk'
          rw [if_neg]
          rintro rfl
          exact hnk hk'
      · rw [if_neg hek]
        obtain ⟨gs', h1, h2, h3⟩ := ih gs f (List.nodup_cons.1 hnd).2 hm
          (fun k' hk' => hne k' (List.mem_cons_of_mem _ hk'))
          (fun k' hk' => hk k' (List.mem_cons_of_mem _ hk'))
          (fun g' hg' => hP g' (List.mem_cons_of_mem _ hg'))
        rw [h1]
        refine ⟨g :: gs', rfl, ?_, ?_⟩
        · intro g' hg'
          rcases List.mem_cons.1 hg' with rfl | hg'
          · exact hP g' List.mem_cons_self
          · exact h2 g' hg'
        · rw [List.map_cons, h3, hg]
          by_cases hm' : e.1.poolKey ∈ ks
          · rw [if_pos hm', if_pos (List.mem_cons_of_mem _ hm'), List.map_cons, if_neg hek]
          · rw [if_neg hm', if_neg (by simp [Ne.symm hek, hm']), List.map_cons, List.cons_append]

theorem groupsOf_append (l : List (Position × Nat)) (e : Position × Nat) :
    groupsOf (l ++ [e]) =
      if e.1.poolKey ∈ (l.map (·.1.poolKey)).eraseDups then
        (l.map (·.1.poolKey)).eraseDups.map (fun k => if k = e.1.poolKey then
          l.filter (fun e => decide (e.1.poolKey = k)) ++ [e] else l.filter (fun e => decide (e.1.poolKey = k)))
      else groupsOf l ++ [[e]] := by
  unfold groupsOf
  rw [List.map_append, List.eraseDups_append, List.map_append]
  by_cases h : e.1.poolKey ∈ l.map (·.1.poolKey)
  · rw [if_pos (by simpa using h)]
    have hr : (List.map (fun x : Position × Nat => x.1.poolKey) [e]).removeAll (l.map (·.1.poolKey)) = [] := by
      simp only [List.map_cons, List.map_nil, List.removeAll, List.filter_cons, List.filter_nil]
      rw [if_neg (by simpa using h)]
    rw [hr]
    simp only [List.eraseDups_nil, List.map_nil, List.append_nil]
    apply List.map_congr_left
    intro k _
    rw [List.filter_append]
    by_cases hk : k = e.1.poolKey
    · subst hk; simp
    · rw [if_neg hk]; simp [Ne.symm hk]
  · rw [if_neg (by simpa using h)]
    have hr : (List.map (fun x : Position × Nat => x.1.poolKey) [e]).removeAll (l.map (·.1.poolKey)) =
        [e.1.poolKey] := by
      simp only [List.map_cons, List.map_nil, List.removeAll, List.filter_cons, List.filter_nil]
      rw [if_pos (by simpa using h)]
    rw [hr]
    congr 1
    · apply List.map_congr_left
      intro k hk
      have : k ≠ e.1.poolKey := by
        rintro rfl
        exact h (by simpa using hk)
      rw [List.filter_append]
      simp [Ne.symm this]
    · simp only [List.eraseDups_cons, List.filter_nil, List.eraseDups_nil, List.map_cons, List.map_nil,
        List.filter_append]
      have : l.filter (fun x => decide (x.1.poolKey = e.1.poolKey)) = [] := by
        rw [List.filter_eq_nil_iff]
        intro x hx
        simp only [decide_eq_true_eq]
        intro hc
        exact h (List.mem_map.2 ⟨x, hx, hc⟩)
      rw [this]
      simp

theorem groupAll_ok {pools : Map PoolKey Pool} : ∀ (l done : List (Position × Nat)) (acc : List Group),
    (∀ e ∈ l, (pools.get e.1.poolKey).isSome) → acc.map (·.2) = groupsOf done → PoolsOf pools acc →
    ∃ r, groupAll pools l acc = .ok r ∧ PoolsOf pools r ∧ r.map (·.2) = groupsOf (done ++ l) := by
  intro l
  induction l with
  | nil => intro done acc _ h hP; exact ⟨acc, rfl, hP, by rw [List.append_nil]; exact h⟩
  | cons e l ih =>
    intro done acc hl h hP
    obtain ⟨pool, hp⟩ := Option.isSome_iff_exists.1 (hl e List.mem_cons_self)
    obtain ⟨gs', h1, h2, h3⟩ := groupInsert_ok hp (done.map (fun x : Position × Nat => x.1.poolKey)).eraseDups acc
      (fun k => done.filter (fun e => decide (e.1.poolKey = k))) (nodup_dups _ _ le_rfl) h
      (by
        intro k hk
        rw [List.mem_eraseDups, List.mem_map] at hk
        obtain ⟨x, hx, rfl⟩ := hk
        exact List.ne_nil_of_mem (List.mem_filter.2 ⟨hx, by simp⟩))
      (by
        intro k _ x hx
        simpa using (List.mem_filter.1 hx).2) hP
    obtain ⟨r, h4, h5, h6⟩ := ih (done ++ [e]) gs' (fun x hx => hl x (List.mem_cons_of_mem _ hx))
      (by rw [h3, groupsOf_append]; rfl) h2
    refine ⟨r, ?_, h5, ?_⟩
    · unfold groupAll
      rw [h1]
      exact h4
    · rw [h6, List.append_assoc]; rfl

/-! ### sorting -/

section
open Sdk

theorem insertByIndex_perm (e : (Position × Nat) × Pool) : ∀ l, (insertByIndex e l).Perm (e :: l)
  | [] => .refl _
  | a :: l => by
    unfold insertByIndex
    split
    · exact ((insertByIndex_perm e l).cons a).trans (.swap e a l)
    · exact .refl _

theorem sortByIndex_perm : ∀ l, (sortByIndex l).Perm l
  | [] => .refl _
  | a :: l => (insertByIndex_perm a _).trans ((sortByIndex_perm l).cons a)

theorem insertByIndex_sorted (e : (Position × Nat) × Pool) : ∀ l,
    l.Pairwise (fun a b => a.1.2 ≤ b.1.2) → (insertByIndex e l).Pairwise (fun a b => a.1.2 ≤ b.1.2)
  | [], _ => by simp [insertByIndex]
  | a :: l, h => by
    rw [List.pairwise_cons] at h
    unfold insertByIndex
    split
    · next hle =>
      rw [List.pairwise_cons]
      refine ⟨fun b hb => ?_, insertByIndex_sorted e l h.2⟩
      rcases List.mem_cons.1 ((insertByIndex_perm e l).mem_iff.1 hb) with rfl | hb
      · exact hle
      · exact h.1 b hb
    · next hle =>
      rw [List.pairwise_cons]
      refine ⟨fun b hb => ?_, List.pairwise_cons.2 h⟩
      rcases List.mem_cons.1 hb with rfl | hb
      · omega
      · have := h.1 b hb; omega

theorem sortByIndex_sorted : ∀ l, (sortByIndex l).Pairwise (fun a b => a.1.2 ≤ b.1.2)
  | [] => .nil
  | a :: l => insertByIndex_sorted a _ (sortByIndex_sorted l)

/-- sorting a rearrangement of a list with increasing indexes gives the list -/
theorem sortByIndex_eq {l l' : List ((Position × Nat) × Pool)} (h : l'.Perm l)
    (hl : l.Pairwise (fun a b => a.1.2 < b.1.2)) : sortByIndex l' = l := by
  refine List.Perm.eq_of_pairwise (le := fun a b => a.1.2 ≤ b.1.2) ?_ (sortByIndex_sorted l')
    (hl.imp fun h => Nat.le_of_lt h) ((sortByIndex_perm l').trans h)
  intro a b ha hb h1 h2
  have ha := h.mem_iff.1 ((sortByIndex_perm l').mem_iff.1 ha)
  have e := Nat.le_antisymm h1 h2
  by_contra hne
  rcases List.mem_iff_getElem.1 ha with ⟨i, hi, rfl⟩
  rcases List.mem_iff_getElem.1 hb with ⟨j, hj, rfl⟩
  rcases Nat.lt_trichotomy i j with hij | rfl | hij
  · have := List.pairwise_iff_getElem.1 hl i j hi hj hij; omega
  · exact hne rfl
  · have := List.pairwise_iff_getElem.1 hl j i hj hi hij; omega

end

/-- the groups together are the list -/
theorem groups_perm {α κ : Type} [DecidableEq κ] (key : α → κ) : ∀ (ks : List κ) (l : List α), ks.Nodup →
    (∀ x ∈ l, key x ∈ ks) → (ks.flatMap (fun k => l.filter (fun e => decide (key e = k)))).Perm l := by
  intro ks
  induction ks with
  | nil =>
    intro l _ h
    cases l with
    | nil => simp
    | cons a l => exact absurd (h a List.mem_cons_self) (by simp)
  | cons k ks ih =>
    intro l hnd h
    rw [List.flatMap_cons]
    obtain ⟨hk, hnd⟩ := List.nodup_cons.1 hnd
    have h1 := ih (l.filter (fun e => !decide (key e = k))) hnd (by
      intro x hx
      obtain ⟨hx, hx2⟩ := List.mem_filter.1 hx
      rcases List.mem_cons.1 (h x hx) with e | e
      · simp [e] at hx2
      · exact e)
    have h2 : ks.flatMap (fun k' => (l.filter (fun e => !decide (key e = k))).filter (fun e => decide (key e = k'))) =
        ks.flatMap (fun k' => l.filter (fun e => decide (key e = k'))) := by
      simp only [List.flatMap_def]
      congr 1
      apply List.map_congr_left
      intro k' hk'
      rw [List.filter_filter]
      apply List.filter_congr
      intro x _
      by_cases e : key x = k'
      · have : key x ≠ k := by rintro rfl; exact hk (e ▸ hk')
        simp [e, e ▸ this]
      · simp [e]
    rw [h2] at h1
    exact (h1.append_left _).trans (List.filter_append_perm (fun e => decide (key e = k)) l)

end Verif
