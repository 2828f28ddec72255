import Verif.Spec.Removal
import Verif.Proofs.PoolKeys

/-!
# Property C115: pools can be removed

`PoolKeys::remove` frees the index of the key and counts one key less, but does not move the last key into the gap. So
the property holds only as long as no key but the last is removed (`C115_keys_partial`), and fails otherwise
(`C115_negation`). No entry point calls the function, so no user of the program can bring this about.
-/

namespace Verif
open Spec

/-- the collection holds `l` -/
private structure Holds (pk : PoolKeys) (l : List PoolKey) : Prop where
  nodup : l.Nodup
  len : pk.length = l.length
  byIndex : ∀ i, pk.byIndex.get i = l[i]?
  index : ∀ k i, pk.index.get k = some i ↔ l[i]? = some k

private theorem Holds.mem {pk : PoolKeys} {l : List PoolKey} (h : Holds pk l) (k : PoolKey) :
    (pk.index.get k).isSome ↔ k ∈ l := by
  rw [Option.isSome_iff_exists, List.mem_iff_getElem?]
  exact exists_congr fun i => h.index k i

private theorem holds_add {pk : PoolKeys} {l : List PoolKey} (h : Holds pk l) (hl : l.length + 1 < 2 ^ 16) (k : PoolKey) :
    Holds ((pk.add k).toOption.getD pk) ((KeyOp.add k).apply l) := by
  by_cases hk : k ∈ l
  · obtain ⟨i, hi⟩ := Option.isSome_iff_exists.1 ((h.mem k).2 hk)
    simp only [PoolKeys.add, hi, KeyOp.apply, hk, if_true]
    exact h
  · have hn : pk.index.get k = none := by
      rw [← Option.not_isSome_iff_eq_none]
      exact fun e => hk ((h.mem k).1 e)
    simp only [PoolKeys.add, hn, KeyOp.apply, hk, if_false]
    refine ⟨?_, ?_, fun j => ?_, fun k' j => ?_⟩
    · rw [List.nodup_append]
      refine ⟨h.nodup, List.nodup_singleton _, fun a ha b hb => ?_⟩
      rw [List.mem_singleton] at hb
      rintro rfl
      exact hk (hb ▸ ha)
    · show u16Succ pk.length = _
      rw [h.len, u16Succ_eq hl]; simp
    · show (pk.byIndex.insert pk.length k).get j = _
      rw [Map.get_insert, h.len, h.byIndex]
      by_cases hj : j = l.length
      · subst hj; simp
      · rw [if_neg hj]
        rcases lt_or_ge j l.length with q | q
        · rw [List.getElem?_append_left q]
        · rw [List.getElem?_eq_none q, List.getElem?_eq_none (by simp; omega)]
    · show (pk.index.insert k pk.length).get k' = some j ↔ _
      rw [Map.get_insert, h.len]
      by_cases hk' : k' = k
      · subst hk'
        rw [if_pos rfl]
        constructor
        · intro e
          obtain rfl := Option.some.inj e
          simp
        · intro e
          rcases lt_or_ge j l.length with q | q
          · rw [List.getElem?_append_left q] at e
            exact absurd (List.mem_of_getElem? e) hk
          · rcases Nat.eq_or_lt_of_le q with q | q
            · rw [q]
            · rw [List.getElem?_eq_none (by simp; omega)] at e
              cases e
      · rw [if_neg hk', h.index]
        rcases lt_or_ge j l.length with q | q
        · rw [List.getElem?_append_left q]
        · rw [List.getElem?_eq_none q]
          constructor
          · intro e; cases e
          · intro e
            rw [List.getElem?_append_right q] at e
            have := List.mem_of_getElem? e
            rw [List.mem_singleton] at this
            exact absurd this hk'

private theorem holds_remove {pk : PoolKeys} {l : List PoolKey} (h : Holds pk l) (hl : l.length < 2 ^ 16) {k : PoolKey}
    (hlast : k ∈ l → l.getLast? = some k) :
    Holds ((pk.remove k).toOption.getD pk) ((KeyOp.remove k).apply l) := by
  by_cases hk : k ∈ l
  · obtain ⟨m, rfl⟩ := List.getLast?_eq_some_iff.1 (hlast hk)
    have hnk : k ∉ m := by
      have := h.nodup
      rw [List.nodup_append] at this
      intro hm
      exact this.2.2 k hm k (List.mem_singleton_self k) rfl
    have hi : pk.index.get k = some m.length := (h.index k _).2 (by simp)
    have hf : (m ++ [k]).filter (· ≠ k) = m := by
      rw [List.filter_append, List.filter_eq_self.2 (fun a ha => by simpa using fun e : a = k => hnk (e ▸ ha))]
      simp
    simp only [PoolKeys.remove, hi, KeyOp.apply, hf]
    refine ⟨(List.nodup_append.1 h.nodup).1, ?_, fun j => ?_, fun k' j => ?_⟩
    · show u16Pred pk.length = _
      rw [h.len]
      unfold u16Pred
      simp only [List.length_append, List.length_singleton] at hl ⊢
      omega
    · show (pk.byIndex.erase m.length).get j = _
      by_cases hj : j = m.length
      · rw [hj, Map.get_erase_self, List.getElem?_eq_none le_rfl]
      · rw [Map.get_erase_ne _ hj, h.byIndex]
        rcases lt_or_ge j m.length with q | q
        · rw [List.getElem?_append_left q]
        · rw [List.getElem?_eq_none (by simp; omega), List.getElem?_eq_none q]
    · show (pk.index.erase k).get k' = some j ↔ _
      by_cases hk' : k' = k
      · rw [hk', Map.get_erase_self]
        constructor
        · intro e; cases e
        · intro e; exact absurd (List.mem_of_getElem? e) hnk
      · rw [Map.get_erase_ne _ hk', h.index]
        rcases lt_or_ge j m.length with q | q
        · rw [List.getElem?_append_left q]
        · rw [List.getElem?_eq_none q]
          constructor
          · intro e
            rw [List.getElem?_append_right q] at e
            have := List.mem_of_getElem? e
            rw [List.mem_singleton] at this
            exact absurd this hk'
          · intro e; cases e
  · have hn : pk.index.get k = none := by
      rw [← Option.not_isSome_iff_eq_none]
      exact fun e => hk ((h.mem k).1 e)
    have hf : l.filter (· ≠ k) = l :=
      List.filter_eq_self.2 (fun a ha => by simpa using fun e : a = k => hk (e ▸ ha))
    simp only [PoolKeys.remove, hn, KeyOp.apply, hf]
    exact h

private theorem Holds.shows {pk : PoolKeys} {l : List PoolKey} (h : Holds pk l) : Shows pk l := by
  refine ⟨h.len, fun size off hs => ?_, fun k => h.mem k⟩
  unfold PoolKeys.getAll rangeFromTo addC fit
  simp only [if_pos hs, ok_bind]
  rw [h.len]
  by_cases hoff : off ≤ l.length
  · split
    · next hgt =>
      rw [readAll_list (l := l) (fun j _ => h.byIndex _) (by omega)]
      rw [List.take_of_length_le (by simp), List.take_of_length_le (by simp; omega)]
    · rw [show off + size - off = size by omega,
        readAll_list (l := l) (fun j _ => h.byIndex _) (by omega)]
  · rw [List.drop_eq_nil_of_le (by omega)]
    have : (if off + size > l.length then l.length else off + size) - off = 0 := by
      split <;> omega
    rw [this]; simp [readAll]

/-- C115, in part: as long as only the last key is ever removed, the list of pools shows exactly the keys that were added
and not removed, in the order in which they were added. The full statement is that without `OnlyLast`. -/
theorem C115_keys_partial (ops : List KeyOp) (hn : ops.length < 2 ^ 16 - 1) (ho : OnlyLast [] ops) :
    Shows (keysRun ⟨∅, ∅, 0⟩ ops) (keysAfter [] ops) := by
  suffices H : ∀ (ops : List KeyOp) (pk : PoolKeys) (l : List PoolKey), Holds pk l →
      l.length + ops.length < 2 ^ 16 - 1 → OnlyLast l ops → Holds (keysRun pk ops) (keysAfter l ops) from
    (H ops ⟨∅, ∅, 0⟩ [] ⟨List.nodup_nil, rfl, fun _ => rfl, fun _ _ => by simp⟩ (by simpa using hn) ho).shows
  intro ops
  induction ops with
  | nil => exact fun pk l h _ _ => h
  | cons o r ih =>
    intro pk l h hl ho
    simp only [List.length_cons] at hl
    cases o with
    | add k =>
      refine ih _ _ (holds_add h (by omega) k) ?_ ho.2
      have : ((KeyOp.add k).apply l).length ≤ l.length + 1 := by
        unfold KeyOp.apply; dsimp only; split <;> simp
      omega
    | remove k =>
      refine ih _ _ (holds_remove h (by omega) ho.1) ?_ ho.2
      have : ((KeyOp.remove k).apply l).length ≤ l.length := List.length_filter_le ..
      omega

/-- C115, for any collection: a key that is not there cannot be removed, one that is there can, and afterwards exactly
this one is no longer there. -/
theorem C115_contains (pk : PoolKeys) (k : PoolKey) :
    (pk.contains k = false ∧ pk.remove k = .error (.inv .PoolKeyNotFound)) ∨
    (pk.contains k = true ∧ ∃ pk', pk.remove k = .ok pk' ∧ ∀ k', pk'.contains k' = (pk.contains k' && k' != k)) := by
  unfold PoolKeys.contains PoolKeys.remove
  cases h : pk.index.get k with
  | none => exact .inl ⟨rfl, rfl⟩
  | some i =>
    refine .inr ⟨rfl, _, rfl, fun k' => ?_⟩
    by_cases e : k' = k
    · rw [e]; simp
    · dsimp only; rw [Map.get_erase_ne _ e]; simp [e]

/-- C115, for the pools themselves: a pool can be removed exactly if it is there; afterwards it is gone, and every other
pool is as it was. -/
theorem C115_pools (m : Map PoolKey Pool) (k : PoolKey) :
    (m.get k = none ∧ poolsRemove m k = .error (.inv .PoolNotFound)) ∨
    ((m.get k).isSome ∧ ∃ m', poolsRemove m k = .ok m' ∧ poolsGet m' k = .error (.inv .PoolNotFound) ∧
      ∀ k', k' ≠ k → poolsGet m' k' = poolsGet m k') := by
  unfold poolsRemove poolsGet
  cases h : m.get k with
  | none => exact .inl ⟨rfl, rfl⟩
  | some p =>
    refine .inr ⟨rfl, m.erase k, rfl, by rw [Map.get_erase_self]; rfl, fun k' e => by rw [Map.get_erase_ne _ e]⟩

namespace RemovalDemo
def a : PoolKey := ⟨1, 2, ⟨0, 1⟩⟩
def b : PoolKey := ⟨1, 2, ⟨0, 2⟩⟩
def c : PoolKey := ⟨1, 2, ⟨0, 5⟩⟩
/-- the first of two keys is removed -/
def gap : List KeyOp := [.add a, .add b, .remove a]
end RemovalDemo

open RemovalDemo in
/-- C115 is false for the removal of another key than the last: of two keys the first is removed. The second is still
there, but reading the list of the one remaining key panics. If another key is added, it takes the place of the second,
which no page shows any more although it is there; and the first page panics for ever. -/
theorem C115_negation :
    ¬ (∀ ops : List KeyOp, ops.length < 2 ^ 16 - 1 → Shows (keysRun ⟨∅, ∅, 0⟩ ops) (keysAfter [] ops)) ∧
    (keysRun ⟨∅, ∅, 0⟩ gap).contains b = true ∧ (keysRun ⟨∅, ∅, 0⟩ gap).length = 1 ∧
    (keysRun ⟨∅, ∅, 0⟩ gap).getAll 1 0 = .error .panic ∧
    (keysRun ⟨∅, ∅, 0⟩ (gap ++ [.add c])).contains b = true ∧
    (keysRun ⟨∅, ∅, 0⟩ (gap ++ [.add c])).getAll 1 1 = .ok [c] ∧
    (∀ size, 0 < size → (keysRun ⟨∅, ∅, 0⟩ (gap ++ [.add c])).getAll size 0 = .error .panic) := by
  refine ⟨fun h => ?_, by decide +kernel, by decide +kernel, by decide +kernel, by decide +kernel, by decide +kernel, ?_⟩
  · have h1 := (h gap (by decide)).page 1 0 (by decide)
    have h2 : (keysRun ⟨∅, ∅, 0⟩ gap).getAll 1 0 = .error .panic := by decide +kernel
    rw [h2] at h1
    cases h1
  · intro size hs
    have hl : (keysRun ⟨∅, ∅, 0⟩ (gap ++ [.add c])).length = 2 := by decide +kernel
    have h0 : (keysRun ⟨∅, ∅, 0⟩ (gap ++ [.add c])).byIndex.get 0 = none := by decide +kernel
    unfold PoolKeys.getAll
    unfold addC fit
    split
    · rw [ok_bind, hl]
      obtain ⟨n, hn⟩ : ∃ n, (if 0 + size > 2 then 2 else 0 + size) = n + 1 :=
        ⟨(if 0 + size > 2 then 2 else 0 + size) - 1, by split <;> omega⟩
      simp only [rangeFromTo, hn, Nat.sub_zero, List.range'_succ, readAll, h0]
      rfl
    · rfl

/-- three keys added, the last removed, another added: a page of all shows the three in order -/
example : (keysRun ⟨∅, ∅, 0⟩ [.add RemovalDemo.a, .add RemovalDemo.b, .remove RemovalDemo.b, .add RemovalDemo.c]).getAll
    5 0 = .ok [RemovalDemo.a, RemovalDemo.c] := by decide +kernel

/-- the hypothesis of `C115_keys_partial` for that example -/
example : OnlyLast [] [.add RemovalDemo.a, .add RemovalDemo.b, .remove RemovalDemo.b, .add RemovalDemo.c] :=
  ⟨trivial, trivial, fun _ => by decide, trivial, trivial⟩

end Verif
