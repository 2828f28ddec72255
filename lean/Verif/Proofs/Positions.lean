import Verif.Model.State
import Verif.Spec.Collections

/-! # The position collection refines a list per owner -/

namespace Verif
open Spec

/-- the collection holds exactly the lists `L` -/
def PosRepr (ps : Positions) (L : Lists) : Prop :=
  ∀ a, ps.getLength a = (L a).length ∧ ∀ i, ps.map.get (a, i) = (L a)[i]?

theorem swapRemove_length {α : Type} {l : List α} (i : Nat) (h : l ≠ []) :
    (swapRemove l i).length + 1 = l.length := by
  unfold swapRemove
  rw [List.getLast?_eq_some_getLast h]
  have : 0 < l.length := List.length_pos_iff.2 h
  simp only [List.length_dropLast, List.length_set]
  omega

theorem swapRemove_getElem? {α : Type} {l : List α} {i : Nat} (hi : i < l.length) (j : Nat) :
    (swapRemove l i)[j]? =
      if j < l.length - 1 then (if j = i then l[l.length - 1]? else l[j]?) else none := by
  have hne : l ≠ [] := by rintro rfl; simp at hi
  unfold swapRemove
  rw [List.getLast?_eq_some_getLast hne]
  simp only
  rw [List.getElem?_dropLast]
  simp only [List.length_set]
  split
  · next hj =>
    rw [List.getElem?_set]
    by_cases hij : i = j
    · subst hij
      simp only [if_true]
      rw [if_pos hi, List.getLast_eq_getElem, List.getElem?_eq_getElem (by omega)]
    · rw [if_neg hij, if_neg (fun e => hij e.symm)]
  · rfl

theorem swapRemove_perm {α : Type} {l : List α} {i : Nat} (hi : i < l.length) :
    (l[i] :: swapRemove l i).Perm l := by
  have hne : l ≠ [] := by rintro rfl; simp at hi
  obtain ⟨m, x, rfl⟩ : ∃ m x, l = m ++ [x] := ⟨l.dropLast, l.getLast hne,
    (List.dropLast_append_getLast hne).symm⟩
  unfold swapRemove
  simp only [List.getLast?_append_cons, List.getLast?_singleton, List.length_append,
    List.length_singleton] at hi ⊢
  by_cases hlt : i < m.length
  · rw [List.set_append_left _ _ hlt, List.dropLast_concat, List.getElem_append_left hlt]
    have h1 : m.set i x = m.take i ++ x :: m.drop (i + 1) := by
      rw [List.set_eq_take_append_cons_drop, if_pos hlt]
    have h2 : m = m.take i ++ m[i] :: m.drop (i + 1) := by
      rw [List.getElem_cons_drop, List.take_append_drop]
    rw [h1]
    conv_rhs => rw [h2]
    have e1 : (m[i] :: (m.take i ++ x :: m.drop (i + 1))).Perm
        (x :: (m.take i ++ m[i] :: m.drop (i + 1))) := by
      have a := (List.perm_middle (a := x) (l₁ := m.take i) (l₂ := m.drop (i + 1))).cons m[i]
      have b := (List.perm_middle (a := m[i]) (l₁ := m.take i) (l₂ := m.drop (i + 1))).cons x
      exact a.trans ((List.Perm.swap _ _ _).trans b.symm)
    refine e1.trans ?_
    exact (List.perm_append_comm (l₁ := [x])
      (l₂ := m.take i ++ m[i] :: m.drop (i + 1)))
  · have : i = m.length := by omega
    subst this
    rw [List.set_append_right _ _ le_rfl]
    simp only [Nat.sub_self, List.set_cons_zero, List.dropLast_concat, List.getElem_concat_length]
    exact List.perm_append_comm (l₁ := [x]) (l₂ := m)

theorem readAll_list {V : Type} {get : Nat → Option V} {l : List V} {off n : Nat}
    (h : ∀ j, j < n → get (off + j) = l[off + j]?) (hn : off + n ≤ l.length) :
    readAll get (List.range' off n) = .ok ((l.drop off).take n) := by
  induction n generalizing off with
  | zero => simp [readAll]
  | succ n ih =>
    rw [List.range'_succ, readAll]
    have h0 := h 0 (by omega)
    simp only [Nat.add_zero] at h0
    rw [h0, List.getElem?_eq_getElem (by omega)]
    simp only [okOr, ok_bind]
    rw [ih (off := off + 1) (fun j hj => by
      have := h (j + 1) (by omega)
      rw [show off + 1 + j = off + (j + 1) by omega]; exact this) (by omega)]
    simp only [ok_bind]
    have : (l.drop off).take (n + 1) = l[off] :: (l.drop (off + 1)).take n := by
      rw [List.drop_eq_getElem_cons (by omega), List.take_succ_cons]
    rw [this]; rfl

theorem wrap_pred {n W : Nat} (h0 : 0 < n) (h : n < W) : (n + W - 1) % W = n - 1 := by
  rw [show n + W - 1 = (n - 1) + W by omega, Nat.add_mod_right, Nat.mod_eq_of_lt (by omega)]

theorem u32Pred_eq {n : Nat} (h0 : 0 < n) (h : n < 2 ^ 32) : u32Pred n = n - 1 :=
  wrap_pred h0 h

theorem u32Succ_eq {n : Nat} (h : n + 1 < 2 ^ 32) : u32Succ n = n + 1 := Nat.mod_eq_of_lt h

section
variable {ps : Positions} {L : Lists}

theorem posRepr_empty : PosRepr ⟨∅, ∅⟩ (fun _ => []) := by
  intro a
  exact ⟨rfl, fun i => by simp⟩

theorem put_same (L : Lists) (a : ActorId) (l : List Position) : L.put a l a = l := if_pos rfl

theorem put_other (L : Lists) {a b : ActorId} (l : List Position) (h : b ≠ a) :
    L.put a l b = L b := if_neg h

theorem getLength_insert (m : Map ActorId Nat) (mp : Map (ActorId × Nat) Position) (a b : ActorId)
    (n : Nat) : Positions.getLength ⟨m.insert a n, mp⟩ b =
      if b = a then n else (m.get b).getD 0 := by
  unfold Positions.getLength
  simp only [Map.get_insert]
  split <;> rfl

theorem posRepr_add (h : PosRepr ps L) {a : ActorId} (ha : (L a).length + 1 < 2 ^ 32)
    (p : Position) : PosRepr (ps.add a p) (L.put a (L a ++ [p])) := by
  intro b
  unfold Positions.add
  simp only
  have hlen := (h a).1
  rw [hlen, u32Succ_eq ha]
  constructor
  · rw [getLength_insert]
    by_cases hb : b = a
    · subst hb; rw [if_pos rfl, put_same]; simp
    · rw [if_neg hb, put_other _ _ hb]; exact (h b).1
  · intro i
    rw [Map.get_insert]
    by_cases hb : b = a
    · subst hb
      rw [put_same]
      by_cases hi : i = (L b).length
      · subst hi; simp
      · rw [if_neg (by simp [hi]), (h b).2 i]
        rcases lt_or_ge i (L b).length with hlt | hge
        · rw [List.getElem?_append_left hlt]
        · rw [List.getElem?_eq_none hge, List.getElem?_eq_none (by simp; omega)]
    · rw [if_neg (by simp [hb]), put_other _ _ hb, (h b).2 i]

theorem posRepr_update (h : PosRepr ps L) (a : ActorId) (i : Nat) (p : Position) :
    (i < (L a).length → ∃ ps', ps.update a i p = .ok ps' ∧ PosRepr ps' (L.put a ((L a).set i p))) ∧
    (¬ i < (L a).length → ps.update a i p = .error (.inv .PositionNotFound)) := by
  constructor
  · intro hi
    refine ⟨_, if_neg (by rw [(h a).1]; omega), ?_⟩
    intro b
    constructor
    · show ps.getLength b = _
      rw [(h b).1]
      by_cases hb : b = a
      · subst hb; rw [put_same, List.length_set]
      · rw [put_other _ _ hb]
    · intro j
      simp only [Map.get_insert]
      by_cases hb : b = a
      · subst hb
        rw [put_same, List.getElem?_set]
        by_cases hj : j = i
        · subst hj; simp [hi]
        · rw [if_neg (by simp [hj]), if_neg (fun e => hj e.symm), (h b).2 j]
      · rw [if_neg (by simp [hb]), put_other _ _ hb, (h b).2 j]
  · intro hi
    exact if_pos (by rw [(h a).1]; omega)

theorem posRepr_get (h : PosRepr ps L) (a : ActorId) (i : Nat) :
    ps.get a i = okOr (.inv .PositionNotFound) (L a)[i]? := by
  unfold Positions.get
  rw [(h a).2 i]

theorem posRepr_remove (h : PosRepr ps L) {a : ActorId} (ha : (L a).length < 2 ^ 32) (i : Nat) :
    (∀ p, (L a)[i]? = some p →
      ∃ ps', ps.remove a i = .ok (ps', p) ∧ PosRepr ps' (L.put a (swapRemove (L a) i))) ∧
    ((L a)[i]? = none → ps.remove a i = .error (.inv .PositionNotFound)) := by
  constructor
  · intro p hp
    have hi : i < (L a).length := by
      by_contra hc
      rw [List.getElem?_eq_none (by omega)] at hp; cases hp
    unfold Positions.remove
    rw [(h a).1, u32Pred_eq (Nat.lt_of_le_of_lt (Nat.zero_le i) hi) ha, posRepr_get h, hp]
    unfold Positions.removeAt
    simp only [okOr, ok_bind]
    have fin : ∀ m : Map (ActorId × Nat) Position,
        (∀ b j, m.get (b, j) = if b = a then (swapRemove (L a) i)[j]? else (L b)[j]?) →
        PosRepr ⟨ps.length.insert a ((L a).length - 1), m⟩ (L.put a (swapRemove (L a) i)) := by
      intro m hm b
      constructor
      · rw [getLength_insert]
        by_cases hb : b = a
        · subst hb
          rw [if_pos rfl, put_same]
          have := swapRemove_length (l := L b) i (by rintro e; rw [e] at hi; simp at hi)
          omega
        · rw [if_neg hb, put_other _ _ hb]; exact (h b).1
      · intro j
        rw [hm]
        by_cases hb : b = a
        · subst hb; rw [if_pos rfl, put_same]
        · rw [if_neg hb, put_other _ _ hb]
    by_cases hlt : i < (L a).length - 1
    · rw [if_pos hlt, (h a).2, List.getElem?_eq_getElem (by omega)]
      refine ⟨_, rfl, fin _ ?_⟩
      intro b j
      rw [Map.get_insert, Map.get_erase]
      by_cases hb : b = a
      · subst hb
        rw [if_pos rfl, swapRemove_getElem? hi]
        by_cases hj : j = i
        · subst hj
          simp only [if_true]
          rw [if_pos hlt, List.getElem?_eq_getElem (by omega)]
        · simp only [Prod.mk.injEq, hj, and_false, if_false, true_and]
          by_cases hj2 : j = (L b).length - 1
          · rw [if_pos hj2, if_neg (by omega)]
          · rw [if_neg hj2, (h b).2 j]
            by_cases hj3 : j < (L b).length - 1
            · rw [if_pos hj3]
            · rw [if_neg hj3, List.getElem?_eq_none (by omega)]
      · simp only [Prod.mk.injEq, hb, false_and, if_false]
        exact (h b).2 j
    · rw [if_neg hlt]
      refine ⟨_, rfl, fin _ ?_⟩
      intro b j
      rw [Map.get_erase]
      by_cases hb : b = a
      · subst hb
        rw [if_pos rfl, swapRemove_getElem? hi]
        simp only [Prod.mk.injEq, true_and]
        by_cases hj : j = i
        · subst hj; rw [if_pos rfl, if_neg hlt]
        · rw [if_neg hj, if_neg hj, (h b).2 j]
          by_cases hj3 : j < (L b).length - 1
          · rw [if_pos hj3]
          · rw [if_neg hj3, List.getElem?_eq_none (by omega)]
      · simp only [Prod.mk.injEq, hb, false_and, if_false]
        exact (h b).2 j
  · intro hp
    unfold Positions.remove
    simp only [posRepr_get h, hp, okOr, error_bind]

theorem posRepr_getAll (h : PosRepr ps L) (a : ActorId) : ps.getAll a = .ok (L a) := by
  unfold Positions.getAll rangeFromTo
  rw [(h a).1]
  have := readAll_list (get := fun i => ps.map.get (a, i)) (l := L a) (off := 0)
    (n := (L a).length) (fun j _ => (h a).2 _) (by omega)
  simp only [Nat.sub_zero]
  rw [this]; simp

theorem posRepr_getSlice (h : PosRepr ps L) (a : ActorId) {off size : Nat}
    (hs : off + size < 2 ^ 32) : ps.getSlice a off size = .ok (((L a).drop off).take size) := by
  unfold Positions.getSlice rangeFromTo addC fit
  simp only [if_pos hs, ok_bind]
  rw [(h a).1]
  by_cases hoff : off ≤ (L a).length
  · split
    · next hgt =>
      rw [readAll_list (l := L a) (fun j _ => (h a).2 _) (by omega)]
      rw [List.take_of_length_le (by simp), List.take_of_length_le (by simp; omega)]
    · rw [show off + size - off = size by omega,
        readAll_list (l := L a) (fun j _ => (h a).2 _) (by omega)]
  · rw [List.drop_eq_nil_of_le (by omega)]
    have : (if off + size > (L a).length then (L a).length else off + size) - off = 0 := by
      split <;> omega
    rw [this]; simp [readAll]

end

end Verif
