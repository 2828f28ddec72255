import Verif.Spec.Sale
import Verif.Props.Answers
import Verif.Props.Queries
import Verif.Props.Apart

/-!
# Property C120: a position pays its new owner what it would have paid the old one

`transfer_position` moves a stored record. The fees of the position and its liquidity are kept in the record, the ticks and
the pool; nothing refers to the owner. So whoever receives a position can claim and remove it exactly as the owner before
could have, and afterwards the program is in the same state, apart from who was paid.
-/

namespace Verif
open Service Spec

variable {e ea eb : Env} {s s' s₁ : Inv} {i x y : Nat} {r : ActorId}

private theorem bal_balOf (b : Balances) (w t : ActorId) : bal b w t = balOf b w t := by
  unfold bal balOf
  cases b.get (w, t) <;> rfl

private theorem pay {b : Balances} {k : PoolKey} (h : ∀ t, bal b r t + paid k x y t < 2 ^ 256) :
    ∃ b1 b2, increaseTokenBalance b k.tokenX r x = .ok b1 ∧ increaseTokenBalance b1 k.tokenY r y = .ok b2 := by
  have hx := h k.tokenX
  have hy := h k.tokenY
  rw [bal_balOf] at hx hy
  unfold paid at hx hy
  rw [if_pos rfl] at hx
  obtain ⟨b1, h1⟩ := increase_succeeds (b := b) (t := k.tokenX) (who := r) (n := x) (by omega)
  refine ⟨b1, ?_⟩
  have e1 := increase_bal h1 r k.tokenY
  rw [if_pos (rfl : k.tokenY = k.tokenY) (t := y)] at hy
  obtain ⟨b2, h2⟩ := increase_succeeds (b := b1) (t := k.tokenY) (who := r) (n := y) (by
    rw [e1]
    by_cases hk : k.tokenY = k.tokenX
    · rw [if_pos ⟨rfl, hk⟩]
      rw [if_pos hk] at hy
      omega
    · rw [if_neg (fun h => hk h.2)]
      rw [if_neg hk] at hy
      omega)
  exact ⟨b2, h1, h2⟩

private theorem pays {b b1 b2 : Balances} {k : PoolKey} (h1 : increaseTokenBalance b k.tokenX r x = .ok b1)
    (h2 : increaseTokenBalance b1 k.tokenY r y = .ok b2) (w t : ActorId) :
    bal b2 w t = bal b w t + if w = r then paid k x y t else 0 := by
  rw [bal_balOf, bal_balOf, increase_bal h2, increase_bal h1]
  unfold paid
  by_cases hw : w = r <;> by_cases hx : t = k.tokenX <;> by_cases hy : t = k.tokenY <;> simp [hw, hx, hy] <;> omega

private theorem holds_unique {ps : Positions} {L L' : Lists} (h : PosRepr ps L) (h' : PosRepr ps L') : L = L' := by
  funext a
  exact List.ext_getElem? fun i => by rw [← (h a).2 i, ← (h' a).2 i]

private theorem same_lists {s t : Inv} {L : Lists} (h : PosRepr s.positions L) (h' : PosRepr t.positions L) (L' : Lists) :
    Holds s L' ↔ Holds t L' := by
  constructor
  · intro k
    rw [← holds_unique h k]
    exact h'
  · intro k
    rw [← holds_unique h' k]
    exact h

/-- the lists after a transfer -/
private def moved (L : Lists) (a : ActorId) (i : Nat) (r : ActorId) (p : Position) : Lists :=
  (L.put a (swapRemove (L a) i)).put r ((L.put a (swapRemove (L a) i)) r ++ [p])

private theorem put_put (L : Lists) (a : ActorId) (l l' : List Position) : (L.put a l).put a l' = L.put a l' := by
  funext b
  unfold Lists.put
  split <;> rfl

private theorem put_self (L : Lists) (a : ActorId) : L.put a (L a) = L := by
  funext b
  unfold Lists.put
  split
  · next h => rw [h]
  · rfl

private theorem swapRemove_last (l : List Position) (p : Position) : swapRemove (l ++ [p]) l.length = l := by
  unfold swapRemove
  simp

private theorem swapRemove_set {l : List Position} {i : Nat} (hi : i < l.length) (q : Position) :
    swapRemove (l.set i q) i = swapRemove l i := by
  refine List.ext_getElem? fun j => ?_
  rw [swapRemove_getElem? (by simpa using hi), swapRemove_getElem? hi, List.length_set]
  split
  · split
    · next h h' => rw [List.getElem?_set_ne (by omega)]
    · next h => rw [List.getElem?_set_ne (Ne.symm h)]
  · rfl

private theorem holds_moved (hr : Reach32 s) {L : Lists} (hL : Holds s L) {p : Position} (hp : (L e.caller)[i]? = some p)
    (ht : transferPosition e s i r = .ok s') :
    s' = { s with positions := s'.positions } ∧ PosRepr s'.positions (moved L e.caller i r p) := by
  obtain ⟨t, h1, h2, h3⟩ := (C77_transfer (env := e) hr hL i r).1 p hp
  rw [ht] at h1
  cases h1
  exact ⟨h2, h3⟩

private theorem moved_last (L : Lists) (a : ActorId) (i : Nat) (r : ActorId) (p : Position) :
    moved L a i r p r = (L.put a (swapRemove (L a) i)) r ++ [p] := put_same _ _ _

/-- C120, claims: the new owner can claim what the old one could have claimed. Claimed before or after the transfer, the
state is the same in the end, but for the account that was paid. -/
theorem C120_claim (hr : Reach32 s) (ht : transferPosition e s i r = .ok s') (ha : ea.caller = e.caller)
    (hb : eb.caller = r) (hn : eb.now = ea.now) (hc : claimFee ea s i = .ok (s₁, x, y)) {p : Position}
    (hp : s.positions.get e.caller i = .ok p) (room : Room r p.poolKey x y s) :
    ∃ s₂ s₃, claimFee eb s' (s'.positions.getLength r - 1) = .ok (s₂, x, y) ∧ transferPosition e s₁ i r = .ok s₃ ∧
      SameButBalances s₂ s₃ ∧ PaidTo r p.poolKey x y s s₂ ∧ PaidTo e.caller p.poolKey x y s s₃ := by
  obtain ⟨L, hL, -⟩ := C55_lists hr
  have hf := (reach32_reach s hr).2
  have hR : PosRepr s.positions L := hL
  have hlen : ∀ a, (L a).length + 1 < 2 ^ 32 := fun a => by rw [← (hL a).1]; exact hf a
  have hpL : (L e.caller)[i]? = some p := by rw [← (hL e.caller).2 i]; exact posGet_ok.1 hp
  have hi : i < (L e.caller).length := (List.getElem?_eq_some_iff.1 hpL).1
  obtain ⟨es, hM⟩ := holds_moved hr hL hpL ht
  have hlast := moved_last L e.caller i r p
  have hlenr : s'.positions.getLength r - 1 = ((L.put e.caller (swapRemove (L e.caller) i)) r).length := by
    rw [(hM r).1, hlast, List.length_append]; rfl
  rw [hlenr]
  generalize hl : (L.put e.caller (swapRemove (L e.caller) i)) r = l at *
  have hget : s'.positions.get r l.length = .ok p := by
    rw [posRepr_get hM, hlast]
    simp [okOr]
  simp only [claimFee, bind_ok_iff, pure_ok_iff] at hc
  obtain ⟨p', h1, lower, h2, upper, h3, pool, h4, m, h5, ps, h6, pools, h7, t1, h8, t2, h9, b1, h10, b2, h11, e1⟩ := hc
  rw [ha, hp] at h1
  cases h1
  cases e1
  rw [ha] at h6 h10 h11
  -- the receiver's claim
  obtain ⟨ps', u1, u2⟩ := (posRepr_update hM r l.length m.position).1 (by rw [hlast]; simp)
  obtain ⟨c1, c2, g1, g2⟩ := pay room
  -- the transfer after the claim
  obtain ⟨ps'', v1, v2⟩ := (posRepr_update hR e.caller i m.position).1 hi
  rw [h6] at v1
  cases v1
  obtain ⟨ps3, w1, w2⟩ := (posRepr_remove v2 (a := e.caller) (by rw [put_same, List.length_set]; have := hlen e.caller; omega) i).1
    m.position (by rw [put_same]; simp [hi])
  have hs3 : transferPosition e { s with positions := ps, pools := pools, ticks := t2, balances := b2 } i r =
      .ok { s with positions := ps3.add r m.position, pools := pools, ticks := t2, balances := b2 } := by
    unfold transferPosition Positions.transfer
    dsimp only
    rw [w1]
    rfl
  rw [put_same, put_put, swapRemove_set hi] at w2
  have hadd := posRepr_add w2 (a := r) (by
    by_cases hb : r = e.caller
    · subst hb
      rw [put_same]
      have := swapRemove_length i (l := L e.caller) (by rintro h; rw [h] at hi; simp at hi)
      have := hlen e.caller
      omega
    · rw [put_other _ _ hb]
      exact hlen r) m.position
  refine ⟨{ s' with positions := ps', pools := pools, ticks := t2, balances := c2 }, _, ?_, hs3, ?_, ?_, ?_⟩
  · rw [es]
    simp only [claimFee, bind_ok_iff, pure_ok_iff]
    rw [hb, hn]
    exact ⟨p, hget, lower, h2, upper, h3, pool, h4, m, h5, ps', u1, pools, h7, t1, h8, t2, h9, c1, g1, c2, g2, rfl⟩
  · rw [es]
    refine ⟨⟨rfl, rfl, rfl⟩, rfl, rfl, rfl, rfl, rfl, same_lists (L := moved L e.caller i r m.position) ?_ ?_⟩
    · have : (moved L e.caller i r p).put r ((moved L e.caller i r p r).set l.length m.position) =
          moved L e.caller i r m.position := by
        rw [hlast]
        unfold moved
        rw [put_put, hl]
        simp
      rw [this] at u2
      exact u2
    · exact hadd
  · rw [es]
    exact pays g1 g2
  · exact pays h10 h11

private theorem dropTick_positions {k : PoolKey} {j : Int} {t : Tick} {q : Positions} (h : dropTick s k j t = .ok s₁) :
    dropTick { s with positions := q } k j t = .ok { s₁ with positions := q } := by
  unfold dropTick at h ⊢
  split at h
  · next h0 =>
    rw [if_pos h0]
    simp only [removeTick, bind_ok_iff, pure_ok_iff] at h ⊢
    obtain ⟨_, h1, a, h2, b, h3, rfl⟩ := h
    exact ⟨_, h1, a, h2, b, h3, rfl⟩
  · next h0 =>
    rw [if_neg h0]
    simp only [bind_ok_iff, pure_ok_iff] at h ⊢
    obtain ⟨a, h1, rfl⟩ := h
    exact ⟨a, h1, rfl⟩

/-- C120, exits: the new owner gets by removing the position what the old one would have got, and the program is left in
the same state, but for the account that was paid. -/
theorem C120_exit (hr : Reach32 s) (ht : transferPosition e s i r = .ok s') (ha : ea.caller = e.caller)
    (hb : eb.caller = r) (hn : eb.now = ea.now) (hc : removePosition ea s i = .ok (s₁, x, y)) {p : Position}
    (hp : s.positions.get e.caller i = .ok p) (room : Room r p.poolKey x y s) :
    ∃ s₂, removePosition eb s' (s'.positions.getLength r - 1) = .ok (s₂, x, y) ∧
      SameButBalances s₂ s₁ ∧ PaidTo r p.poolKey x y s s₂ ∧ PaidTo e.caller p.poolKey x y s s₁ := by
  obtain ⟨L, hL, -⟩ := C55_lists hr
  have hf := (reach32_reach s hr).2
  have hR : PosRepr s.positions L := hL
  have hlen : ∀ a, (L a).length + 1 < 2 ^ 32 := fun a => by rw [← (hL a).1]; exact hf a
  have hpL : (L e.caller)[i]? = some p := by rw [← (hL e.caller).2 i]; exact posGet_ok.1 hp
  have hi : i < (L e.caller).length := (List.getElem?_eq_some_iff.1 hpL).1
  obtain ⟨es, hM⟩ := holds_moved hr hL hpL ht
  have hlast := moved_last L e.caller i r p
  have hlenr : s'.positions.getLength r - 1 = ((L.put e.caller (swapRemove (L e.caller) i)) r).length := by
    rw [(hM r).1, hlast, List.length_append]; rfl
  have hroom : ((L.put e.caller (swapRemove (L e.caller) i)) r).length + 1 < 2 ^ 32 := by
    by_cases hb : r = e.caller
    · subst hb
      rw [put_same]
      have := swapRemove_length i (l := L e.caller) (by rintro h; rw [h] at hi; simp at hi)
      have := hlen e.caller
      omega
    · rw [put_other _ _ hb]
      exact hlen r
  rw [hlenr]
  generalize hl : (L.put e.caller (swapRemove (L e.caller) i)) r = l at *
  have hget : s'.positions.get r l.length = .ok p := by
    rw [posRepr_get hM, hlast]
    simp [okOr]
  simp only [removePosition, bind_ok_iff, pure_ok_iff] at hc
  obtain ⟨p', h1, lower, h2, upper, h3, pool, h4, m, h5, pools, h6, d1, h7, d2, h8, ps, h9, b1, h10, b2, h11, e1⟩ := hc
  rw [ha, hp] at h1
  cases h1
  cases e1
  rw [ha] at h9 h10 h11
  have ed : d2 = { s with pools := pools, ticks := d2.ticks, tickmap := d2.tickmap } := dropTicks_eq h7 h8
  have ebal : d2.balances = s.balances := by rw [ed]
  have epos : d2.positions = s.positions := by rw [ed]
  rw [ebal] at h10
  rw [epos] at h9
  obtain ⟨q, u1, u2⟩ := (posRepr_remove hM (a := r) (by rw [hlast, List.length_append]; simpa using hroom) l.length).1 p
    (by rw [hlast]; simp)
  obtain ⟨q', v1, v2⟩ := (posRepr_remove hR (a := e.caller) (by have := hlen e.caller; omega) i).1 p hpL
  rw [h9] at v1
  cases v1
  obtain ⟨c1, c2, g1, g2⟩ := pay room
  refine ⟨{ d2 with positions := q, balances := c2 }, ?_, ?_, ?_, ?_⟩
  · rw [es]
    simp only [removePosition, bind_ok_iff, pure_ok_iff]
    rw [hb, hn]
    refine ⟨p, hget, lower, h2, upper, h3, pool, h4, m, h5, pools, h6, { d1 with positions := s'.positions },
      dropTick_positions h7, { d2 with positions := s'.positions }, dropTick_positions h8, (q, p), u1, c1, ?_, c2, g2, rfl⟩
    show increaseTokenBalance d2.balances _ _ _ = _
    rw [ebal]
    exact g1
  · refine ⟨⟨rfl, rfl, rfl⟩, rfl, rfl, rfl, rfl, rfl,
      same_lists (L := L.put e.caller (swapRemove (L e.caller) i)) ?_ v2⟩
    have : (moved L e.caller i r p).put r (swapRemove (moved L e.caller i r p r) l.length) =
        L.put e.caller (swapRemove (L e.caller) i) := by
      rw [hlast, swapRemove_last]
      unfold moved
      rw [put_put, ← hl, put_self]
    rw [this] at u2
    exact u2
  · exact pays g1 g2
  · exact pays h10 h11

private theorem shuffle_left {α : Type} (x : α) : ∀ l : List α, Shuffle [x] l (x :: l)
  | [] => .left x .nil
  | y :: l => .left x (shuffle_right (y :: l))
where shuffle_right : ∀ l : List α, Shuffle [] l l
  | [] => .nil
  | y :: l => .right y (shuffle_right l)

private theorem shuffle_end {α : Type} (x : α) : ∀ l : List α, Shuffle [x] l (l ++ [x])
  | [] => .left x .nil
  | y :: l => .right y (shuffle_end x l)

private theorem within_all {A : ActorId → Prop} : ∀ {l : List (Env × Call)} {s : Inv},
    (∀ z ∈ l, ¬ Shared z.2 ∧ ∀ a ∈ parties z.1 z.2, A a) → Within (fun _ => True) A s l
  | [], _, _ => trivial
  | (_, _) :: _, _, h => ⟨⟨(h _ List.mem_cons_self).1, fun _ _ => trivial, (h _ List.mem_cons_self).2⟩,
      within_all fun z hz => h z (List.mem_cons_of_mem _ hz)⟩

/-- C120, the moment: it does not matter when a position is handed over among the messages of others, swaps in its pool
included (but for those that change the settings or make pools). -/
theorem C120_when {l : List (Env × Call)}
    (h : ∀ z ∈ l, ¬ Shared z.2 ∧ ∀ a ∈ parties z.1 z.2, a ≠ e.caller ∧ a ≠ r) :
    SameState (runAll s ((e, .transferPosition i r) :: l)) (runAll s (l ++ [(e, .transferPosition i r)])) := by
  refine C90_order (K := fun _ => False) (A := fun a => a = e.caller ∨ a = r) (K' := fun _ => True)
    (A' := fun a => a ≠ e.caller ∧ a ≠ r) (fun _ h => h.elim) ?_ (shuffle_left _ l) (shuffle_end _ l)
    ⟨⟨fun h => h, fun k hk => (List.not_mem_nil hk).elim, ?_⟩, trivial⟩ (within_all h)
  · rintro a (rfl | rfl) h
    · exact h.1 rfl
    · exact h.2 rfl
  · intro a ha
    rcases List.mem_cons.1 ha with rfl | ha
    · exact .inl rfl
    · exact .inr (List.mem_singleton.1 ha)

/-! ### Examples -/

/-- Account 3 hands a position that has earned fees to account 9, who had none; a claim pays the same to either, and so
does the exit. -/
example : let s := run (Demo.by_ 3) Demo.traded (.transferPosition 0 9)
    ((claimFee (Demo.by_ 3) Demo.traded 0).toOption.map (·.2)) = some (13503, 0) ∧
    ((claimFee (Demo.by_ 9) s (s.positions.getLength 9 - 1)).toOption.map (·.2)) = some (13503, 0) ∧
    ((removePosition (Demo.by_ 3) Demo.traded 0).toOption.map (·.2)) = some (30012004, 0) ∧
    ((removePosition (Demo.by_ 9) s (s.positions.getLength 9 - 1)).toOption.map (·.2)) = some (30012004, 0) := by
  decide +kernel

/-- Also to oneself: the position becomes the last of the list and pays what it would have paid. -/
example : let s := run (Demo.by_ 3) Demo.traded (.transferPosition 0 3)
    s.positions.getLength 3 = 2 ∧
    ((claimFee (Demo.by_ 3) s 1).toOption.map (·.2)) = ((claimFee (Demo.by_ 3) Demo.traded 0).toOption.map (·.2)) := by
  decide +kernel

/-- Handed over before or after the swap of another account. -/
example : SameState
    (runAll Demo.start [(Demo.by_ 3, .transferPosition 0 9), (Demo.by_ 2, .swap Demo.key true (22 * 10 ^ 6) true MIN_SQRT_PRICE)])
    (runAll Demo.start [(Demo.by_ 2, .swap Demo.key true (22 * 10 ^ 6) true MIN_SQRT_PRICE), (Demo.by_ 3, .transferPosition 0 9)]) :=
  C120_when (l := [_]) (by
    intro z hz
    cases List.mem_singleton.1 hz
    refine ⟨fun h => h, fun a ha => ?_⟩
    cases List.mem_singleton.1 ha
    decide)

end Verif
