import Verif.Proofs.Ledger

/-! # The liquidity ledger in histories of any length

When the 32-bit counter of an account's positions wraps, positions are overwritten. The ticks keep counting the
liquidity of the lost ones. -/

namespace Verif
open Service Spec

variable {env : Env} {s s' : Inv}

/-- the position that adding one to `a`'s positions overwrites -/
def overwritten (ps : Positions) (a : ActorId) : Option Position := ps.map.get (a, ps.getLength a)

section sums
variable {R : Type} [AddCommMonoid R]

theorem posSum_add_any (ps : Positions) (a : ActorId) (p : Position) (g : Position → R) :
    posSum (ps.add a p) g + (overwritten ps a).elim 0 g = g p + posSum ps g := by
  unfold posSum Positions.add overwritten
  dsimp only
  rw [Map.sum_insert]
  cases h : ps.map.get (a, ps.getLength a) with
  | none => rw [Map.sum_erase_none h]; simp
  | some q =>
    rw [Map.sum_erase_some h]
    simp only [Option.elim_some]
    rw [add_assoc]
    congr 1
    exact add_comm _ _

theorem posSum_remove_any {ps ps' : Positions} {a : ActorId} {i : Nat} {p : Position}
    (hr : ps.remove a i = .ok (ps', p)) (g : Position → R) : posSum ps g = g p + posSum ps' g := by
  have hg := posGet_ok.1 (remove_get hr)
  simp only [Positions.remove, bind_ok_iff, pure_ok_iff] at hr
  obtain ⟨q, h1, ps1, h2, e⟩ := hr
  cases e
  unfold Positions.removeAt at h2
  simp only [bind_ok_iff, pure_ok_iff] at h2
  obtain ⟨m, h3, rfl⟩ := h2
  unfold posSum
  dsimp only
  split at h3
  · next hlt =>
    simp only [bind_ok_iff, okOr_ok_iff, pure_ok_iff] at h3
    obtain ⟨last, h4, rfl⟩ := h3
    have hg' : (ps.map.erase (a, u32Pred (ps.getLength a))).get (a, i) = some p := by
      rw [Map.get_erase, if_neg (by simp; omega)]; exact hg
    rw [Map.sum_insert, Map.sum_erase_some h4, Map.sum_erase_some hg']
    exact add_left_comm _ _ _
  · rw [pure_ok_iff] at h3
    subst h3
    exact Map.sum_erase_some hg _

end sums

theorem nC_abs_le (key : PoolKey) (i : Int) (p : Position) : (nC key i p).natAbs ≤ gC key i p := by
  unfold nC gC
  split_ifs <;> simp_all

theorem net_abs_le (ps : Positions) (key : PoolKey) (i : Int) :
    (posSum ps (nC key i)).natAbs ≤ posSum ps (gC key i) := by
  unfold posSum Map.sum
  induction ps.map.entries with
  | nil => simp
  | cons e l ih =>
    have := nC_abs_le key i e.2
    simp only [List.map_cons, List.sum_cons] at ih ⊢
    omega

/-- the ticks count the stored positions and possibly more -/
structure LedgerAll (s : Inv) (lost : PoolKey → Int → Nat) (lostNet : PoolKey → Int → Int) : Prop where
  abs : ∀ key i, (lostNet key i).natAbs ≤ lost key i
  gross : ∀ key i, tG s.ticks key i = grossLiq s key i + lost key i
  net : ∀ key i, tN s.ticks key i = netOfPositions s key i + lostNet key i

private theorem elim_abs (o : Option Position) (key : PoolKey) (i : Int) :
    (o.elim 0 (nC key i)).natAbs ≤ o.elim 0 (gC key i) := by
  cases o with
  | none => simp
  | some q => exact nC_abs_le key i q

theorem ledgerAll_step (hr : Reach s) {l : PoolKey → Int → Nat} {n : PoolKey → Int → Int}
    (hI : LedgerAll s l n) (he : Effect env s s') : ∃ l' n', LedgerAll s' l' n' := by
  have hw := reach_wf s hr
  cases he with
  | other => exact ⟨l, n, hI.1, hI.2, hI.3⟩
  | newPool => exact ⟨l, n, hI.1, hI.2, hI.3⟩
  | poolField => exact ⟨l, n, hI.1, hI.2, hI.3⟩
  | @create _ _ _ _ _ _ r h =>
    obtain ⟨pool, lt, ut, m, b, tm1, tm2, h, _⟩ := createPosition_full hw.indexed h
    have e : r.1.positions = s.positions.add env.caller m.position := by rw [h.res]
    refine ⟨fun k i => l k i + (overwritten s.positions env.caller).elim 0 (gC k i),
      fun k i => n k i + (overwritten s.positions env.caller).elim 0 (nC k i), ?_, ?_, ?_⟩
    · intro k i
      have := hI.1 k i
      have := elim_abs (overwritten s.positions env.caller) k i
      omega
    · intro k i
      have h1 := posSum_add_any s.positions env.caller m.position (gC k i)
      rw [(create_ticks h k i).1, hI.2, grossLiq_eq, grossLiq_eq, e]
      omega
    · intro k i
      have h1 := posSum_add_any s.positions env.caller m.position (nC k i)
      rw [(create_ticks h k i).2, hI.3, netOf_eq, netOf_eq, e]
      omega
  | @remove _ r h =>
    obtain ⟨p, lower, upper, pool, m, ps, b, tm1, tm2, h, _⟩ := removePosition_full hw.indexed h
    have hp := hw.pos _ _ (posGet_ok.1 h.get)
    have ht := remove_ticks (ne_of_lt hp.1.lt) h
    have e : r.1.positions = ps := by rw [h.res]
    have hg : ∀ key i, tG r.1.ticks key i = grossLiq r.1 key i + l key i := by
      intro k i
      have h1 := (ht k i).1
      rw [hI.2, grossLiq_eq, posSum_remove_any h.rem, ← e, ← grossLiq_eq] at h1
      omega
    refine ⟨l, n, hI.1, hg, ?_⟩
    intro k i
    rcases (ht k i).2 with h1 | h1
    · have h2 := hg k i
      rw [tG_none h1] at h2
      have h3 := hI.1 k i
      have h4 := net_abs_le r.1.positions k i
      rw [← netOf_eq, ← grossLiq_eq] at h4
      rw [tN_none h1]
      omega
    · rw [hI.3, netOf_eq, posSum_remove_any h.rem, ← e, ← netOf_eq] at h1
      omega
  | @claim _ r h =>
    obtain ⟨p, lower, upper, pool, m, ps, b, h, _⟩ := claimFee_full hw.indexed h
    have ep := h.mod.pos.eq
    have e1 : m.position.lowerTickIndex = p.lowerTickIndex := by rw [ep]
    have e2 : m.position.upperTickIndex = p.upperTickIndex := by rw [ep]
    have e3 : m.position.poolKey = p.poolKey := by rw [ep]
    have e4 : m.position.liquidity = p.liquidity := (h.mod.pos.add rfl).1
    have e : r.1.positions = ps := by rw [h.res]
    refine ⟨l, n, hI.1, ?_, ?_⟩
    · intro k i
      rw [(claim_ticks h k i).1, hI.2, grossLiq_eq, grossLiq_eq, e, posSum_same h.get h.upd]
      unfold gC; rw [e1, e2, e3, e4]
    · intro k i
      rw [(claim_ticks h k i).2, hI.3, netOf_eq, netOf_eq, e, posSum_same h.get h.upd]
      unfold nC; rw [e1, e2, e3, e4]
  | @transfer i dest ps p h =>
    refine ⟨fun k i => l k i + (overwritten ps dest).elim 0 (gC k i),
      fun k i => n k i + (overwritten ps dest).elim 0 (nC k i), ?_, ?_, ?_⟩
    · intro k i
      have := hI.1 k i
      have := elim_abs (overwritten ps dest) k i
      omega
    · intro k j
      have h1 := posSum_add_any ps dest p (gC k j)
      have h2 := posSum_remove_any h (gC k j)
      have h3 := hI.2 k j
      rw [grossLiq_eq] at h3 ⊢
      dsimp only
      omega
    · intro k j
      have h1 := posSum_add_any ps dest p (nC k j)
      have h2 := posSum_remove_any h (nC k j)
      have h3 := hI.3 k j
      rw [netOf_eq] at h3 ⊢
      dsimp only
      omega
  | swap h =>
    have e := swap_positions h
    have ht := same_ticks (swap_ticksSame hw.indexed h)
    refine ⟨l, n, hI.1, ?_, ?_⟩
    · intro k i; rw [(ht k i).1, grossLiq_eq, e]; exact hI.2 k i
    · intro k i; rw [(ht k i).2, netOf_eq, e]; exact hI.3 k i

theorem reach_ledgerAll : ∀ s, Reach s → ∃ l n, LedgerAll s l n := by
  refine reach_ind ?_ ?_ ?_
  · intro a f
    exact ⟨fun _ _ => 0, fun _ _ => 0, fun _ _ => by simp, fun _ _ => rfl, fun _ _ => rfl⟩
  · rintro s b aw ⟨l, n, h⟩
    exact ⟨l, n, h.1, h.2, h.3⟩
  · rintro env s s' hr ⟨l, n, h⟩ he
    exact ledgerAll_step hr h he

end Verif
