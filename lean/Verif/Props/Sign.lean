import Verif.Props.Ledger

/-!
# C33: the sign of a tick whose contributions cancel

The amount and the sign of a tick's liquidity change are stored apart, so that zero has two forms, both of which `get_tick`
shows. The stored form is determined: it is the direction of the last position that was opened or closed at the tick.
-/

namespace Verif
open Service Spec

variable {s : Inv} {env : Env}

private theorem change_zero {t t' : Tick} {delta : Nat} {add : Bool} (h : t.updateLiquidityChange delta add = .ok t')
    (h0 : netLiq t' = 0) : t'.sign = add := by
  have hc : t'.liquidityChange = 0 := by unfold netLiq at h0; split at h0 <;> omega
  unfold Tick.updateLiquidityChange at h
  rw [ite_ok_iff] at h
  rcases h with ⟨hx, h⟩ | ⟨hx, h⟩
  · rw [ite_ok_iff] at h
    rcases h with ⟨hd, h⟩ | ⟨_, h⟩
    · cases h
      dsimp only at hc
      omega
    · cases h
      cases hs : t.sign <;> cases add <;> simp_all
  · simp only [bind_ok_iff, addC_ok_iff, pure_ok_iff] at h
    obtain ⟨_, _, rfl⟩ := h
    cases hs : t.sign <;> cases add <;> simp_all

private theorem update_zero {t t' : Tick} {delta m : Nat} {u d : Bool} (h : t.update delta m u d = .ok t')
    (h0 : netLiq t' = 0) : t'.sign = xor d u := by
  unfold Tick.update at h
  rw [bind_ok_iff] at h
  obtain ⟨g, _, h⟩ := h
  exact change_zero h h0

private theorem modify_zero {p : Position} {pool : Pool} {u l : Tick} {delta now sp : Nat} {add : Bool}
    {r : ModifyResult} (h : p.modify pool u l delta add now sp = .ok r) :
    (netLiq r.lower = 0 → r.lower.sign = add) ∧ (netLiq r.upper = 0 → r.upper.sign = !add) := by
  unfold Position.modify at h
  simp only [bind_ok_iff, pure_ok_iff] at h
  obtain ⟨l', hl, u', hu, p', hp, q, hq, rfl⟩ := h
  refine ⟨fun h => ?_, fun h => ?_⟩
  · rw [update_zero hl h]; simp
  · rw [update_zero hu h]; simp

/-- C33, the sign of zero: after a position is opened, its ticks exist, and if the contributions to one of them cancel, the
tick shows the direction of the new position, which is up at its lower end and down at its upper end. -/
theorem C33_sign_open (hr : Reach s) {key : PoolKey} {lower upper : Int} {delta ll lu : Nat} {r : Inv × Position}
    (h : createPosition env s key lower upper delta ll lu = .ok r) :
    (∃ t, r.1.ticks.get (key, lower) = some t ∧ (netLiq t = 0 → t.sign = true)) ∧
    (∃ t, r.1.ticks.get (key, upper) = some t ∧ (netLiq t = 0 → t.sign = false)) := by
  have hi := (reach_wf s hr).indexed
  obtain ⟨_, h2, pool, lt, ut, m, bx, by_, s2, hp, hl, hu, hm, _, _, hp1, hp2, _⟩ := createPosition_ok h
  have hli := getOrCreate_index hi hl
  have hui := getOrCreate_index hi hu
  obtain ⟨_, _, hf⟩ := create_full hm
  have i1 : m.lower.index = lower := hf.lower.index.trans hli
  have i2 : m.upper.index = upper := hf.upper.index.trans hui
  unfold Position.create at hm
  simp only [bind_ok_iff, failIf_ok_iff, unwrap_ok_iff] at hm
  obtain ⟨_, _, hm⟩ := hm
  obtain ⟨z1, z2⟩ := modify_zero hm
  obtain ⟨a1, _⟩ := putTick_ok hp1
  obtain ⟨b1, _⟩ := putTick_ok hp2
  rw [b1, a1, i1, i2]
  refine ⟨⟨m.lower, ?_, z1⟩, m.upper, Map.get_insert_self _ _ _, z2⟩
  rw [Map.get_insert_ne _ _ (by intro e; exact h2 (Prod.mk.inj e).2), Map.get_insert_self]

/-- C33, the sign of zero: after a position is closed, if one of its ticks remains and the contributions to it cancel, the
tick shows the opposite direction, which is down at the lower end and up at the upper end. -/
theorem C33_sign_close (hr : Reach s) {index : Nat} {p : Position} (hp : s.positions.get env.caller index = .ok p)
    {r : Inv × Nat × Nat} (h : removePosition env s index = .ok r) :
    (∀ t, r.1.ticks.get (p.poolKey, p.lowerTickIndex) = some t → netLiq t = 0 → t.sign = false) ∧
    (∀ t, r.1.ticks.get (p.poolKey, p.upperTickIndex) = some t → netLiq t = 0 → t.sign = true) := by
  have hw := reach_wf s hr
  have hlt := (hw.pos _ _ (posGet_ok.1 hp)).1.lt
  obtain ⟨q, lo, up, pool, m, s1, s2, ps, b1, b2, hq, hl, hu, _, hm, hd1, hd2, _, _, _, rfl⟩ := removePosition_ok h
  rw [hp] at hq
  cases hq
  obtain ⟨m', hf, _, _, e⟩ := remove_full hm
  have i1 : m.lower.index = p.lowerTickIndex := by rw [e]; exact hf.lower.index.trans (hw.indexed _ _ _ hl)
  have i2 : m.upper.index = p.upperTickIndex := by rw [e]; exact hf.upper.index.trans (hw.indexed _ _ _ hu)
  unfold Position.remove at hm
  simp only [bind_ok_iff, unwrap_ok_iff, addC_ok_iff, pure_ok_iff] at hm
  obtain ⟨n, hm, _, _, _, _, e'⟩ := hm
  obtain ⟨z1, z2⟩ := modify_zero hm
  have e1 : m.lower = n.lower := by rw [← e']
  have e2 : m.upper = n.upper := by rw [← e']
  rw [← e1] at z1
  rw [← e2] at z2
  obtain ⟨d1, _⟩ := dropTick_full i1 hd1
  obtain ⟨d2, _⟩ := dropTick_full i2 hd2
  have hne : (p.poolKey, p.lowerTickIndex) ≠ (p.poolKey, p.upperTickIndex) := by
    intro e
    have := (Prod.mk.inj e).2
    omega
  dsimp only
  rw [d2, d1]
  dsimp only
  refine ⟨fun t ht h0 => ?_, fun t ht h0 => ?_⟩
  · have ht : (if m.lower.liquidityGross = 0 then s.ticks.erase (p.poolKey, p.lowerTickIndex)
        else s.ticks.insert (p.poolKey, p.lowerTickIndex) m.lower).get (p.poolKey, p.lowerTickIndex) = some t := by
      rw [← ht]
      split_ifs <;> simp [Map.get_insert_ne, Map.get_erase_ne, hne, Ne.symm hne]
    split_ifs at ht
    · rw [Map.get_erase_self] at ht; cases ht
    · rw [Map.get_insert_self] at ht; cases ht; exact z1 h0
  · by_cases hg : m.upper.liquidityGross = 0
    · rw [if_pos hg, Map.get_erase_self] at ht; cases ht
    · rw [if_neg hg, Map.get_insert_self] at ht; cases ht; exact z2 h0

private def opened : Inv := run (Demo.by_ 3) Demo.start (.createPosition Demo.key 10 30 (3 * 10 ^ 15) (10 ^ 24) (10 ^ 24))
private def more : Inv := run (Demo.by_ 3) opened (.createPosition Demo.key 10 40 (10 ^ 12) (10 ^ 24) (10 ^ 24))

/-- a position ends at tick 10; one as large that begins there makes the change zero, shown as positive; a third one is
opened and closed again, and the zero is shown as negative -/
example : ([Demo.start, opened, more, run (Demo.by_ 3) more (.removePosition 3)].map fun s =>
      (s.ticks.get (Demo.key, 10)).map fun t => (t.sign, netLiq t)) =
    [some (false, -3 * 10 ^ 15), some (true, 0), some (true, 10 ^ 12), some (false, 0)] := by decide +kernel

end Verif
