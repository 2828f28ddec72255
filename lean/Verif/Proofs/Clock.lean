import Verif.Spec.Clock
import Verif.Proofs.SwapFees
import Verif.Proofs.AccInv

/-! # The seconds outside the ticks -/

namespace Verif
open Service Spec

variable {env : Env} {s s' : Inv} {key : PoolKey}

theorem cross_seconds {t t' : Tick} {pool p : Pool} {now : Nat} (h : t.cross pool now = .ok (t', p)) :
    pool.startTimestamp ≤ now ∧
    t'.secondsOutside = (now - pool.startTimestamp + 2 ^ 64 - t.secondsOutside) % 2 ^ 64 := by
  simp only [Tick.cross, bind_ok_iff, pure_ok_iff, subC_ok_iff] at h
  obtain ⟨_, ⟨h1, rfl⟩, l, hl, e⟩ := h
  cases e
  exact ⟨h1, rfl⟩

/-! ### they are 64-bit numbers -/

def SecOK (t : Tick) : Prop := t.secondsOutside < 2 ^ 64

theorem sec_swap {xToY byIn : Bool} {amount limit : Nat}
    {r : Inv × CalculateSwapResult} (hw : ∀ k t, s.ticks.get k = some t → SecOK t)
    (h : Service.swap env s key xToY amount byIn limit = .ok r) :
    ∀ k t, r.1.ticks.get k = some t → SecOK t := by
  obtain ⟨ticks, b1, b2, h1, h2, h3, h4, e⟩ := swap_ok h
  obtain ⟨p, hp, _⟩ := calculateSwap_pool h1
  obtain ⟨st, hst, _, _, er⟩ := calculateSwap_ind
    (P := fun st => ∀ t ∈ st.ticks, SecOK t) h1 hp
    (by intro t ht; simp at ht)
    (by
      intro st st' hP _ hi
      obtain ⟨target, info, r, remaining, pool, tick, u, h⟩ := swapIter_ok hi
      rw [h.res]
      intro t ht
      cases h.upd with
      | cross ht' _ _ _ hx =>
        simp only [if_true, List.mem_append, List.mem_singleton] at ht
        rcases ht with ht | rfl
        · exact hP t ht
        · unfold SecOK
          subst ht'
          rw [(cross_seconds hx).2]
          exact Nat.mod_lt _ (by decide)
      | _ =>
        simp only [Bool.false_eq_true, if_false] at ht
        refine hP t ?_
        revert ht
        cases tick <;> exact id)
  rw [e]
  intro k t ht
  rcases updateTicks_mem _ _ _ h2 k t ht with hm | hm
  · rw [er] at hm; exact hst t hm
  · exact hw k t hm

theorem getOrCreate_sec {i : Int} {now : Nat} {r : Tick × Bool}
    (hw : ∀ k t, s.ticks.get k = some t → SecOK t)
    (h : getOrCreateTick s now key i = .ok r) : SecOK r.1 := by
  rcases getOrCreateTick_ok.1 h with ⟨t, ht, rfl⟩ | ⟨_, t, ht, rfl⟩
  · exact hw _ _ ht
  · obtain ⟨_, pool, hp, hc, _⟩ := createTick_ok ht
    simp only [Tick.create, bind_ok_iff, unwrap_ok_iff, pure_ok_iff] at hc
    obtain ⟨sp, h4, rfl⟩ := hc
    unfold SecOK
    dsimp only
    split
    · exact Nat.mod_lt _ (by decide)
    · decide

theorem modify_sec {p : Position} {pool : Pool} {u l : Tick} {delta now sp : Nat} {add : Bool}
    {m : ModifyResult} (h : ModifyOk p pool u l delta add now sp m) :
    m.upper.secondsOutside = u.secondsOutside ∧ m.lower.secondsOutside = l.secondsOutside ∧
    m.pool.startTimestamp = pool.startTimestamp ∧ m.pool.currentTickIndex = pool.currentTickIndex := by
  refine ⟨?_, ?_, ?_, ?_⟩
  · rw [h.upper.eq]
  · rw [h.lower.eq]
  · rw [h.pool.eq]
  · rw [h.pool.eq]

theorem reach_sec : ∀ s, Reach s → ∀ k t, s.ticks.get k = some t → SecOK t := by
  refine reach_ind ?_ ?_ ?_
  · intro a f k p h; simp [Inv.init] at h
  · intro s b aw h; exact h
  · intro env s s' hr hw he
    cases he with
    | other => exact hw
    | newPool _ _ _ hp => exact hw
    | poolField hp hq => exact hw
    | create h =>
      obtain ⟨pool, lt, ut, m, b, tm1, tm2, h, _⟩ := createPosition_full (reach_wf s hr).indexed h
      obtain ⟨m1, m2, _⟩ := modify_sec h.mod
      have a1 := getOrCreate_sec hw h.hut
      have a2 := getOrCreate_sec hw h.hlt
      rw [h.res]
      exact acc_insert (acc_insert hw (by unfold SecOK; rw [m2]; exact a2)) (by unfold SecOK; rw [m1]; exact a1)
    | remove h =>
      obtain ⟨p, lower, upper, pool, m, ps, b, tm1, tm2, h, _⟩ :=
        removePosition_full (reach_wf s hr).indexed h
      obtain ⟨m1, m2, _⟩ := modify_sec h.mod
      have a1 := hw _ _ h.hut
      have a2 := hw _ _ h.hlt
      rw [h.res]
      exact acc_eraseIf (acc_eraseIf hw (by unfold SecOK; rw [m2]; exact a2)) (by unfold SecOK; rw [m1]; exact a1)
    | claim h =>
      obtain ⟨p, lower, upper, pool, m, ps, b, h, _⟩ := claimFee_full (reach_wf s hr).indexed h
      obtain ⟨m1, m2, _⟩ := modify_sec h.mod
      have a1 := hw _ _ h.hut
      have a2 := hw _ _ h.hlt
      rw [h.res]
      exact acc_insert (acc_insert hw (by unfold SecOK; rw [m1]; exact a1)) (by unfold SecOK; rw [m2]; exact a2)
    | transfer h => exact hw
    | swap h => exact sec_swap hw h

/-! ### seconds below a tick -/

/-- the seconds below a tick, up to a constant -/
def belowSec (pool : Pool) (t : Tick) (now : Nat) : Int :=
  if t.index ≤ pool.currentTickIndex then t.secondsOutside else now - pool.startTimestamp - t.secondsOutside

theorem read_eq (pool : Pool) (lo hi : Tick) (now : Nat) :
    secondsRead pool lo hi now = ((belowSec pool hi now - belowSec pool lo now) % 2 ^ 64).toNat := by
  unfold secondsRead belowSec
  dsimp only
  congr 2
  split <;> split <;> split <;> omega

/-- a call other than a swap changes neither the clock of a tick nor the side on which it is -/
theorem effect_clock (hr : Reach s) (he : EffectIf False env s s') {pool pool' : Pool} {i : Int} {t t' : Tick}
    (hp : s.pools.get key = some pool) (hp' : s'.pools.get key = some pool')
    (ht : s.ticks.get (key, i) = some t) (ht' : s'.ticks.get (key, i) = some t') :
    t'.secondsOutside = t.secondsOutside ∧ pool'.startTimestamp = pool.startTimestamp ∧
    pool'.currentTickIndex = pool.currentTickIndex := by
  have same : ∀ {q : Pool}, s.pools.get key = some q → q.startTimestamp = pool.startTimestamp ∧
      q.currentTickIndex = pool.currentTickIndex := by
    intro q hq
    rw [hp] at hq
    cases hq
    exact ⟨rfl, rfl⟩
  have tsame : ∀ {q : Tick}, s.ticks.get (key, i) = some q → q.secondsOutside = t.secondsOutside := by
    intro q hq
    rw [ht] at hq
    cases hq
    rfl
  -- a changed pool
  have pins : ∀ {k : PoolKey} {p q : Pool}, s.pools.get k = some p → q.startTimestamp = p.startTimestamp →
      q.currentTickIndex = p.currentTickIndex → (s.pools.insert k q).get key = some pool' →
      pool'.startTimestamp = pool.startTimestamp ∧ pool'.currentTickIndex = pool.currentTickIndex := by
    intro k p q h1 h2 h3 h4
    rw [Map.get_insert] at h4
    split at h4
    · next e =>
      cases h4
      rw [e] at hp
      rw [hp] at h1
      cases h1
      exact ⟨h2, h3⟩
    · exact same h4
  -- changed ticks
  have tins : ∀ {m : Map (PoolKey × Int) Tick} {k : PoolKey × Int} {u v : Tick},
      (∀ q, m.get (key, i) = some q → q.secondsOutside = t.secondsOutside) →
      (k = (key, i) → v.secondsOutside = t.secondsOutside) →
      ∀ q, (m.insert k v).get (key, i) = some q → q.secondsOutside = t.secondsOutside := by
    intro m k u v h1 h2 q hq
    rw [Map.get_insert] at hq
    split at hq
    · next e => cases hq; exact h2 e.symm
    · exact h1 q hq
  have teif : ∀ {m : Map (PoolKey × Int) Tick} {k : PoolKey × Int} {v : Tick} {c : Prop} [Decidable c],
      (∀ q, m.get (key, i) = some q → q.secondsOutside = t.secondsOutside) →
      (k = (key, i) → v.secondsOutside = t.secondsOutside) →
      ∀ q, (if c then m.erase k else m.insert k v).get (key, i) = some q → q.secondsOutside = t.secondsOutside := by
    intro m k v c _ h1 h2 q hq
    split at hq
    · rw [Map.get_erase] at hq
      split at hq
      · cases hq
      · exact h1 q hq
    · exact tins (u := v) h1 h2 q hq
  have goc : ∀ {k : PoolKey} {j : Int} {r : Tick × Bool}, getOrCreateTick s env.now k j = .ok r →
      (k, j) = (key, i) → r.1.secondsOutside = t.secondsOutside := by
    intro k j r h e
    cases e
    rcases getOrCreateTick_ok.1 h with ⟨q, hq, rfl⟩ | ⟨hn, _⟩
    · exact tsame hq
    · rw [hn] at ht; cases ht
  have old : ∀ {k : PoolKey} {j : Int} {q : Tick}, s.ticks.get (k, j) = some q →
      (k, j) = (key, i) → q.secondsOutside = t.secondsOutside := by
    intro k j q hq e
    cases e
    exact tsame hq
  cases he with
  | other => exact ⟨tsame ht', same hp'⟩
  | @newPool k p keys j sp htr hc hn hq =>
    refine ⟨tsame ht', ?_⟩
    dsimp only at hp'
    rw [Map.get_insert] at hp'
    split at hp'
    · next e => rw [e, hn] at hp; cases hp
    · exact same hp'
  | poolField hq he =>
    refine ⟨tsame ht', pins hq ?_ ?_ hp'⟩
    · rw [he]
    · rw [he]
  | create h =>
    obtain ⟨p, lt, ut, m, b, tm1, tm2, h, _⟩ := createPosition_full (reach_wf s hr).indexed h
    obtain ⟨m1, m2, m3, m4⟩ := modify_sec h.mod
    rw [h.res] at hp' ht'
    refine ⟨?_, pins h.hpool m3 m4 hp'⟩
    exact tins (u := t) (tins (u := t) (fun q => tsame) (fun e => m2.trans (goc h.hlt e)))
      (fun e => m1.trans (goc h.hut e)) _ ht'
  | remove h =>
    obtain ⟨p, lower, upper, pl, m, ps, b, tm1, tm2, h, _⟩ := removePosition_full (reach_wf s hr).indexed h
    obtain ⟨m1, m2, m3, m4⟩ := modify_sec h.mod
    rw [h.res] at hp' ht'
    refine ⟨?_, pins h.hpool m3 m4 hp'⟩
    exact teif (teif (fun q => tsame) (fun e => m2.trans (old h.hlt e)))
      (fun e => m1.trans (old h.hut e)) _ ht'
  | claim h =>
    obtain ⟨p, lower, upper, pl, m, ps, b, h, _⟩ := claimFee_full (reach_wf s hr).indexed h
    obtain ⟨m1, m2, m3, m4⟩ := modify_sec h.mod
    rw [h.res] at hp' ht'
    refine ⟨?_, pins h.hpool m3 m4 hp'⟩
    exact tins (u := t) (tins (u := t) (fun q => tsame) (fun e => m1.trans (old h.hut e)))
      (fun e => m2.trans (old h.hlt e)) _ ht'
  | transfer h => exact ⟨tsame ht', same hp'⟩
  | swap _ hsw => exact hsw.elim

/-- a swap that does not end next to an initialised tick keeps the seconds below every tick -/
theorem swap_clock (hr : Reach s) {now : Nat} {xToY byIn : Bool} {amount limit : Nat} {r : CalculateSwapResult}
    {pool : Pool} (hs : Spacing key.feeTier.tickSpacing)
    (h : calculateSwap s now key xToY amount byIn limit = .ok r) (hp : s.pools.get key = some pool)
    (hn : ¬ Near s key xToY byIn limit r.targetSqrtPrice)
    {ticks : Map (PoolKey × Int) Tick} (ht : updateTicks key r.ticks s.ticks = .ok ticks)
    {i : Int} {t : Tick} (hi : s.ticks.get (key, i) = some t) :
    ∃ t', ticks.get (key, i) = some t' ∧ t'.index = t.index ∧
      belowSec r.pool t' now % 2 ^ 64 = belowSec pool t now % 2 ^ 64 := by
  have hw := reach_wf s hr
  obtain ⟨st, ⟨⟨t', g1, g2, g3, g4⟩, hst⟩, hb, hrem, e⟩ := swap_far_ind hw hs h hp (reach_agree s hr _ _ hp) hn
    (P := fun st => (∃ t', (crossed key s.ticks st.ticks).get (key, i) = some t' ∧ t'.index = i ∧ SecOK t' ∧
      belowSec st.pool t' now % 2 ^ 64 = belowSec pool t now % 2 ^ 64) ∧
      st.pool.startTimestamp = pool.startTimestamp)
    ⟨⟨t, hi, hw.indexed _ _ _ hi, reach_sec s hr _ _ hi, rfl⟩, rfl⟩
    (by
      rintro st st' target sr dust p1 p2 ⟨⟨q, q1, q2, q3, q4⟩, hst⟩ hsd hb h0 hit hm
      have f1 := (addFee_full hm.fee).2
      have f2 := (addFee_full hm.rest).2
      have c1 : p2.currentTickIndex = st.pool.currentTickIndex := by rw [f2]; dsimp only; rw [f1]
      have c2 : p2.startTimestamp = st.pool.startTimestamp := by rw [f2]; dsimp only; rw [f1]
      refine ⟨?_, (poolGrows_iter hit).start.trans hst⟩
      have hst' := (poolGrows_iter hit).start
      cases hm.kind with
      | stay tk pl side =>
        refine ⟨q, by rw [tk]; exact q1, q2, q3, ?_⟩
        rw [← q4]
        have := side i (by rw [hi]; rfl)
        unfold belowSec
        rw [q2, hst']
        simp only [this]
      | cross u u' q' stored hx tk pl hit' dir flips side =>
        by_cases hu : u.index = i
        · have hv : q = u := by
            have : (crossed key s.ticks st.ticks).get (key, u.index) = some u := by
              rw [crossed_get]
              · exact stored
              · intro v hv e
                obtain ⟨_, h2⟩ := hb v hv
                rw [e] at h2
                cases xToY <;> simp only [Bool.false_eq_true, if_false, if_true] at h2 dir <;> omega
            rw [hu, q1] at this
            cases this
            rfl
          have ui : u'.index = u.index := (cross_ok hx).1
          obtain ⟨s1, s2⟩ := cross_seconds hx
          refine ⟨u', ?_, ui.trans hu, ?_, ?_⟩
          · rw [tk, crossed_append, ui, hu, Map.get_insert_self]
          · unfold SecOK; rw [s2]; exact Nat.mod_lt _ (by decide)
          · rw [← q4, hv]
            unfold belowSec
            rw [ui, hst', s2, c2]
            rw [c2] at s1
            dsimp only at s1 s2 ⊢
            have q3' : u.secondsOutside < 2 ^ 64 := by rw [← hv]; exact q3
            by_cases hc : u.index ≤ st.pool.currentTickIndex
            · rw [if_neg (by rw [flips]; simpa using hc), if_pos hc]
              push_cast
              omega
            · rw [if_pos (flips.2 hc), if_neg hc]
              push_cast
              omega
        · have ui : u'.index = u.index := (cross_ok hx).1
          refine ⟨q, ?_, q2, q3, ?_⟩
          · rw [tk, crossed_append, Map.get_insert_ne]
            · exact q1
            · intro e
              exact hu (ui ▸ (Prod.mk.inj e).2.symm)
          · rw [← q4]
            have := side i (fun e => hu e.symm) (by rw [hi]; rfl)
            unfold belowSec
            rw [q2, hst']
            simp only [this])
  rw [updateTicks_eq _ _ _ ht, e]
  refine ⟨t', g1, g2.trans (hw.indexed _ _ _ hi).symm, g4⟩

end Verif
