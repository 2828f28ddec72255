import Verif.Proofs.Frame
import Verif.Proofs.Positions
import Mathlib.Data.List.Nodup

/-! # The pool list and the fee tiers over histories -/

namespace Verif
open Service Spec

/-- the pool list holds exactly the keys `K` in order -/
structure KeysRepr (s : Inv) (K : List PoolKey) : Prop where
  nodup : K.Nodup
  len : s.poolKeys.length = K.length
  byIndex : ∀ i, s.poolKeys.byIndex.get i = K[i]?
  index : ∀ k, k ∈ K ↔ (s.poolKeys.index.get k).isSome
  pools : ∀ k, k ∈ K ↔ (s.pools.get k).isSome

theorem u16Succ_eq {n : Nat} (h : n + 1 < 2 ^ 16) : u16Succ n = n + 1 := Nat.mod_eq_of_lt h

theorem created_repr {s : Inv} {K : List PoolKey} (h : Created s K) (hK : K.length < 2 ^ 16) :
    KeysRepr s K := by
  induction h with
  | init a f =>
    exact ⟨List.nodup_nil, rfl, fun i => rfl, fun k => by simp [Inv.init], fun k => by simp [Inv.init]⟩
  | @create s s' env x y t p i k K _ hstep hk ih =>
    have hlen : K.length + 1 < 2 ^ 16 := by simpa using hK
    have ih := ih (by omega)
    obtain ⟨_, _, hxy, hnp, hni, pool, _, rfl⟩ := createPool_ok hstep
    obtain ⟨_, rfl⟩ := poolKeyNew_ok.1 hk
    generalize (⟨min x y, max x y, t⟩ : PoolKey) = k at *
    have hnot : k ∉ K := by
      intro hc
      have := (ih.pools k).1 hc
      rw [hnp] at this; cases this
    refine ⟨?_, ?_, ?_, ?_, ?_⟩
    · rw [List.nodup_append]
      refine ⟨ih.nodup, List.nodup_singleton _, ?_⟩
      intro a ha b hb
      rw [List.mem_singleton] at hb
      subst hb
      rintro rfl
      exact hnot ha
    · show u16Succ s.poolKeys.length = _
      rw [ih.len, u16Succ_eq hlen]; simp
    · intro j
      show (s.poolKeys.byIndex.insert s.poolKeys.length k).get j = _
      rw [Map.get_insert, ih.len, ih.byIndex]
      by_cases hj : j = K.length
      · subst hj; simp
      · rw [if_neg hj]
        rcases lt_or_ge j K.length with h | h
        · rw [List.getElem?_append_left h]
        · rw [List.getElem?_eq_none h, List.getElem?_eq_none (by simp; omega)]
    · intro k'
      show _ ↔ ((s.poolKeys.index.insert k s.poolKeys.length).get k').isSome
      rw [Map.get_insert, List.mem_append, List.mem_singleton, ih.index]
      by_cases hk' : k' = k
      · simp [hk']
      · simp [hk']
    · intro k'
      show _ ↔ ((s.pools.insert k pool).get k').isSome
      rw [Map.get_insert, List.mem_append, List.mem_singleton, ih.pools]
      by_cases hk' : k' = k
      · simp [hk']
      · simp [hk']
  | call _ hne hstep ih =>
    have ih := ih hK
    obtain ⟨e1, e2⟩ := step_poolsFrame hne hstep
    refine ⟨ih.nodup, ?_, ?_, ?_, ?_⟩
    · rw [e1]; exact ih.len
    · rw [e1]; exact ih.byIndex
    · rw [e1]; exact ih.index
    · intro k; rw [e2]; exact ih.pools k
  | transfers _ _ ih =>
    have ih := ih hK
    exact ⟨ih.nodup, ih.len, ih.byIndex, ih.index, ih.pools⟩

theorem getAll_eq {s : Inv} {K : List PoolKey} (h : KeysRepr s K) {size off : Nat}
    (hs : off + size < 2 ^ 16) :
    getPoolKeys s size off = .ok ((K.drop off).take size, K.length) := by
  unfold getPoolKeys PoolKeys.getAll rangeFromTo addC fit
  simp only [if_pos hs, ok_bind]
  rw [h.len]
  by_cases hoff : off ≤ K.length
  · split
    · next hgt =>
      rw [readAll_list (l := K) (fun j _ => h.byIndex _) (by omega)]
      rw [List.take_of_length_le (by simp), List.take_of_length_le (by simp; omega)]
      rfl
    · rw [show off + size - off = size by omega,
        readAll_list (l := K) (fun j _ => h.byIndex _) (by omega)]
      rfl
  · rw [List.drop_eq_nil_of_le (by omega)]
    have : (if off + size > K.length then K.length else off + size) - off = 0 := by
      split <;> omega
    rw [this]; simp [readAll]

/-- a legal fee tier -/
def TierOK (t : FeeTier) : Prop := 1 ≤ t.tickSpacing ∧ t.tickSpacing ≤ 100 ∧ t.fee < pctOne

structure TiersInv (s : Inv) : Prop where
  ok : ∀ t ∈ s.feeTiers, TierOK t
  nodup : s.feeTiers.Nodup
  pools : ∀ k, (s.pools.get k).isSome → TierOK k.feeTier ∧ k.tokenX < k.tokenY

theorem step_feeTiers {env : Env} {s s' : Inv} {c : Call} (h : step env s c = .ok s') :
    (∃ t, c = .addFeeTier t ∧ TierOK t ∧ t ∉ s.feeTiers ∧ s'.feeTiers = s.feeTiers ++ [t]) ∨
    (∃ t, c = .removeFeeTier t ∧ t ∈ s.feeTiers ∧ s'.feeTiers = s.feeTiers.erase t) ∨
    s'.feeTiers = s.feeTiers := by
  cases c with
  | changeProtocolFee f =>
    simp only [step, changeProtocolFee, bind_ok_iff, failIf_ok_iff, pure_ok_iff, ne_eq, not_not] at h
    obtain ⟨_, ⟨_, ha, rfl⟩, rfl⟩ := h
    exact .inr (.inr rfl)
  | addFeeTier t =>
    simp only [step, addFeeTier, bind_ok_iff, failIf_ok_iff, pure_ok_iff, ne_eq, not_not,
      feeTiersAdd_ok] at h
    obtain ⟨_, ⟨_, h1, _, h2, _, ha, _, ⟨h3, rfl⟩, rfl⟩, rfl⟩ := h
    refine .inl ⟨t, rfl, ⟨?_, ?_, ?_⟩, h3, rfl⟩ <;> omega
  | removeFeeTier t =>
    simp only [step, removeFeeTier, bind_ok_iff, failIf_ok_iff, pure_ok_iff, ne_eq, not_not,
      feeTiersRemove_ok] at h
    obtain ⟨_, ⟨_, ha, _, ⟨h1, rfl⟩, rfl⟩, rfl⟩ := h
    exact .inr (.inl ⟨t, rfl, h1, rfl⟩)
  | createPool x y t p i =>
    obtain ⟨_, _, _, _, _, _, _, rfl⟩ := createPool_ok h
    exact .inr (.inr rfl)
  | changeFeeReceiver k r =>
    obtain ⟨_, _, _, rfl⟩ := changeFeeReceiver_ok h
    exact .inr (.inr rfl)
  | createPosition k l u d a b =>
    simp only [step, bind_ok_iff, pure_ok_iff] at h
    obtain ⟨r, h, rfl⟩ := h
    obtain ⟨_, _, _, _, _, _, _, _, _, _, _, _, _, _, _, h1, h2, _⟩ := createPosition_ok h
    rw [putTicks_eq h1 h2]
    exact .inr (.inr rfl)
  | removePosition i =>
    simp only [step, bind_ok_iff, pure_ok_iff] at h
    obtain ⟨r, h, rfl⟩ := h
    obtain ⟨_, _, _, _, _, _, _, _, _, _, _, _, _, _, _, h1, h2, _, _, _, rfl⟩ := removePosition_ok h
    rw [dropTicks_eq h1 h2]
    exact .inr (.inr rfl)
  | transferPosition i r =>
    obtain ⟨_, _, _, rfl⟩ := transferPosition_ok h
    exact .inr (.inr rfl)
  | swap k d a b l =>
    simp only [step, bind_ok_iff, pure_ok_iff] at h
    obtain ⟨r, h, rfl⟩ := h
    obtain ⟨_, _, _, _, _, _, _, e⟩ := swap_ok h
    rw [e]
    exact .inr (.inr rfl)
  | swapRoute a e sl hp =>
    simp only [step, bind_ok_iff, pure_ok_iff] at h
    obtain ⟨r, h, rfl⟩ := h
    right; right
    refine route_induction (env := env) (R := fun s s' => s'.feeTiers = s.feeTiers) (fun _ => rfl)
      (fun _ _ _ h1 h2 => h2.trans h1) ?_ hp s a r (swapRoute_ok h).1
    intro s key d a l r hr
    obtain ⟨_, _, _, h1, _, _, _, e⟩ := swap_ok hr
    rw [e]
  | claimFee i =>
    simp only [step, bind_ok_iff, pure_ok_iff] at h
    obtain ⟨r, h, rfl⟩ := h
    obtain ⟨_, _, _, _, _, _, _, _, _, _, _, _, _, _, _, _, rfl⟩ := claimFee_ok h
    exact .inr (.inr rfl)
  | withdrawProtocolFee k =>
    simp only [step, bind_ok_iff, pure_ok_iff] at h
    obtain ⟨r, h, rfl⟩ := h
    obtain ⟨_, _, _, _, _, _, _, rfl⟩ := withdrawProtocolFee_ok h
    exact .inr (.inr rfl)
  | depositVara =>
    simp only [step, bind_ok_iff, pure_ok_iff] at h
    obtain ⟨r, h, rfl⟩ := h
    obtain ⟨_, _, rfl⟩ := depositVara_ok h
    exact .inr (.inr rfl)
  | withdrawVara v =>
    simp only [step, bind_ok_iff, pure_ok_iff] at h
    obtain ⟨r, h, rfl⟩ := h
    obtain ⟨_, e, _⟩ := withdrawVara_ok h
    rw [e]
    exact .inr (.inr rfl)

theorem reach_tiers {s : Inv} (h : Reach s) : TiersInv s := by
  induction h with
  | init a f => exact ⟨by simp [Inv.init], by simp [Inv.init], by simp [Inv.init]⟩
  | @call s s' env c _ h ih =>
    have hp : ∀ k, (s'.pools.get k).isSome → TierOK k.feeTier ∧ k.tokenX < k.tokenY := by
      by_cases hc : ∃ x y t p i, c = .createPool x y t p i
      · obtain ⟨x, y, t, p, i, rfl⟩ := hc
        obtain ⟨ht, _, hxy, _, _, pool, _, rfl⟩ := createPool_ok h
        intro k hk
        rw [show (_ : Inv).pools = _ from rfl, Map.get_insert] at hk
        split at hk
        · next e =>
          subst e
          refine ⟨ih.ok t ht, ?_⟩
          exact min_lt_max.2 hxy
        · exact ih.pools k hk
      · push Not at hc
        intro k hk
        rw [(step_poolsFrame hc h).dom] at hk
        exact ih.pools k hk
    rcases step_feeTiers h with ⟨t, _, h1, h2, e⟩ | ⟨t, _, h1, e⟩ | e
    · refine ⟨?_, ?_, hp⟩
      · rw [e]
        intro u hu
        rw [List.mem_append, List.mem_singleton] at hu
        rcases hu with hu | rfl
        · exact ih.ok u hu
        · exact h1
      · rw [e, List.nodup_append]
        refine ⟨ih.nodup, List.nodup_singleton _, ?_⟩
        intro a ha b hb
        rw [List.mem_singleton] at hb
        subst hb
        rintro rfl
        exact h2 ha
    · refine ⟨?_, ?_, hp⟩
      · rw [e]; intro u hu; exact ih.ok u (List.mem_of_mem_erase hu)
      · rw [e]; exact ih.nodup.erase _
    · exact ⟨by rw [e]; exact ih.ok, by rw [e]; exact ih.nodup, hp⟩
  | transfers _ _ ih => exact ⟨ih.ok, ih.nodup, ih.pools⟩

end Verif
