import Verif.Proofs.Effect
import Verif.Proofs.TickmapExport

/-! # Invariants of stored ticks, tick map and positions in reachable states -/

namespace Verif
open Service Spec

variable {env : Env} {s s' : Inv}

theorem checkTick_grid {t : Int} {sp : Nat} (hs : 1 ≤ sp) :
    checkTick t sp = .ok () ↔ Grid sp t := by
  simp only [checkTick, bind_ok_iff, failIf_ok_iff, pure_ok_iff, not_not, ne_eq]
  rw [getMaxTick_eq, getMinTick_eq]
  constructor
  · rintro ⟨_, h1, _, h2, _⟩
    push Not at h2
    have := gridHalf_mul_le sp
    exact ⟨tmod_grid h1, by omega, by omega⟩
  · intro h
    obtain ⟨j, rfl, h1, h2⟩ := grid_coord hs h
    refine ⟨(), grid_tmod h, (), ?_, trivial⟩
    have e1 := (mul_le_iff hs (-(gridHalf sp : Int)) j).2 h1
    have e2 := (mul_le_iff hs j (gridHalf sp)).2 h2
    rw [Int.neg_mul] at e1
    omega

/-- a well-formed stored tick -/
structure TickOK (key : PoolKey) (i : Int) (t : Tick) : Prop where
  index : t.index = i
  grid : Grid key.feeTier.tickSpacing i
  price : calculateSqrtPrice i = .ok t.sqrtPrice
  pos : t.liquidityGross ≠ 0
  cap : t.liquidityGross < calculateMaxLiquidityPerTick key.feeTier.tickSpacing

/-- a well-formed stored position -/
structure PosOK (p : Position) : Prop where
  lt : p.lowerTickIndex < p.upperTickIndex
  lower : Grid p.poolKey.feeTier.tickSpacing p.lowerTickIndex
  upper : Grid p.poolKey.feeTier.tickSpacing p.upperTickIndex
  liq : p.liquidity ≠ 0
  liqLt : p.liquidity < 2 ^ 256

/-- the invariant -/
structure StoreWF (s : Inv) : Prop where
  tick : ∀ key i t, s.ticks.get (key, i) = some t → TickOK key i t ∧ (s.pools.get key).isSome
  bit : ∀ key i, 1 ≤ key.feeTier.tickSpacing → Grid key.feeTier.tickSpacing i →
    tmBit s.tickmap key (bitmapIndex i key.feeTier.tickSpacing) = (s.ticks.get (key, i)).isSome
  wf : TmWF s.tickmap
  legal : TmLegal s.tickmap
  pos : ∀ k p, s.positions.map.get k = some p → PosOK p ∧ (s.pools.get p.poolKey).isSome

theorem StoreWF.indexed (h : StoreWF s) : TickIndexed s.ticks :=
  fun k i t ht => (h.tick k i t ht).1.index

/-! ### positions entry by entry -/

theorem posGet_ok {ps : Positions} {a : ActorId} {i : Nat} {p : Position} :
    ps.get a i = .ok p ↔ ps.map.get (a, i) = some p := by
  unfold Positions.get okOr
  cases ps.map.get (a, i) <;> simp

theorem posAdd_mem {ps : Positions} {a : ActorId} {p q : Position} {k : ActorId × Nat}
    (h : (ps.add a p).map.get k = some q) : q = p ∨ ps.map.get k = some q := by
  unfold Positions.add at h
  simp only [Map.get_insert] at h
  split at h
  · cases h; exact .inl rfl
  · exact .inr h

theorem posUpdate_mem {ps ps' : Positions} {a : ActorId} {i : Nat} {p q : Position}
    {k : ActorId × Nat} (hu : ps.update a i p = .ok ps')
    (h : ps'.map.get k = some q) : q = p ∨ ps.map.get k = some q := by
  unfold Positions.update at hu
  split at hu
  · cases hu
  · cases hu
    simp only [Map.get_insert] at h
    split at h
    · cases h; exact .inl rfl
    · exact .inr h

theorem posRemove_mem {ps ps' : Positions} {a : ActorId} {i : Nat} {p q : Position}
    {k : ActorId × Nat} (hr : ps.remove a i = .ok (ps', p))
    (h : ps'.map.get k = some q) : ∃ k', ps.map.get k' = some q := by
  simp only [Positions.remove, bind_ok_iff, pure_ok_iff] at hr
  obtain ⟨p', _, ps1, h2, e⟩ := hr
  cases e
  unfold Positions.removeAt at h2
  have key : ∀ (m : Map (ActorId × Nat) Position) k0, (m.erase k0).get k = some q → m.get k = some q := by
    intro m k0 h
    rw [Map.get_erase] at h
    split at h
    · cases h
    · exact h
  rw [bind_ok_iff] at h2
  obtain ⟨m, hm, h2⟩ := h2
  cases h2
  split at hm
  · simp only [bind_ok_iff, pure_ok_iff, okOr_ok_iff] at hm
    obtain ⟨l, hl, rfl⟩ := hm
    simp only [Map.get_insert] at h
    split at h
    · cases h
      exact ⟨_, hl⟩
    · exact ⟨_, key _ _ h⟩
  · cases hm
    exact ⟨_, key _ _ h⟩

/-! ### ticks -/

/-- the tick obtained for a boundary of a new position -/
theorem getOrCreate_grid {key : PoolKey} {i : Int} {now : Nat} {r : Tick × Bool} (h : StoreWF s)
    (hk : 1 ≤ key.feeTier.tickSpacing) (hr : getOrCreateTick s now key i = .ok r) :
    r.1.index = i ∧ Grid key.feeTier.tickSpacing i ∧ calculateSqrtPrice i = .ok r.1.sqrtPrice ∧
    (r.2 = true → s.ticks.get (key, i) = none ∧ r.1.liquidityGross = 0 ∧ r.1.net = 0) ∧
    (r.2 = false → s.ticks.get (key, i) = some r.1) := by
  rcases getOrCreateTick_ok.1 hr with ⟨t, ht, rfl⟩ | ⟨hn, t, ht, rfl⟩
  · obtain ⟨h1, _⟩ := h.tick _ _ _ ht
    exact ⟨h1.index, h1.grid, h1.price, by simp, fun _ => ht⟩
  · obtain ⟨h1, _, _, _, h2, h3, h4, h5, h6⟩ := createTick_ok ht
    refine ⟨h2, (checkTick_grid hk).1 h1, h6, fun _ => ⟨hn, h5, ?_⟩, by simp⟩
    unfold Tick.net
    dsimp only
    rw [h3, h4]
    rfl

/-- bits after conditional flips -/
theorem flipIf_wf {b v : Bool} {tm tm' : Tickmap} {i : Int} {key : PoolKey}
    (h : flipIf b tm v i key tm') : (TmWF tm → TmWF tm') ∧ (TmLegal tm → TmLegal tm') := by
  cases b with
  | true => exact ⟨fun hw => tmWF_flip hw (h.1 rfl), fun hl => tmLegal_flip hl (h.1 rfl)⟩
  | false => rw [h.2 rfl]; exact ⟨id, id⟩

theorem flipIf_bit {b v : Bool} {tm tm' : Tickmap} {i : Int} {key : PoolKey}
    (h : flipIf b tm v i key tm') (k : PoolKey) (j : Int) (hs : 1 ≤ k.feeTier.tickSpacing)
    (hg : Grid k.feeTier.tickSpacing j) :
    tmBit tm' k (bitmapIndex j k.feeTier.tickSpacing) =
      if b = true ∧ k = key ∧ j = i then v else tmBit tm k (bitmapIndex j k.feeTier.tickSpacing) := by
  cases b with
  | true =>
    have hf := h.1 rfl
    rw [tmBit_flip hf]
    by_cases hk : k = key
    · subst hk
      by_cases hj : j = i
      · subst hj; simp
      · rw [if_neg, if_neg]
        · rintro ⟨_, _, e⟩; exact hj e
        · rintro ⟨_, e⟩
          exact hj (bitmapIndex_inj hs hg (tickmapFlip_ok_iff.1 hf).1 e)
    · rw [if_neg (fun e => hk e.1), if_neg (fun e => hk e.2.1)]
  | false => rw [h.2 rfl, if_neg (by simp)]

theorem storeWF_init (a : ActorId) (f : Nat) : StoreWF (Inv.init a f) := by
  refine ⟨?_, ?_, tmWF_empty, tmLegal_empty, ?_⟩
  · intro key i t h; simp [Inv.init] at h
  · intro key i _ _
    show tmBit ∅ _ _ = _
    rw [tmBit_empty]; simp [Inv.init]
  · intro k p h; simp [Inv.init] at h

/-- more pools and replaced pools do not matter -/
theorem storeWF_pools {m : Map PoolKey Pool} (hw : StoreWF s)
    (h : ∀ k, (s.pools.get k).isSome → (m.get k).isSome) {pf : Nat} {ft : List FeeTier} {b : Balances}
    {keys : PoolKeys} {aw : Map (MessageId × ActorId) AwaitingTransfer} {ps : Positions}
    (hps : ∀ k p, ps.map.get k = some p → ∃ k', s.positions.map.get k' = some p) :
    StoreWF { s with pools := m, protocolFee := pf, feeTiers := ft, balances := b, poolKeys := keys,
                     awaiting := aw, positions := ps } := by
  refine ⟨?_, hw.bit, hw.wf, hw.legal, ?_⟩
  · intro key i t ht
    obtain ⟨h1, h2⟩ := hw.tick key i t ht
    exact ⟨h1, h _ h2⟩
  · intro k p hp
    obtain ⟨k', hk⟩ := hps k p hp
    obtain ⟨h1, h2⟩ := hw.pos k' p hk
    exact ⟨h1, h _ h2⟩

theorem isSome_insert {α β : Type} [DecidableEq α] (m : Map α β) (k k' : α) (v : β)
    (h : (m.get k').isSome) : ((m.insert k v).get k').isSome := by
  rw [Map.get_insert]; split
  · rfl
  · exact h

theorem createEff_wf {key : PoolKey} {lower upper : Int} {delta : Nat} {pool : Pool}
    {lt ut : Tick × Bool} {m : ModifyResult} {b : Balances} {tm1 tm2 : Tickmap} (hw : StoreWF s)
    (ht : TiersInv s)
    (h : CreateEff env s key lower upper delta pool lt ut m b tm1 tm2 s') : StoreWF s' := by
  have hk : 1 ≤ key.feeTier.tickSpacing := (ht.pools key (by rw [h.hpool]; rfl)).1.1
  obtain ⟨l1, l2, l3, l4, l5⟩ := getOrCreate_grid hw hk h.hlt
  obtain ⟨u1, u2, u3, u4, u5⟩ := getOrCreate_grid hw hk h.hut
  have hm := h.mod
  have hlu : lower < upper := by
    obtain ⟨i, hi⟩ := hm.pool.amounts
    obtain ⟨_, _, _, _, hle, _⟩ := calculateAmountDelta_ok hi
    rw [u1, l1] at hle
    exact lt_of_le_of_ne hle h.ne
  have hL : TickOK key lower m.lower := by
    obtain ⟨a1, a2, a3⟩ := hm.lower.dep rfl
    refine ⟨hm.lower.index.trans l1, l2, by rw [hm.lower.price]; exact l3, ?_, a2⟩
    rw [a1]; have := h.hdelta; omega
  have hU : TickOK key upper m.upper := by
    obtain ⟨a1, a2, a3⟩ := hm.upper.dep rfl
    refine ⟨hm.upper.index.trans u1, u2, by rw [hm.upper.price]; exact u3, ?_, a2⟩
    rw [a1]; have := h.hdelta; omega
  have hP : PosOK m.position ∧ m.position.poolKey = key := by
    have e := hm.pos.eq
    have e1 : m.position.lowerTickIndex = lower := by rw [e]
    have e2 : m.position.upperTickIndex = upper := by rw [e]
    have e3 : m.position.poolKey = key := by rw [e]
    obtain ⟨a1, a2⟩ := hm.pos.add rfl
    refine ⟨⟨by rw [e1, e2]; exact hlu, by rw [e1, e3]; exact l2, by rw [e2, e3]; exact u2, ?_, a2⟩, e3⟩
    rw [a1]; have := h.hdelta; omega
  rw [h.res]
  refine ⟨?_, ?_, (flipIf_wf h.flip2).1 ((flipIf_wf h.flip1).1 hw.wf),
    (flipIf_wf h.flip2).2 ((flipIf_wf h.flip1).2 hw.legal), ?_⟩
  · intro k i t hg
    dsimp only at hg ⊢
    rw [Map.get_insert] at hg
    split at hg
    · next e =>
      cases e; cases hg
      exact ⟨hU, by rw [Map.get_insert, if_pos rfl]; rfl⟩
    · rw [Map.get_insert] at hg
      split at hg
      · next e =>
        cases e; cases hg
        exact ⟨hL, by rw [Map.get_insert, if_pos rfl]; rfl⟩
      · obtain ⟨h1, h2⟩ := hw.tick k i t hg
        exact ⟨h1, isSome_insert _ _ _ _ h2⟩
  · intro k i hs hg
    dsimp only
    rw [flipIf_bit h.flip2 k i hs hg, flipIf_bit h.flip1 k i hs hg, hw.bit k i hs hg, Map.get_insert,
      Map.get_insert]
    by_cases hk : k = key
    · subst hk
      by_cases hi : i = upper
      · subst hi
        rw [if_pos rfl]
        by_cases hb : ut.2 = true
        · rw [if_pos ⟨hb, rfl, rfl⟩]; rfl
        · rw [if_neg (fun e => hb e.1), if_neg (fun e => h.ne e.2.2.symm), u5 (by simpa using hb)]; rfl
      · rw [if_neg (fun e => hi e.2.2), if_neg (c := (k, i) = (k, upper)) (by simp [hi])]
        by_cases hi2 : i = lower
        · subst hi2
          rw [if_pos rfl]
          by_cases hb : lt.2 = true
          · rw [if_pos ⟨hb, rfl, rfl⟩]; rfl
          · rw [if_neg (fun e => hb e.1), l5 (by simpa using hb)]; rfl
        · rw [if_neg (fun e => hi2 e.2.2), if_neg (by simp [hi2])]
    · rw [if_neg (fun e => hk e.2.1), if_neg (fun e => hk e.2.1), if_neg (by simp [hk]),
        if_neg (by simp [hk])]
  · intro k p hp
    dsimp only at hp ⊢
    rcases posAdd_mem hp with rfl | hp
    · exact ⟨hP.1, by rw [hP.2, Map.get_insert, if_pos rfl]; rfl⟩
    · obtain ⟨h1, h2⟩ := hw.pos k p hp
      exact ⟨h1, isSome_insert _ _ _ _ h2⟩

theorem get_eraseIf {α β : Type} [DecidableEq α] (c : Prop) [Decidable c] (m : Map α β) (k k' : α)
    (v : β) : (if c then m.erase k else m.insert k v).get k' =
      if k' = k then (if c then none else some v) else m.get k' := by
  split
  · rw [Map.get_erase]
  · rw [Map.get_insert]

theorem removeEff_wf {index : Nat} {p : Position} {lower upper : Tick} {pool : Pool}
    {m : ModifyResult} {ps : Positions} {b : Balances} {tm1 tm2 : Tickmap} (hw : StoreWF s)
    (h : RemoveEff env s index p lower upper pool m ps b tm1 tm2 s') : StoreWF s' := by
  obtain ⟨hP, _⟩ := hw.pos _ _ (posGet_ok.1 h.get)
  obtain ⟨hl, _⟩ := hw.tick _ _ _ h.hlt
  obtain ⟨hu, _⟩ := hw.tick _ _ _ h.hut
  have hm := h.mod
  have hL : m.lower.liquidityGross ≠ 0 → TickOK p.poolKey p.lowerTickIndex m.lower := by
    intro h0
    have := hm.lower.wdr rfl
    exact ⟨hm.lower.index.trans hl.index, hl.grid, by rw [hm.lower.price]; exact hl.price, h0,
      by have := hl.cap; omega⟩
  have hU : m.upper.liquidityGross ≠ 0 → TickOK p.poolKey p.upperTickIndex m.upper := by
    intro h0
    have := hm.upper.wdr rfl
    exact ⟨hm.upper.index.trans hu.index, hu.grid, by rw [hm.upper.price]; exact hu.price, h0,
      by have := hu.cap; omega⟩
  have hne : p.lowerTickIndex ≠ p.upperTickIndex := ne_of_lt hP.lt
  have hget : ∀ k i, s'.ticks.get (k, i) =
      if k = p.poolKey ∧ i = p.upperTickIndex then
        (if m.upper.liquidityGross = 0 then none else some m.upper)
      else if k = p.poolKey ∧ i = p.lowerTickIndex then
        (if m.lower.liquidityGross = 0 then none else some m.lower)
      else s.ticks.get (k, i) := by
    intro k i
    rw [h.res]
    dsimp only
    rw [get_eraseIf, get_eraseIf]
    simp only [Prod.mk.injEq]
  have hpools : s'.pools = s.pools.insert p.poolKey m.pool := by rw [h.res]
  have htm : s'.tickmap = tm2 := by rw [h.res]
  have hps : s'.positions = ps := by rw [h.res]
  refine ⟨?_, ?_, ?_, ?_, ?_⟩
  · intro k i t hg
    rw [hget] at hg
    rw [hpools]
    split at hg
    · next e =>
      obtain ⟨rfl, rfl⟩ := e
      split at hg
      · cases hg
      · next h0 => cases hg; exact ⟨hU h0, by rw [Map.get_insert, if_pos rfl]; rfl⟩
    · split at hg
      · next e =>
        obtain ⟨rfl, rfl⟩ := e
        split at hg
        · cases hg
        · next h0 => cases hg; exact ⟨hL h0, by rw [Map.get_insert, if_pos rfl]; rfl⟩
      · obtain ⟨h1, h2⟩ := hw.tick k i t hg
        exact ⟨h1, isSome_insert _ _ _ _ h2⟩
  · intro k i hs hg
    rw [htm, hget, flipIf_bit h.flip2 k i hs hg, flipIf_bit h.flip1 k i hs hg, hw.bit k i hs hg]
    simp only [decide_eq_true_eq]
    by_cases hk : k = p.poolKey
    · subst hk
      by_cases hi : i = p.upperTickIndex
      · subst hi
        rw [if_pos (c := p.poolKey = p.poolKey ∧ _) ⟨rfl, rfl⟩]
        by_cases h0 : m.upper.liquidityGross = 0
        · rw [if_pos ⟨h0, rfl, rfl⟩, if_pos h0]; rfl
        · rw [if_neg (fun e => h0 e.1), if_neg h0, if_neg (fun e => hne e.2.2.symm), h.hut]; rfl
      · rw [if_neg (fun e => hi e.2.2), if_neg (c := p.poolKey = p.poolKey ∧ _) (fun e => hi e.2)]
        by_cases hi2 : i = p.lowerTickIndex
        · subst hi2
          rw [if_pos (c := p.poolKey = p.poolKey ∧ _) ⟨rfl, rfl⟩]
          by_cases h0 : m.lower.liquidityGross = 0
          · rw [if_pos ⟨h0, rfl, rfl⟩, if_pos h0]; rfl
          · rw [if_neg (fun e => h0 e.1), if_neg h0, h.hlt]; rfl
        · rw [if_neg (fun e => hi2 e.2.2), if_neg (fun e => hi2 e.2)]
    · rw [if_neg (fun e => hk e.2.1), if_neg (fun e => hk e.2.1), if_neg (fun e => hk e.1),
        if_neg (fun e => hk e.1)]
  · rw [htm]; exact (flipIf_wf h.flip2).1 ((flipIf_wf h.flip1).1 hw.wf)
  · rw [htm]; exact (flipIf_wf h.flip2).2 ((flipIf_wf h.flip1).2 hw.legal)
  · intro k q hq
    rw [hps] at hq
    rw [hpools]
    obtain ⟨k', hk'⟩ := posRemove_mem h.rem hq
    obtain ⟨h1, h2⟩ := hw.pos k' q hk'
    exact ⟨h1, isSome_insert _ _ _ _ h2⟩

theorem claimEff_wf {index : Nat} {p : Position} {lower upper : Tick} {pool : Pool}
    {m : ModifyResult} {ps : Positions} {b : Balances} (hw : StoreWF s)
    (h : ClaimEff env s index p lower upper pool m ps b s') : StoreWF s' := by
  obtain ⟨hP, _⟩ := hw.pos _ _ (posGet_ok.1 h.get)
  obtain ⟨hl, _⟩ := hw.tick _ _ _ h.hlt
  obtain ⟨hu, _⟩ := hw.tick _ _ _ h.hut
  have hm := h.mod
  have hL : TickOK p.poolKey p.lowerTickIndex m.lower := by
    obtain ⟨a1, a2, _⟩ := hm.lower.dep rfl
    exact ⟨hm.lower.index.trans hl.index, hl.grid, by rw [hm.lower.price]; exact hl.price,
      by have := hl.pos; omega, a2⟩
  have hU : TickOK p.poolKey p.upperTickIndex m.upper := by
    obtain ⟨a1, a2, _⟩ := hm.upper.dep rfl
    exact ⟨hm.upper.index.trans hu.index, hu.grid, by rw [hm.upper.price]; exact hu.price,
      by have := hu.pos; omega, a2⟩
  rw [h.res]
  refine ⟨?_, ?_, hw.wf, hw.legal, ?_⟩
  · intro k i t hg
    dsimp only at hg ⊢
    rw [Map.get_insert] at hg
    split at hg
    · next e =>
      cases e; cases hg
      exact ⟨hL, by rw [Map.get_insert, if_pos rfl]; rfl⟩
    · rw [Map.get_insert] at hg
      split at hg
      · next e =>
        cases e; cases hg
        exact ⟨hU, by rw [Map.get_insert, if_pos rfl]; rfl⟩
      · obtain ⟨h1, h2⟩ := hw.tick k i t hg
        exact ⟨h1, isSome_insert _ _ _ _ h2⟩
  · intro k i hs hg
    dsimp only
    rw [hw.bit k i hs hg, Map.get_insert, Map.get_insert]
    split
    · next e => cases e; rw [h.hlt]; rfl
    · split
      · next e => cases e; rw [h.hut]; rfl
      · rfl
  · intro k q hq
    dsimp only at hq ⊢
    rcases posUpdate_mem h.upd hq with rfl | hq
    · have e := hm.pos.eq
      have e1 : m.position.lowerTickIndex = p.lowerTickIndex := by rw [e]
      have e2 : m.position.upperTickIndex = p.upperTickIndex := by rw [e]
      have e3 : m.position.poolKey = p.poolKey := by rw [e]
      obtain ⟨a1, a2⟩ := hm.pos.add rfl
      refine ⟨⟨?_, ?_, ?_, ?_, a2⟩, ?_⟩ <;> dsimp only <;>
        try simp only [e1, e2, e3]
      · exact hP.lt
      · exact hP.lower
      · exact hP.upper
      · have := hP.liq; omega
      · rw [Map.get_insert, if_pos rfl]; rfl
    · obtain ⟨h1, h2⟩ := hw.pos k q hq
      exact ⟨h1, isSome_insert _ _ _ _ h2⟩

theorem swap_wf {key : PoolKey} {xToY byIn : Bool} {amount limit : Nat}
    {r : Inv × CalculateSwapResult} (hw : StoreWF s)
    (h : swap env s key xToY amount byIn limit = .ok r) : StoreWF r.1 := by
  have hs := swap_ticksSame hw.indexed h
  obtain ⟨ticks, b1, b2, h1, h2, h3, h4, e⟩ := swap_ok h
  rw [e] at hs ⊢
  dsimp only at hs
  refine ⟨?_, ?_, hw.wf, hw.legal, ?_⟩
  · intro k i t ht
    dsimp only at ht ⊢
    rcases hs (k, i) with ⟨_, y⟩ | ⟨u, u', x, y, z⟩
    · rw [ht] at y; cases y
    · rw [ht] at y; cases y
      obtain ⟨a1, a2⟩ := hw.tick k i u x
      exact ⟨⟨z.index.trans a1.index, a1.grid, by rw [z.price]; exact a1.price,
        by rw [z.gross]; exact a1.pos, by rw [z.gross]; exact a1.cap⟩, isSome_insert _ _ _ _ a2⟩
  · intro k i hk hg
    dsimp only
    rw [hw.bit k i hk hg]
    rcases hs (k, i) with ⟨x, y⟩ | ⟨u, u', x, y, z⟩ <;> rw [x, y] <;> simp
  · intro k p hp
    obtain ⟨a1, a2⟩ := hw.pos k p hp
    exact ⟨a1, isSome_insert _ _ _ _ a2⟩

theorem effect_wf {env : Env} {s s' : Inv} (hr : Reach s) (hw : StoreWF s) (he : Effect env s s') :
    StoreWF s' := by
  have ht := reach_tiers hr
  cases he with
  | other pf ft b => exact storeWF_pools (m := s.pools) hw (fun _ => id) (fun k p h => ⟨k, h⟩)
  | newPool _ _ _ _ =>
    exact storeWF_pools hw (fun k h => isSome_insert _ _ _ _ h) (fun k p h => ⟨k, h⟩)
  | poolField _ _ =>
    exact storeWF_pools hw (fun k h => isSome_insert _ _ _ _ h) (fun k p h => ⟨k, h⟩)
  | create h =>
    obtain ⟨_, _, _, _, _, _, _, h, _⟩ := createPosition_full hw.indexed h
    exact createEff_wf hw ht h
  | remove h =>
    obtain ⟨_, _, _, _, _, _, _, _, _, h, _⟩ := removePosition_full hw.indexed h
    exact removeEff_wf hw h
  | claim h =>
    obtain ⟨_, _, _, _, _, _, _, h, _⟩ := claimFee_full hw.indexed h
    exact claimEff_wf hw h
  | transfer h =>
    refine storeWF_pools (m := s.pools) hw (fun _ => id) ?_
    intro k q hq
    rcases posAdd_mem hq with rfl | hq
    · exact ⟨_, posGet_ok.1 (remove_get h)⟩
    · exact posRemove_mem h hq
  | swap h => exact swap_wf hw h

/-- every reachable state is well-formed -/
theorem reach_wf : ∀ s, Reach s → StoreWF s := by
  refine reach_ind storeWF_init ?_ ?_
  · intro s b aw hw
    exact storeWF_pools (m := s.pools) hw (fun _ => id) (fun k p h => ⟨k, h⟩)
  · intro env s s' hr hw he
    exact effect_wf hr hw he

end Verif
