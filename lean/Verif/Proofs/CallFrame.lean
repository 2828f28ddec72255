import Verif.Proofs.TickInv
import Verif.Proofs.Positions

/-! # Which pools, ticks and positions a call can change -/

namespace Verif
open Service Spec

variable {env : Env} {s s' : Inv}

/-- change of the table of positions by a call of `who` concerning pool `k` -/
inductive PosChange (who : ActorId) (k : PoolKey) (ps : Positions) : Positions → Prop
  | same : PosChange who k ps ps
  | add {p : Position} (hp : p.poolKey = k) : PosChange who k ps (ps.add who p)
  | upd {i : Nat} {p p' : Position} {ps' : Positions} (hg : ps.get who i = .ok p)
      (hp : p.poolKey = k) (hp' : p'.poolKey = k) (hl : p'.liquidity = p.liquidity)
      (hlo : p'.lowerTickIndex = p.lowerTickIndex) (hup : p'.upperTickIndex = p.upperTickIndex)
      (h : ps.update who i p' = .ok ps') : PosChange who k ps ps'
  | rem {i : Nat} {p : Position} {ps' : Positions} (hp : p.poolKey = k)
      (h : ps.remove who i = .ok (ps', p)) : PosChange who k ps ps'

/-- nothing changed for pools other than `k` -/
structure KeyFrame (k : PoolKey) (s s' : Inv) : Prop where
  pool : ∀ q, q ≠ k → s'.pools.get q = s.pools.get q
  tick : ∀ q i, q ≠ k → s'.ticks.get (q, i) = s.ticks.get (q, i)
  word : ∀ q c, q ≠ k → s'.tickmap.get (c, q) = s.tickmap.get (c, q)

theorem KeyFrame.refl (k : PoolKey) (s : Inv) : KeyFrame k s s :=
  ⟨fun _ _ => rfl, fun _ _ _ => rfl, fun _ _ _ => rfl⟩

/-- the pool a call (other than a route) operates on -/
def callKey (env : Env) (s : Inv) : Call → Option PoolKey
  | .createPool x y t _ _ => some ⟨min x y, max x y, t⟩
  | .changeFeeReceiver k _ => some k
  | .createPosition k _ _ _ _ _ => some k
  | .removePosition i => (s.positions.map.get (env.caller, i)).map (·.poolKey)
  | .swap k _ _ _ _ => some k
  | .claimFee i => (s.positions.map.get (env.caller, i)).map (·.poolKey)
  | .withdrawProtocolFee k => some k
  | _ => none

theorem flip_other {tm tm' : Tickmap} {v : Bool} {sp : Nat} {t : Int} {key : PoolKey}
    (h : tickmapFlip tm v t sp key = .ok tm') {q : PoolKey} (hq : q ≠ key) (c : Nat) :
    tm'.get (c, q) = tm.get (c, q) := by
  obtain ⟨_, _, rfl⟩ := tickmapFlip_ok_iff.1 h
  rw [Map.get_insert, if_neg]
  intro e
  cases e
  exact hq rfl

theorem putTick_other {key : PoolKey} {t : Tick} {b : Bool} (h : putTick s key t b = .ok s') :
    KeyFrame key s s' ∧ s'.pools = s.pools ∧ s'.positions = s.positions := by
  obtain ⟨h1, h2, h3, h4⟩ := putTick_ok h
  refine ⟨⟨fun q _ => by rw [h4], ?_, ?_⟩, by rw [h4], by rw [h4]⟩
  · intro q i hq
    rw [h1, Map.get_insert, if_neg (by intro e; cases e; exact hq rfl)]
  · intro q c hq
    cases b with
    | true => exact flip_other (h2 rfl).2 hq c
    | false => rw [(h3 rfl).2]

theorem dropTick_other {key : PoolKey} {i : Int} {t : Tick} (h : dropTick s key i t = .ok s') :
    KeyFrame key s s' ∧ s'.pools = s.pools ∧ s'.positions = s.positions := by
  obtain ⟨h1, h2, h4⟩ := dropTick_ok h
  refine ⟨⟨fun q _ => by rw [h4], ?_, ?_⟩, by rw [h4], by rw [h4]⟩
  · intro q j hq
    by_cases h0 : t.liquidityGross = 0
    · rw [(h1 h0).2.1, Map.get_erase, if_neg (by intro e; cases e; exact hq rfl)]
    · rw [(h2 h0).2.1, Map.get_insert, if_neg (by intro e; cases e; exact hq rfl)]
  · intro q c hq
    by_cases h0 : t.liquidityGross = 0
    · exact flip_other (h1 h0).2.2 hq c
    · rw [(h2 h0).2.2]

theorem get_insert_key {m : Map PoolKey Pool} {k q : PoolKey} {p : Pool} (h : q ≠ k) :
    (m.insert k p).get q = m.get q := by rw [Map.get_insert, if_neg h]

theorem swap_keyFrame {key : PoolKey} {d b : Bool} {a l : Nat} {r : Inv × CalculateSwapResult}
    (h : swap env s key d a b l = .ok r) :
    KeyFrame key s r.1 ∧ r.1.positions = s.positions ∧ r.1.tickmap = s.tickmap ∧
      r.1.protocolFee = s.protocolFee := by
  obtain ⟨_, _, _, h1, h2, _, _, e⟩ := swap_ok h
  rw [e]
  exact ⟨⟨fun q hq => get_insert_key hq, fun q i hq => updateTicks_other _ _ _ h2 (q, i) hq,
    fun _ _ _ => rfl⟩, rfl, rfl, rfl⟩

/-- the pools, ticks, tick maps and positions changed by a call other than a route or a transfer -/
theorem step_change {c : Call} (hc : ∀ a e sl h, c ≠ .swapRoute a e sl h)
    (ht : ∀ i b, c ≠ .transferPosition i b)
    (h : step env s c = .ok s') :
    (∃ k, callKey env s c = some k ∧ KeyFrame k s s' ∧ PosChange env.caller k s.positions s'.positions) ∨
    (callKey env s c = none ∧ s'.pools = s.pools ∧ s'.ticks = s.ticks ∧ s'.tickmap = s.tickmap ∧
      s'.positions = s.positions) := by
  cases c with
  | changeProtocolFee f =>
    simp only [step, changeProtocolFee, bind_ok_iff, failIf_ok_iff, pure_ok_iff] at h
    obtain ⟨_, ⟨_, ha, rfl⟩, rfl⟩ := h
    exact .inr ⟨rfl, rfl, rfl, rfl, rfl⟩
  | addFeeTier t =>
    simp only [step, addFeeTier, bind_ok_iff, failIf_ok_iff, pure_ok_iff] at h
    obtain ⟨_, ⟨_, _, _, _, _, ha, l, _, rfl⟩, rfl⟩ := h
    exact .inr ⟨rfl, rfl, rfl, rfl, rfl⟩
  | removeFeeTier t =>
    simp only [step, removeFeeTier, bind_ok_iff, failIf_ok_iff, pure_ok_iff] at h
    obtain ⟨_, ⟨_, ha, l, _, rfl⟩, rfl⟩ := h
    exact .inr ⟨rfl, rfl, rfl, rfl, rfl⟩
  | createPool x y t p i =>
    obtain ⟨h1, h2, _, h3, _, pool, h4, rfl⟩ := createPool_ok h
    exact .inl ⟨_, rfl, ⟨fun q hq => get_insert_key hq, fun _ _ _ => rfl, fun _ _ _ => rfl⟩, .same⟩
  | changeFeeReceiver k r =>
    obtain ⟨_, pool, hp, rfl⟩ := changeFeeReceiver_ok h
    exact .inl ⟨_, rfl, ⟨fun q hq => get_insert_key hq, fun _ _ _ => rfl, fun _ _ _ => rfl⟩, .same⟩
  | createPosition k l u d a b =>
    simp only [step, bind_ok_iff, pure_ok_iff] at h
    obtain ⟨r, h, rfl⟩ := h
    obtain ⟨_, _, pool, lt, ut, m, _, _, s2, hp, _, _, hm, _, _, h1, h2, _⟩ := createPosition_ok h
    obtain ⟨f1, e1, e1'⟩ := putTick_other h1
    obtain ⟨f2, e2, e2'⟩ := putTick_other h2
    refine .inl ⟨k, rfl, ⟨?_, ?_, ?_⟩, ?_⟩
    · intro q hq; rw [e2, e1]; exact get_insert_key hq
    · intro q i hq; rw [f2.tick q i hq, f1.tick q i hq]
    · intro q i hq; rw [f2.word q i hq, f1.word q i hq]
    · rw [e2', e1']
      refine .add ?_
      rw [(create_full hm).2.2.pos.eq]
  | removePosition i =>
    simp only [step, bind_ok_iff, pure_ok_iff] at h
    obtain ⟨r, h, rfl⟩ := h
    obtain ⟨p, _, _, _, m, s1, s2, ps, _, _, hg, _, _, hp, _, h1, h2, h3, _, _, rfl⟩ :=
      removePosition_ok h
    obtain ⟨f1, e1, e1'⟩ := dropTick_other h1
    obtain ⟨f2, e2, e2'⟩ := dropTick_other h2
    have hk : callKey env s (.removePosition i) = some p.poolKey := by
      simp only [callKey, posGet_ok.1 hg, Option.map_some]
    refine .inl ⟨p.poolKey, hk, ⟨?_, ?_, ?_⟩, ?_⟩
    · intro q hq; dsimp only; rw [e2, e1]; exact get_insert_key hq
    · intro q i hq; exact (f2.tick q i hq).trans (f1.tick q i hq)
    · intro q i hq; exact (f2.word q i hq).trans (f1.word q i hq)
    · rw [e2', e1'] at h3
      have : ps.2 = p := by
        have := remove_get (p := ps.2) h3
        rw [hg] at this; cases this; rfl
      exact .rem (i := i) (p := ps.2) (by rw [this]) h3
  | transferPosition i r =>
    exact absurd rfl (ht i r)
  | swap k d a b l =>
    simp only [step, bind_ok_iff, pure_ok_iff] at h
    obtain ⟨r, h, rfl⟩ := h
    obtain ⟨f, e, _⟩ := swap_keyFrame h
    exact .inl ⟨k, rfl, f, by rw [e]; exact .same⟩
  | swapRoute a e sl hp => exact absurd rfl (hc a e sl hp)
  | claimFee i =>
    simp only [step, bind_ok_iff, pure_ok_iff] at h
    obtain ⟨r, h, rfl⟩ := h
    obtain ⟨p, _, _, _, m, ps, _, _, hg, _, _, hp, hm, hu, _, _, rfl⟩ := claimFee_ok h
    have hk : callKey env s (.claimFee i) = some p.poolKey := by
      simp only [callKey, posGet_ok.1 hg, Option.map_some]
    obtain ⟨m', hm', rfl⟩ := claim_full hm
    have e := hm'.pos.eq
    refine .inl ⟨p.poolKey, hk, ⟨fun q hq => get_insert_key hq, ?_, fun _ _ _ => rfl⟩, ?_⟩
    · intro q j hq
      dsimp only
      rw [Map.get_insert, if_neg (by intro e; cases e; exact hq rfl), Map.get_insert,
        if_neg (by intro e; cases e; exact hq rfl)]
    · refine .upd hg rfl ?_ ?_ ?_ ?_ hu
      · dsimp only; rw [e]
      · dsimp only; rw [(hm'.pos.add rfl).1]; rfl
      · dsimp only; rw [e]
      · dsimp only; rw [e]
  | withdrawProtocolFee k =>
    simp only [step, bind_ok_iff, pure_ok_iff] at h
    obtain ⟨r, h, rfl⟩ := h
    obtain ⟨pool, _, _, hp, _, _, _, rfl⟩ := withdrawProtocolFee_ok h
    exact .inl ⟨_, rfl, ⟨fun q hq => get_insert_key hq, fun _ _ _ => rfl, fun _ _ _ => rfl⟩, .same⟩
  | depositVara =>
    simp only [step, bind_ok_iff, pure_ok_iff] at h
    obtain ⟨r, h, rfl⟩ := h
    obtain ⟨b, _, rfl⟩ := depositVara_ok h
    exact .inr ⟨rfl, rfl, rfl, rfl, rfl⟩
  | withdrawVara v =>
    simp only [step, bind_ok_iff, pure_ok_iff] at h
    obtain ⟨r, h, rfl⟩ := h
    obtain ⟨b, e, _⟩ := withdrawVara_ok h
    rw [e]
    exact .inr ⟨rfl, rfl, rfl, rfl, rfl⟩

/-! ### positions of one owner -/

theorem remove_cases {ps ps' : Positions} {a : ActorId} {i : Nat} {p : Position}
    (h : ps.remove a i = .ok (ps', p)) :
    ps'.length = ps.length.insert a (u32Pred (ps.getLength a)) ∧
    ∀ b j, b ≠ a → ps'.map.get (b, j) = ps.map.get (b, j) := by
  simp only [Positions.remove, bind_ok_iff, pure_ok_iff] at h
  obtain ⟨p', _, ps1, h2, e⟩ := h
  cases e
  unfold Positions.removeAt at h2
  rw [bind_ok_iff] at h2
  obtain ⟨m, hm, h2⟩ := h2
  cases h2
  refine ⟨rfl, ?_⟩
  intro b j hb
  have hn : ∀ x, ¬ ((b, j) = (a, x)) := by intro x e; cases e; exact hb rfl
  split at hm
  · simp only [bind_ok_iff, pure_ok_iff, okOr_ok_iff] at hm
    obtain ⟨l, hl, rfl⟩ := hm
    dsimp only
    rw [Map.get_insert, if_neg (hn _), Map.get_erase, if_neg (hn _)]
  · cases hm
    dsimp only
    rw [Map.get_erase, if_neg (hn _)]

/-- nobody else's positions change -/
theorem posChange_other {who : ActorId} {k : PoolKey} {ps ps' : Positions}
    (h : PosChange who k ps ps') {a : ActorId} (ha : a ≠ who) :
    ps'.getLength a = ps.getLength a ∧ ∀ i, ps'.map.get (a, i) = ps.map.get (a, i) := by
  have hn : ∀ (j x : Nat), ¬ ((a, j) = (who, x)) := by intro j x e; cases e; exact ha rfl
  cases h with
  | same => exact ⟨rfl, fun _ => rfl⟩
  | add hp =>
    refine ⟨?_, ?_⟩
    · unfold Positions.add; dsimp only; rw [getLength_insert, if_neg ha]; rfl
    · intro i; unfold Positions.add; dsimp only; rw [Map.get_insert, if_neg (hn _ _)]
  | upd hg _ _ _ _ _ hu =>
    unfold Positions.update at hu
    split at hu
    · cases hu
    · cases hu
      exact ⟨rfl, fun i => by dsimp only; rw [Map.get_insert, if_neg (hn _ _)]⟩
  | rem _ hr =>
    obtain ⟨h1, h2⟩ := remove_cases hr
    refine ⟨?_, fun i => h2 a i ha⟩
    unfold Positions.getLength
    rw [h1, Map.get_insert, if_neg ha]

/-- the receiver and the protocol fees of a pool -/
def PoolsMono (s s' : Inv) : Prop :=
  ∀ k p, s.pools.get k = some p → ∃ q, s'.pools.get k = some q ∧ PoolGrows p q

theorem poolsMono_insert {k : PoolKey} {p q : Pool} (h : s.pools.get k = some p) (hg : PoolGrows p q)
    (hs : s'.pools = s.pools.insert k q) : PoolsMono s s' := by
  intro k' p' h'
  rw [hs, Map.get_insert]
  split
  · next e => subst e; rw [h] at h'; cases h'; exact ⟨q, rfl, hg⟩
  · exact ⟨p', h', PoolGrows.refl _⟩

theorem poolUpd_grows {pool q : Pool} {now : Nat} {delta : Nat} {sign : Bool} {u l : Int} {x y : Nat}
    (h : PoolUpd { pool with lastTimestamp := now } q delta sign u l x y) : PoolGrows pool q := by
  rw [h.eq]; exact ⟨rfl, rfl, le_rfl, le_rfl⟩

theorem step_poolsMono {c : Call} (h1 : ∀ k r, c ≠ .changeFeeReceiver k r)
    (h2 : ∀ k, c ≠ .withdrawProtocolFee k) (h : step env s c = .ok s') : PoolsMono s s' := by
  have key : (∃ k r, c = .changeFeeReceiver k r) ∨ (∃ k, c = .withdrawProtocolFee k) ∨ PoolsMono s s' := by
    have hrefl : ∀ {s s' : Inv}, s'.pools = s.pools → PoolsMono s s' := by
      intro s s' e k p hp; exact ⟨p, by rw [e]; exact hp, PoolGrows.refl _⟩
    have hsw : ∀ {s : Inv} {key d a b l} {r : Inv × CalculateSwapResult},
        swap env s key d a b l = .ok r → PoolsMono s r.1 := by
      intro s key d a b l r h
      obtain ⟨_, _, _, h1, _, _, _, e⟩ := swap_ok h
      obtain ⟨p, hp, _⟩ := calculateSwap_pool h1
      exact poolsMono_insert hp (poolGrows_swap h1 hp) (by rw [e])
    cases c with
    | changeProtocolFee f =>
      simp only [step, changeProtocolFee, bind_ok_iff, failIf_ok_iff, pure_ok_iff] at h
      obtain ⟨_, ⟨_, ha, rfl⟩, rfl⟩ := h
      exact .inr (.inr (hrefl rfl))
    | addFeeTier t =>
      simp only [step, addFeeTier, bind_ok_iff, failIf_ok_iff, pure_ok_iff] at h
      obtain ⟨_, ⟨_, _, _, _, _, ha, l, _, rfl⟩, rfl⟩ := h
      exact .inr (.inr (hrefl rfl))
    | removeFeeTier t =>
      simp only [step, removeFeeTier, bind_ok_iff, failIf_ok_iff, pure_ok_iff] at h
      obtain ⟨_, ⟨_, ha, l, _, rfl⟩, rfl⟩ := h
      exact .inr (.inr (hrefl rfl))
    | createPool x y t p i =>
      obtain ⟨_, _, _, h3, _, pool, h4, rfl⟩ := createPool_ok h
      right; right
      intro k' p' h'
      refine ⟨p', ?_, PoolGrows.refl _⟩
      dsimp only
      rw [Map.get_insert, if_neg, h']
      rintro rfl
      rw [h3] at h'; cases h'
    | changeFeeReceiver k r => exact .inl ⟨k, r, rfl⟩
    | createPosition k l u d a b =>
      simp only [step, bind_ok_iff, pure_ok_iff] at h
      obtain ⟨r, h, rfl⟩ := h
      obtain ⟨_, _, pool, lt, ut, m, _, _, s2, hp, _, _, hm, _, _, h1, h2, _⟩ := createPosition_ok h
      obtain ⟨_, e1, _⟩ := putTick_other h1
      obtain ⟨_, e2, _⟩ := putTick_other h2
      exact .inr (.inr (poolsMono_insert hp (poolUpd_grows (create_full hm).2.2.pool) (by rw [e2, e1])))
    | removePosition i =>
      simp only [step, bind_ok_iff, pure_ok_iff] at h
      obtain ⟨r, h, rfl⟩ := h
      obtain ⟨p, _, _, _, m, s1, s2, ps, _, _, hg, _, _, hp, hm, h1, h2, h3, _, _, rfl⟩ :=
        removePosition_ok h
      obtain ⟨_, e1, _⟩ := dropTick_other h1
      obtain ⟨_, e2, _⟩ := dropTick_other h2
      obtain ⟨m', hm', _, _, rfl⟩ := remove_full hm
      exact .inr (.inr (poolsMono_insert hp (poolUpd_grows hm'.pool) (by dsimp only; rw [e2, e1])))
    | transferPosition i r =>
      obtain ⟨ps, p, h1, rfl⟩ := transferPosition_ok h
      exact .inr (.inr (hrefl rfl))
    | swap k d a b l =>
      simp only [step, bind_ok_iff, pure_ok_iff] at h
      obtain ⟨r, h, rfl⟩ := h
      exact .inr (.inr (hsw h))
    | swapRoute a e sl hp =>
      simp only [step, bind_ok_iff, pure_ok_iff] at h
      obtain ⟨r, h, rfl⟩ := h
      right; right
      refine route_induction (env := env) (R := PoolsMono) (fun _ => hrefl rfl) ?_
        (fun s key d a l r h => hsw h) hp s a r (swapRoute_ok h).1
      intro a b c h1 h2 k p hp
      obtain ⟨q, hq, g1⟩ := h1 k p hp
      obtain ⟨q', hq', g2⟩ := h2 k q hq
      exact ⟨q', hq', g1.trans g2⟩
    | claimFee i =>
      simp only [step, bind_ok_iff, pure_ok_iff] at h
      obtain ⟨r, h, rfl⟩ := h
      obtain ⟨p, _, _, _, m, ps, _, _, hg, _, _, hp, hm, hu, _, _, rfl⟩ := claimFee_ok h
      obtain ⟨m', hm', rfl⟩ := claim_full hm
      exact .inr (.inr (poolsMono_insert hp (poolUpd_grows hm'.pool) rfl))
    | withdrawProtocolFee k => exact .inr (.inl ⟨k, rfl⟩)
    | depositVara =>
      simp only [step, bind_ok_iff, pure_ok_iff] at h
      obtain ⟨r, h, rfl⟩ := h
      obtain ⟨b, _, rfl⟩ := depositVara_ok h
      exact .inr (.inr (hrefl rfl))
    | withdrawVara v =>
      simp only [step, bind_ok_iff, pure_ok_iff] at h
      obtain ⟨r, h, rfl⟩ := h
      obtain ⟨b, e, _⟩ := withdrawVara_ok h
      exact .inr (.inr (hrefl (by rw [e])))
  rcases key with ⟨k, r, e⟩ | ⟨k, e⟩ | h
  · exact absurd e (h1 k r)
  · exact absurd e (h2 k)
  · exact h

end Verif
