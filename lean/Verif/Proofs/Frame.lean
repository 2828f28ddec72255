import Verif.Proofs.Invert
import Verif.Spec.History

/-! # What each call leaves unchanged -/

namespace Verif
open Service Spec

variable {env : Env} {s s' : Inv}

/-- a route is a sequence of swaps -/
theorem route_induction {R : Inv → Inv → Prop} (hrefl : ∀ s, R s s)
    (htrans : ∀ a b c, R a b → R b c → R a c)
    (hswap : ∀ (s : Inv) (key : PoolKey) (d : Bool) (a : Nat) (l : Nat) (r : Inv × CalculateSwapResult),
      swap env s key d a true l = .ok r → R s r.1) :
    ∀ (hops : List SwapHop) (s : Inv) (a : Nat) (r : Inv × Nat), routeSwap env hops s a = .ok r →
      R s r.1 := by
  intro hops
  induction hops with
  | nil =>
    intro s a r h
    simp only [routeSwap, Except.ok.injEq] at h
    subst h
    exact hrefl s
  | cons hp t ih =>
    intro s a r h
    simp only [routeSwap, bind_ok_iff] at h
    obtain ⟨q, h1, h2⟩ := h
    exact htrans _ _ _ (hswap _ _ _ _ _ _ h1) (ih _ _ _ h2)

theorem swapRoute_ok {a e sl : Nat} {hops : List SwapHop} {r : Inv × Nat}
    (h : swapRoute env s a e sl hops = .ok r) :
    routeSwap env hops s a = .ok r ∧ ∃ m, calculateMinAmountOut e sl = .ok m ∧ m ≤ r.2 := by
  simp only [swapRoute, bind_ok_iff, failIf_ok_iff, pure_ok_iff] at h
  obtain ⟨q, h1, m, h2, _, h3, rfl⟩ := h
  exact ⟨h1, m, h2, by omega⟩

/-- To prove a reflexive and transitive relation between the states before and after a call it is
enough to prove it for every call but `swapRoute`. -/
theorem step_cases {R : Inv → Inv → Prop} (hrefl : ∀ s, R s s)
    (htrans : ∀ a b c, R a b → R b c → R a c)
    (hcall : ∀ (s s' : Inv) (c : Call), (∀ a e sl h, c ≠ .swapRoute a e sl h) →
      step env s c = .ok s' → R s s') :
    ∀ (s s' : Inv) (c : Call), step env s c = .ok s' → R s s' := by
  intro s s' c h
  by_cases hc : ∃ a e sl hp, c = .swapRoute a e sl hp
  · obtain ⟨a, e, sl, hp, rfl⟩ := hc
    simp only [step, bind_ok_iff, pure_ok_iff] at h
    obtain ⟨r, h, rfl⟩ := h
    refine route_induction (env := env) hrefl htrans ?_ hp s a r (swapRoute_ok h).1
    intro s key d a l r hr
    refine hcall s r.1 (.swap key d a true l) (by simp) ?_
    simp only [step, bind_ok_iff, pure_ok_iff]
    exact ⟨r, hr, rfl⟩
  · push Not at hc
    exact hcall s s' c hc h

theorem putTicks_eq {s2 : Inv} {key : PoolKey} {t u : Tick} {a b : Bool}
    (h1 : putTick s key t a = .ok s2) (h2 : putTick s2 key u b = .ok s') :
    s' = { s with ticks := s'.ticks, tickmap := s'.tickmap } := by
  obtain ⟨_, _, _, e1⟩ := putTick_ok h1
  obtain ⟨_, _, _, e2⟩ := putTick_ok h2
  rw [e2, e1]

theorem dropTicks_eq {s2 : Inv} {key : PoolKey} {i j : Int} {t u : Tick}
    (h1 : dropTick s key i t = .ok s2) (h2 : dropTick s2 key j u = .ok s') :
    s' = { s with ticks := s'.ticks, tickmap := s'.tickmap } := by
  obtain ⟨_, _, e1⟩ := dropTick_ok h1
  obtain ⟨_, _, e2⟩ := dropTick_ok h2
  rw [e2, e1]

/-- settings changed by a call -/
structure SettingsFrame (env : Env) (s s' : Inv) : Prop where
  admin : s'.admin = s.admin
  fee : s'.protocolFee = s.protocolFee ∨ s.admin = env.caller
  tiers : s'.feeTiers = s.feeTiers ∨ s.admin = env.caller
  awaiting : s'.awaiting = s.awaiting

theorem settings_refl : SettingsFrame env s s := ⟨rfl, .inl rfl, .inl rfl, rfl⟩

theorem settings_trans {a b c : Inv} (h1 : SettingsFrame env a b) (h2 : SettingsFrame env b c) :
    SettingsFrame env a c := by
  refine ⟨h2.admin.trans h1.admin, ?_, ?_, h2.awaiting.trans h1.awaiting⟩
  · rcases h2.fee with e | e
    · rcases h1.fee with e' | e'
      · exact .inl (e.trans e')
      · exact .inr e'
    · exact .inr (h1.admin ▸ e)
  · rcases h2.tiers with e | e
    · rcases h1.tiers with e' | e'
      · exact .inl (e.trans e')
      · exact .inr e'
    · exact .inr (h1.admin ▸ e)

theorem step_settings {c : Call} (h : step env s c = .ok s') : SettingsFrame env s s' := by
  refine step_cases (env := env) (R := SettingsFrame env) (fun _ => settings_refl)
    (fun _ _ _ => settings_trans) ?_ s s' c h
  clear h
  intro s s' c hc h
  cases c with
  | changeProtocolFee f =>
    simp only [step, changeProtocolFee, bind_ok_iff, failIf_ok_iff, pure_ok_iff, ne_eq, not_not] at h
    obtain ⟨_, ⟨_, ha, rfl⟩, rfl⟩ := h
    exact ⟨rfl, .inr ha, .inl rfl, rfl⟩
  | addFeeTier t =>
    simp only [step, addFeeTier, bind_ok_iff, failIf_ok_iff, pure_ok_iff, ne_eq, not_not] at h
    obtain ⟨_, ⟨_, _, _, _, _, ha, _, _, rfl⟩, rfl⟩ := h
    exact ⟨rfl, .inl rfl, .inr ha, rfl⟩
  | removeFeeTier t =>
    simp only [step, removeFeeTier, bind_ok_iff, failIf_ok_iff, pure_ok_iff, ne_eq, not_not] at h
    obtain ⟨_, ⟨_, ha, _, _, rfl⟩, rfl⟩ := h
    exact ⟨rfl, .inl rfl, .inr ha, rfl⟩
  | createPool x y t p i =>
    obtain ⟨_, _, _, _, _, _, _, rfl⟩ := createPool_ok h
    exact ⟨rfl, .inl rfl, .inl rfl, rfl⟩
  | changeFeeReceiver k r =>
    obtain ⟨_, _, _, rfl⟩ := changeFeeReceiver_ok h
    exact ⟨rfl, .inl rfl, .inl rfl, rfl⟩
  | createPosition k l u d a b =>
    simp only [step, bind_ok_iff, pure_ok_iff] at h
    obtain ⟨r, h, rfl⟩ := h
    obtain ⟨_, _, _, _, _, _, _, _, _, _, _, _, _, _, _, h1, h2, _⟩ := createPosition_ok h
    rw [putTicks_eq h1 h2]
    exact ⟨rfl, .inl rfl, .inl rfl, rfl⟩
  | removePosition i =>
    simp only [step, bind_ok_iff, pure_ok_iff] at h
    obtain ⟨r, h, rfl⟩ := h
    obtain ⟨_, _, _, _, _, _, _, _, _, _, _, _, _, _, _, h1, h2, _, _, _, rfl⟩ := removePosition_ok h
    rw [dropTicks_eq h1 h2]
    exact ⟨rfl, .inl rfl, .inl rfl, rfl⟩
  | transferPosition i r =>
    obtain ⟨_, _, _, rfl⟩ := transferPosition_ok h
    exact ⟨rfl, .inl rfl, .inl rfl, rfl⟩
  | swap k d a b l =>
    simp only [step, bind_ok_iff, pure_ok_iff] at h
    obtain ⟨r, h, rfl⟩ := h
    obtain ⟨_, _, _, _, _, _, _, e⟩ := swap_ok h
    rw [e]
    exact ⟨rfl, .inl rfl, .inl rfl, rfl⟩
  | swapRoute a e sl hp => exact absurd rfl (hc a e sl hp)
  | claimFee i =>
    simp only [step, bind_ok_iff, pure_ok_iff] at h
    obtain ⟨r, h, rfl⟩ := h
    obtain ⟨_, _, _, _, _, _, _, _, _, _, _, _, _, _, _, _, rfl⟩ := claimFee_ok h
    exact ⟨rfl, .inl rfl, .inl rfl, rfl⟩
  | withdrawProtocolFee k =>
    simp only [step, bind_ok_iff, pure_ok_iff] at h
    obtain ⟨r, h, rfl⟩ := h
    obtain ⟨_, _, _, _, _, _, _, rfl⟩ := withdrawProtocolFee_ok h
    exact ⟨rfl, .inl rfl, .inl rfl, rfl⟩
  | depositVara =>
    simp only [step, bind_ok_iff, pure_ok_iff] at h
    obtain ⟨r, h, rfl⟩ := h
    obtain ⟨_, _, rfl⟩ := depositVara_ok h
    exact ⟨rfl, .inl rfl, .inl rfl, rfl⟩
  | withdrawVara v =>
    simp only [step, bind_ok_iff, pure_ok_iff] at h
    obtain ⟨r, h, rfl⟩ := h
    obtain ⟨_, e, _⟩ := withdrawVara_ok h
    rw [e]
    exact ⟨rfl, .inl rfl, .inl rfl, rfl⟩

/-- existing pools stay, no others appear, the pool list is unchanged -/
structure PoolsFrame (s s' : Inv) : Prop where
  keys : s'.poolKeys = s.poolKeys
  dom : ∀ k, (s'.pools.get k).isSome = (s.pools.get k).isSome

theorem poolsFrame_refl : PoolsFrame s s := ⟨rfl, fun _ => rfl⟩

theorem poolsFrame_insert {m : Map PoolKey Pool} {k : PoolKey} {p q : Pool} (h : m.get k = some p)
    (k' : PoolKey) : ((m.insert k q).get k').isSome = (m.get k').isSome := by
  rw [Map.get_insert]
  split
  · next e => subst e; rw [h]; rfl
  · rfl

theorem calculateSwap_pool {now : Nat} {key : PoolKey} {d b : Bool} {a l : Nat}
    {r : CalculateSwapResult} (h : calculateSwap s now key d a b l = .ok r) :
    ∃ p, s.pools.get key = some p ∧ r.startSqrtPrice = p.sqrtPrice := by
  simp only [calculateSwap, bind_ok_iff, swapStart, failIf_ok_iff, poolsGet_ok, pure_ok_iff] at h
  obtain ⟨_, ⟨_, _, p, h1, _, _, _, _, rfl⟩, st, _, _, _, rfl⟩ := h
  exact ⟨p, h1, rfl⟩

theorem step_poolsFrame {c : Call} (hne : ∀ x y t p i, c ≠ .createPool x y t p i)
    (h : step env s c = .ok s') : PoolsFrame s s' := by
  have key : (∃ x y t p i, c = .createPool x y t p i) ∨ PoolsFrame s s' := by
    by_cases hr : ∃ a e sl hp, c = .swapRoute a e sl hp
    · obtain ⟨a, e, sl, hp, rfl⟩ := hr
      right
      simp only [step, bind_ok_iff, pure_ok_iff] at h
      obtain ⟨r, h, rfl⟩ := h
      refine route_induction (env := env) (R := PoolsFrame) (fun _ => poolsFrame_refl)
        (fun _ _ _ h1 h2 => ⟨h2.1.trans h1.1, fun k => (h2.2 k).trans (h1.2 k)⟩) ?_ hp s a r
        (swapRoute_ok h).1
      intro s key d a l r hr
      obtain ⟨_, _, _, h1, _, _, _, e⟩ := swap_ok hr
      obtain ⟨p, hp, _⟩ := calculateSwap_pool h1
      rw [e]
      exact ⟨rfl, poolsFrame_insert hp⟩
    · push Not at hr
      cases c with
      | changeProtocolFee f =>
        right
        simp only [step, changeProtocolFee, bind_ok_iff, failIf_ok_iff, pure_ok_iff] at h
        obtain ⟨_, ⟨_, _, rfl⟩, rfl⟩ := h
        exact ⟨rfl, fun _ => rfl⟩
      | addFeeTier t =>
        right
        simp only [step, addFeeTier, bind_ok_iff, failIf_ok_iff, pure_ok_iff] at h
        obtain ⟨_, ⟨_, _, _, _, _, _, _, _, rfl⟩, rfl⟩ := h
        exact ⟨rfl, fun _ => rfl⟩
      | removeFeeTier t =>
        right
        simp only [step, removeFeeTier, bind_ok_iff, failIf_ok_iff, pure_ok_iff] at h
        obtain ⟨_, ⟨_, _, _, _, rfl⟩, rfl⟩ := h
        exact ⟨rfl, fun _ => rfl⟩
      | createPool x y t p i => exact .inl ⟨x, y, t, p, i, rfl⟩
      | changeFeeReceiver k r =>
        right
        obtain ⟨_, _, hp, rfl⟩ := changeFeeReceiver_ok h
        exact ⟨rfl, poolsFrame_insert hp⟩
      | createPosition k l u d a b =>
        right
        simp only [step, bind_ok_iff, pure_ok_iff] at h
        obtain ⟨r, h, rfl⟩ := h
        obtain ⟨_, _, _, _, _, _, _, _, _, hp, _, _, _, _, _, h1, h2, _⟩ := createPosition_ok h
        rw [putTicks_eq h1 h2]
        exact ⟨rfl, poolsFrame_insert hp⟩
      | removePosition i =>
        right
        simp only [step, bind_ok_iff, pure_ok_iff] at h
        obtain ⟨r, h, rfl⟩ := h
        obtain ⟨_, _, _, _, _, _, _, _, _, _, _, _, _, hp, _, h1, h2, _, _, _, rfl⟩ :=
          removePosition_ok h
        rw [dropTicks_eq h1 h2]
        exact ⟨rfl, poolsFrame_insert hp⟩
      | transferPosition i r =>
        right
        obtain ⟨_, _, _, rfl⟩ := transferPosition_ok h
        exact ⟨rfl, fun _ => rfl⟩
      | swap k d a b l =>
        right
        simp only [step, bind_ok_iff, pure_ok_iff] at h
        obtain ⟨r, h, rfl⟩ := h
        obtain ⟨_, _, _, h1, _, _, _, e⟩ := swap_ok h
        obtain ⟨p, hp, _⟩ := calculateSwap_pool h1
        rw [e]
        exact ⟨rfl, poolsFrame_insert hp⟩
      | swapRoute a e sl hp => exact absurd rfl (hr a e sl hp)
      | claimFee i =>
        right
        simp only [step, bind_ok_iff, pure_ok_iff] at h
        obtain ⟨r, h, rfl⟩ := h
        obtain ⟨_, _, _, _, _, _, _, _, _, _, _, hp, _, _, _, _, rfl⟩ := claimFee_ok h
        exact ⟨rfl, poolsFrame_insert hp⟩
      | withdrawProtocolFee k =>
        right
        simp only [step, bind_ok_iff, pure_ok_iff] at h
        obtain ⟨r, h, rfl⟩ := h
        obtain ⟨_, _, _, hp, _, _, _, rfl⟩ := withdrawProtocolFee_ok h
        exact ⟨rfl, poolsFrame_insert hp⟩
      | depositVara =>
        right
        simp only [step, bind_ok_iff, pure_ok_iff] at h
        obtain ⟨r, h, rfl⟩ := h
        obtain ⟨_, _, rfl⟩ := depositVara_ok h
        exact ⟨rfl, fun _ => rfl⟩
      | withdrawVara v =>
        right
        simp only [step, bind_ok_iff, pure_ok_iff] at h
        obtain ⟨r, h, rfl⟩ := h
        obtain ⟨_, e, _⟩ := withdrawVara_ok h
        rw [e]
        exact ⟨rfl, fun _ => rfl⟩
  rcases key with ⟨x, y, t, p, i, e⟩ | h
  · exact absurd e (hne x y t p i)
  · exact h

end Verif
