import Verif.Proofs.CallFrame
import Verif.Props.Collections
import Verif.Spec.Demo

/-!
# C25, C26, C49: who can change what

C25: settings are the admin's, protocol fees the receiver's. C26: nobody touches another user's
balances and positions. C49: a call concerns one pool (a route: the pools it names).
-/

namespace Verif
open Service Spec

variable {env : Env} {s s' : Inv} {c : Call}

/-! ### C25 -/

/-- C25: the admin never changes; protocol fee and fee tiers change only on calls of the admin. -/
theorem C25_settings (h : step env s c = .ok s') :
    s'.admin = s.admin ∧
    (s'.protocolFee ≠ s.protocolFee → env.caller = s.admin) ∧
    (s'.feeTiers ≠ s.feeTiers → env.caller = s.admin) := by
  have f := step_settings h
  exact ⟨f.admin, fun hn => (f.fee.resolve_left hn).symm, fun hn => (f.tiers.resolve_left hn).symm⟩

example : step (Demo.by_ 1) Demo.start (.changeProtocolFee 5) = .ok { Demo.start with protocolFee := 5 } ∧
    (∃ e, step (Demo.by_ 2) Demo.start (.changeProtocolFee 5) = .error e) := by
  constructor
  · rfl
  · exact ⟨.inv .NotAdmin, by rfl⟩

/-- C25: the fee receiver of an existing pool changes only on a call of the admin, to the named
account; a new pool starts with the admin as receiver. -/
theorem C25_receiver (h : step env s c = .ok s') (k : PoolKey) (q : Pool)
    (hq : s'.pools.get k = some q) :
    (∃ p, s.pools.get k = some p ∧ (q.feeReceiver ≠ p.feeReceiver →
      env.caller = s.admin ∧ c = .changeFeeReceiver k q.feeReceiver)) ∨
    (s.pools.get k = none ∧ q.feeReceiver = s.admin ∧
      q.feeProtocolTokenX = 0 ∧ q.feeProtocolTokenY = 0) := by
  by_cases h1 : ∃ k r, c = .changeFeeReceiver k r
  · obtain ⟨k', r, rfl⟩ := h1
    obtain ⟨ha, pool, hp, rfl⟩ := changeFeeReceiver_ok h
    left
    dsimp only at hq
    rw [Map.get_insert] at hq
    split at hq
    · next e =>
      subst e; cases hq
      exact ⟨pool, hp, fun _ => ⟨ha.symm, rfl⟩⟩
    · exact ⟨q, hq, fun hn => absurd rfl hn⟩
  by_cases h2 : ∃ k, c = .withdrawProtocolFee k
  · obtain ⟨k', rfl⟩ := h2
    simp only [step, bind_ok_iff, pure_ok_iff] at h
    obtain ⟨r, h, rfl⟩ := h
    obtain ⟨pool, _, _, hp, _, _, _, rfl⟩ := withdrawProtocolFee_ok h
    left
    dsimp only at hq
    rw [Map.get_insert] at hq
    split at hq
    · next e =>
      subst e; cases hq
      exact ⟨pool, hp, fun hn => absurd rfl hn⟩
    · exact ⟨q, hq, fun hn => absurd rfl hn⟩
  push Not at h1 h2
  have hm := step_poolsMono h1 h2 h
  cases hp : s.pools.get k with
  | some p =>
    obtain ⟨q', hq', g⟩ := hm k p hp
    rw [hq] at hq'; cases hq'
    exact .inl ⟨p, rfl, fun hn => absurd g.receiver hn⟩
  | none =>
    right
    by_cases hc : ∃ x y t p i, c = .createPool x y t p i
    · obtain ⟨x, y, t, p, i, rfl⟩ := hc
      obtain ⟨_, _, _, _, _, pool, h4, rfl⟩ := createPool_ok h
      dsimp only at hq
      rw [Map.get_insert] at hq
      split at hq
      · cases hq
        simp only [Pool.create, bind_ok_iff, unwrap_ok_iff, pure_ok_iff] at h4
        obtain ⟨_, _, _, _, _, _, rfl⟩ := h4
        exact ⟨rfl, rfl, rfl, rfl⟩
      · rw [hp] at hq; cases hq
    · push Not at hc
      have := (step_poolsFrame hc h).2 k
      rw [hp, hq] at this
      simp at this

private theorem bal_eq (b : Balances) (w t : ActorId) : Spec.bal b w t = balOf b w t := by
  unfold Spec.bal balOf
  cases b.get (w, t) <;> rfl

/-- C25: the protocol fees of a pool go down only when its receiver collects them; then they go to
zero and the receiver is credited with exactly the previous amounts. -/
theorem C25_protocol_fees (hr : Reach s) (h : step env s c = .ok s') (k : PoolKey) (p q : Pool)
    (hp : s.pools.get k = some p) (hq : s'.pools.get k = some q)
    (hd : q.feeProtocolTokenX < p.feeProtocolTokenX ∨ q.feeProtocolTokenY < p.feeProtocolTokenY) :
    c = .withdrawProtocolFee k ∧ env.caller = p.feeReceiver ∧
    q.feeProtocolTokenX = 0 ∧ q.feeProtocolTokenY = 0 ∧
    bal s'.balances env.caller k.tokenX = bal s.balances env.caller k.tokenX + p.feeProtocolTokenX ∧
    bal s'.balances env.caller k.tokenY = bal s.balances env.caller k.tokenY + p.feeProtocolTokenY := by
  by_cases h1 : ∃ k r, c = .changeFeeReceiver k r
  · obtain ⟨k', r, rfl⟩ := h1
    obtain ⟨ha, pool, hp', rfl⟩ := changeFeeReceiver_ok h
    dsimp only at hq
    rw [Map.get_insert] at hq
    split at hq
    · next e =>
      subst e; cases hq
      rw [hp'] at hp; cases hp
      dsimp only at hd; omega
    · rw [hp] at hq; cases hq; omega
  by_cases h2 : ∃ k, c = .withdrawProtocolFee k
  · obtain ⟨k', rfl⟩ := h2
    simp only [step, bind_ok_iff, pure_ok_iff] at h
    obtain ⟨r, h, rfl⟩ := h
    obtain ⟨pool, b1, b2, hp', hrc, hb1, hb2, rfl⟩ := withdrawProtocolFee_ok h
    dsimp only at hq
    rw [Map.get_insert] at hq
    split at hq
    · next e =>
      subst e; cases hq
      rw [hp'] at hp; cases hp
      have hlt : k.tokenX < k.tokenY := ((reach_tiers hr).pools k (by rw [hp']; rfl)).2
      have hxy : k.tokenX ≠ k.tokenY := Nat.ne_of_lt hlt
      refine ⟨rfl, hrc.symm, rfl, rfl, ?_, ?_⟩
      · rw [bal_eq, bal_eq, increase_bal hb2, increase_bal hb1]; simp [hxy]
      · rw [bal_eq, bal_eq, increase_bal hb2, increase_bal hb1]; simp [hxy.symm]
    · rw [hp] at hq; cases hq; omega
  push Not at h1 h2
  obtain ⟨q', hq', g⟩ := step_poolsMono h1 h2 h k p hp
  rw [hq] at hq'; cases hq'
  have := g.protoX; have := g.protoY
  omega

example : (Demo.traded.pools.get Demo.key).map (fun p => (p.feeReceiver, p.feeProtocolTokenX)) =
      some (1, 2199) ∧
    ((run (Demo.by_ 1) Demo.traded (.withdrawProtocolFee Demo.key)).pools.get Demo.key).map
      (·.feeProtocolTokenX) = some 0 ∧
    bal (run (Demo.by_ 1) Demo.traded (.withdrawProtocolFee Demo.key)).balances 1 5 = 2199 ∧
    ((run (Demo.by_ 2) Demo.traded (.withdrawProtocolFee Demo.key)).pools.get Demo.key).map
      (·.feeProtocolTokenX) = some 2199 := by decide +kernel

/-- C25 for histories: whatever the calls (failed ones have no effect), the admin is the initial one,
and if none of them is made by the admin then protocol fee, fee tiers and the fee receivers of all
pools are what they were. -/
theorem C25_history (l : List (Env × Call)) (s : Inv) :
    (runAll s l).admin = s.admin ∧
    ((∀ e ∈ l, e.1.caller ≠ s.admin) →
      (runAll s l).protocolFee = s.protocolFee ∧ (runAll s l).feeTiers = s.feeTiers ∧
      ∀ k p, s.pools.get k = some p → ∃ q, (runAll s l).pools.get k = some q ∧
        q.feeReceiver = p.feeReceiver) := by
  induction l generalizing s with
  | nil => exact ⟨rfl, fun _ => ⟨rfl, rfl, fun k p hp => ⟨p, hp, rfl⟩⟩⟩
  | cons ec l ih =>
    obtain ⟨e, c⟩ := ec
    obtain ⟨i1, i2⟩ := ih (run e s c)
    have key : (run e s c).admin = s.admin ∧ (e.caller ≠ s.admin →
        (run e s c).protocolFee = s.protocolFee ∧ (run e s c).feeTiers = s.feeTiers ∧
        ∀ k p, s.pools.get k = some p → ∃ q, (run e s c).pools.get k = some q ∧
          q.feeReceiver = p.feeReceiver) := by
      unfold run
      cases hst : step e s c with
      | error _ => exact ⟨rfl, fun _ => ⟨rfl, rfl, fun k p hp => ⟨p, hp, rfl⟩⟩⟩
      | ok s1 =>
        obtain ⟨a1, a2, a3⟩ := C25_settings hst
        refine ⟨a1, fun hn => ⟨?_, ?_, ?_⟩⟩
        · by_contra hc; exact hn (a2 hc)
        · by_contra hc; exact hn (a3 hc)
        · intro k p hp
          have hex : ∃ q, s1.pools.get k = some q := by
            by_cases hc : ∃ x y t p i, c = .createPool x y t p i
            · obtain ⟨x, y, t, p0, i, rfl⟩ := hc
              obtain ⟨_, _, _, _, _, pool, _, rfl⟩ := createPool_ok hst
              dsimp only
              rw [Map.get_insert]
              split
              · exact ⟨_, rfl⟩
              · exact ⟨p, hp⟩
            · push Not at hc
              have := (step_poolsFrame hc hst).2 k
              rw [hp] at this
              cases hg : s1.pools.get k with
              | none => rw [hg] at this; simp at this
              | some q => exact ⟨q, rfl⟩
          obtain ⟨q, hq⟩ := hex
          refine ⟨q, hq, ?_⟩
          rcases C25_receiver hst k q hq with ⟨p', hp', hne⟩ | ⟨hn', _⟩
          · rw [hp] at hp'; cases hp'
            by_contra hc
            exact hn (hne hc).1
          · rw [hp] at hn'; cases hn'
    refine ⟨i1.trans key.1, ?_⟩
    intro hl
    obtain ⟨k1, k2, k3⟩ := key.2 (hl (e, c) List.mem_cons_self)
    obtain ⟨j1, j2, j3⟩ := i2 (fun x hx => by rw [key.1]; exact hl x (List.mem_cons_of_mem _ hx))
    refine ⟨j1.trans k1, j2.trans k2, ?_⟩
    intro k p hp
    obtain ⟨q, hq, e1⟩ := k3 k p hp
    obtain ⟨q', hq', e2⟩ := j3 k q hq
    exact ⟨q', hq', e2.trans e1⟩

example : (runAll Demo.start [(Demo.by_ 2, .changeProtocolFee 0),
    (Demo.by_ 3, .changeFeeReceiver Demo.key 3)]).protocolFee = 10 ^ 11 := by decide +kernel

/-! ### C26 -/

/-- C26: no call changes any balance of anyone but the caller. -/
theorem C26_balances (h : step env s c = .ok s') (a token : ActorId) (ha : a ≠ env.caller) :
    bal s'.balances a token = bal s.balances a token := by
  unfold Spec.bal
  rw [(step_balOps h).other (k := (a, token)) ha]

/-- C26: the positions of anyone but the caller keep their index and content; only a transfer to `a`
changes the list of `a`, by appending the position which the transferring caller gives away. -/
theorem C26_positions (h : step env s c = .ok s') (a : ActorId) (ha : a ≠ env.caller) :
    (s'.positions.getLength a = s.positions.getLength a ∧
      ∀ i, s'.positions.get a i = s.positions.get a i) ∨
    (∃ i p, c = .transferPosition i a ∧ s.positions.get env.caller i = .ok p ∧
      s'.positions.getLength a = u32Succ (s.positions.getLength a) ∧
      s'.positions.get a (s.positions.getLength a) = .ok p ∧
      ∀ j, j ≠ s.positions.getLength a → s'.positions.get a j = s.positions.get a j) := by
  have lift : ∀ {ps ps' : Positions} {i : Nat}, ps'.map.get (a, i) = ps.map.get (a, i) →
      ps'.get a i = ps.get a i := by
    intro ps ps' i e; unfold Positions.get; rw [e]
  by_cases hc : ∃ x e sl hp, c = .swapRoute x e sl hp
  · obtain ⟨x, e, sl, hp, rfl⟩ := hc
    simp only [step, bind_ok_iff, pure_ok_iff] at h
    obtain ⟨r, h, rfl⟩ := h
    have := route_induction (env := env) (R := fun s s' => s'.positions = s.positions) (fun _ => rfl)
      (fun _ _ _ h1 h2 => h2.trans h1) (fun s key d a l r h => (swap_keyFrame h).2.1) hp s x r
      (swapRoute_ok h).1
    exact .inl (by rw [this]; exact ⟨rfl, fun _ => rfl⟩)
  · push Not at hc
    by_cases ht : ∃ i, c = .transferPosition i a
    · obtain ⟨i, rfl⟩ := ht
      right
      obtain ⟨ps, p, h1, rfl⟩ := transferPosition_ok h
      obtain ⟨g1, g2⟩ := remove_cases h1
      have hl : ps.getLength a = s.positions.getLength a := by
        unfold Positions.getLength
        rw [g1, Map.get_insert, if_neg ha]
      refine ⟨i, p, rfl, remove_get h1, ?_, ?_, ?_⟩
      · show (ps.add a p).getLength a = _
        unfold Positions.add; dsimp only; rw [getLength_insert, if_pos rfl, hl]
      · rw [posGet_ok]
        show (ps.add a p).map.get _ = _
        unfold Positions.add; dsimp only; rw [hl, Map.get_insert, if_pos rfl]
      · intro j hj
        refine lift ?_
        show (ps.add a p).map.get _ = _
        unfold Positions.add; dsimp only
        rw [hl, Map.get_insert, if_neg (by intro e; cases e; exact hj rfl), g2 _ _ ha]
    · left
      by_cases ht2 : ∃ i b, c = .transferPosition i b
      · obtain ⟨i, b, rfl⟩ := ht2
        obtain ⟨ps, p, h1, rfl⟩ := transferPosition_ok h
        obtain ⟨g1, g2⟩ := remove_cases h1
        have hb : a ≠ b := by rintro rfl; exact ht ⟨i, rfl⟩
        refine ⟨?_, fun j => lift ?_⟩
        · show (ps.add b p).getLength a = _
          unfold Positions.add; dsimp only
          rw [getLength_insert, if_neg hb, g1, Map.get_insert, if_neg ha]; rfl
        · show (ps.add b p).map.get _ = _
          unfold Positions.add; dsimp only
          rw [Map.get_insert, if_neg (by intro e; cases e; exact hb rfl), g2 _ _ ha]
      · push Not at ht2
        rcases step_change hc ht2 h with ⟨k, _, _, hp⟩ | ⟨_, _, _, _, hp⟩
        · obtain ⟨e1, e2⟩ := posChange_other hp ha
          exact ⟨e1, fun i => lift (e2 i)⟩
        · rw [hp]; exact ⟨rfl, fun _ => rfl⟩

/-- the owner, in words: account 2 swaps, removes and transfers; nothing of account 3 is touched -/
example : bal (runAll Demo.start [(Demo.by_ 2, .swap Demo.key true (22 * 10 ^ 6) true MIN_SQRT_PRICE),
      (Demo.by_ 2, .removePosition 0)]).balances 3 7 = bal Demo.start.balances 3 7 ∧
    (runAll Demo.start [(Demo.by_ 3, .transferPosition 0 2)]).positions.getLength 2 = 2 ∧
    (runAll Demo.start [(Demo.by_ 3, .transferPosition 0 2)]).positions.get 2 0 =
      Demo.start.positions.get 2 0 := by decide +kernel

/-! ### C49 -/

/-- the pools named by a call -/
def Spec.touched (env : Env) (s : Inv) : Call → List PoolKey
  | .createPool x y t _ _ => [⟨min x y, max x y, t⟩]
  | .changeFeeReceiver k _ => [k]
  | .createPosition k _ _ _ _ _ => [k]
  | .removePosition i => ((s.positions.map.get (env.caller, i)).map (·.poolKey)).toList
  | .swap k _ _ _ _ => [k]
  | .swapRoute _ _ _ hops => hops.map (·.key)
  | .claimFee i => ((s.positions.map.get (env.caller, i)).map (·.poolKey)).toList
  | .withdrawProtocolFee k => [k]
  | _ => []

private theorem touched_key (hc : ∀ a e sl h, c ≠ .swapRoute a e sl h) :
    touched env s c = (callKey env s c).toList := by
  cases c <;> first | rfl | exact absurd rfl (hc _ _ _ _)

/-- a pool's record, ticks and tick map words are the same in both states -/
structure Spec.PoolSame (k : PoolKey) (s s' : Inv) : Prop where
  pool : s'.pools.get k = s.pools.get k
  tick : ∀ i, s'.ticks.get (k, i) = s.ticks.get (k, i)
  word : ∀ c, s'.tickmap.get (c, k) = s.tickmap.get (c, k)

/-- C49: a call leaves the record, the ticks and the tick map of every pool it does not name exactly
as they were. -/
theorem C49_pools (h : step env s c = .ok s') (k : PoolKey) (hk : k ∉ touched env s c) :
    PoolSame k s s' := by
  by_cases hc : ∃ x e sl hp, c = .swapRoute x e sl hp
  · obtain ⟨x, e, sl, hops, rfl⟩ := hc
    simp only [step, bind_ok_iff, pure_ok_iff] at h
    obtain ⟨r, h, rfl⟩ := h
    replace h := (swapRoute_ok h).1
    have hk : k ∉ hops.map (·.key) := hk
    induction hops generalizing s x with
    | nil =>
      simp only [routeSwap, Except.ok.injEq] at h
      subst h
      exact ⟨rfl, fun _ => rfl, fun _ => rfl⟩
    | cons hp t ih =>
      simp only [routeSwap, bind_ok_iff] at h
      obtain ⟨q, h1, h2⟩ := h
      simp only [List.map_cons, List.mem_cons, not_or] at hk
      obtain ⟨f, _⟩ := swap_keyFrame h1
      have i := ih (s := q.1) (x := q.2.amountOut) hk.2 h2 hk.2
      exact ⟨i.pool.trans (f.pool k hk.1), fun j => (i.tick j).trans (f.tick k j hk.1),
        fun c => (i.word c).trans (f.word k c hk.1)⟩
  · push Not at hc
    by_cases ht : ∃ i b, c = .transferPosition i b
    · obtain ⟨i, b, rfl⟩ := ht
      obtain ⟨ps, p, h1, rfl⟩ := transferPosition_ok h
      exact ⟨rfl, fun _ => rfl, fun _ => rfl⟩
    · push Not at ht
      rw [touched_key hc] at hk
      rcases step_change hc ht h with ⟨k', e, f, _⟩ | ⟨_, e1, e2, e3, _⟩
      · rw [e] at hk
        have hk' : k ≠ k' := by simpa using hk
        exact ⟨f.pool k hk', fun i => f.tick k i hk', fun c => f.word k c hk'⟩
      · exact ⟨by rw [e1], fun i => by rw [e2], fun c => by rw [e3]⟩

private theorem filter_swapRemove {l : List Position} {i : Nat} {p : Position} (hp : l[i]? = some p)
    {f : Position → Bool} (hf : f p = false) :
    ((swapRemove l i).filter f).Perm (l.filter f) := by
  obtain ⟨hi, e⟩ := List.getElem?_eq_some_iff.1 hp
  have := (swapRemove_perm hi).filter f
  rw [e, List.filter_cons, if_neg (by rw [hf]; simp)] at this
  exact this

private theorem filter_set {l : List Position} {i : Nat} {p q : Position} (hp : l[i]? = some p)
    {f : Position → Bool} (hf : f p = false) (hq : f q = false) :
    (l.set i q).filter f = l.filter f := by
  induction l generalizing i with
  | nil => simp
  | cons x l ih =>
    cases i with
    | zero =>
      simp only [List.getElem?_cons_zero, Option.some.injEq] at hp
      subst hp
      simp [hf, hq]
    | succ i =>
      simp only [List.getElem?_cons_succ] at hp
      simp only [List.set_cons_succ, List.filter_cons, ih hp]

/-- C49: and it leaves every owner's positions in such a pool alone (their order in the owner's list
may change when one of their positions in another pool is removed). `L` is the list of positions of
every owner, none of which has reached `2 ^ 32 - 1` entries. -/
theorem C49_positions {L : Lists} (hL : PosRepr s.positions L) (hlen : ∀ a, (L a).length + 1 < 2 ^ 32)
    (ht : ∀ i b, c ≠ .transferPosition i b) (h : step env s c = .ok s') :
    ∃ L', PosRepr s'.positions L' ∧ ∀ k, k ∉ touched env s c → ∀ a,
      ((L' a).filter (fun p => decide (p.poolKey = k))).Perm
        ((L a).filter (fun p => decide (p.poolKey = k))) := by
  by_cases hc : ∃ x e sl hp, c = .swapRoute x e sl hp
  · obtain ⟨x, e, sl, hp, rfl⟩ := hc
    simp only [step, bind_ok_iff, pure_ok_iff] at h
    obtain ⟨r, h, rfl⟩ := h
    have := route_induction (env := env) (R := fun s s' => s'.positions = s.positions) (fun _ => rfl)
      (fun _ _ _ h1 h2 => h2.trans h1) (fun s key d a l r h => (swap_keyFrame h).2.1) hp s x r
      (swapRoute_ok h).1
    exact ⟨L, by rw [this]; exact hL, fun _ _ _ => .refl _⟩
  · push Not at hc
    rw [touched_key hc]
    have main : ∀ k, PosChange env.caller k s.positions s'.positions →
        ∃ L', PosRepr s'.positions L' ∧ ∀ q, q ≠ k → ∀ a,
          ((L' a).filter (fun p => decide (p.poolKey = q))).Perm
            ((L a).filter (fun p => decide (p.poolKey = q))) := by
      intro k hp
      have perm_put : ∀ (l : List Position) q, (l.filter (fun p => decide (p.poolKey = q))).Perm
          ((L env.caller).filter (fun p => decide (p.poolKey = q))) → ∀ a,
          ((L.put env.caller l a).filter (fun p => decide (p.poolKey = q))).Perm
            ((L a).filter (fun p => decide (p.poolKey = q))) := by
        intro l q hl a
        by_cases ha : a = env.caller
        · subst ha; rw [put_same]; exact hl
        · rw [put_other _ _ ha]
      generalize hps : s'.positions = ps' at hp ⊢
      cases hp with
      | same => exact ⟨L, hL, fun _ _ _ => .refl _⟩
      | @add p hpk =>
        refine ⟨_, posRepr_add hL (hlen _) p, fun q hq => perm_put _ q ?_⟩
        have hn : ¬ (p.poolKey = q) := by rw [hpk]; exact hq.symm
        rw [List.filter_append]
        simp [hn]
      | @upd i p p' _ hg hpk hpk' _ _ _ hu =>
        have hg' : (L env.caller)[i]? = some p := by
          rw [posRepr_get hL, okOr_ok_iff] at hg; exact hg
        obtain ⟨ps2, h1, h2⟩ := (posRepr_update hL env.caller i p').1
          (List.getElem?_eq_some_iff.1 hg').1
        rw [hu] at h1; cases h1
        refine ⟨_, h2, fun q hq => perm_put _ q ?_⟩
        rw [filter_set hg' (by simp [hpk, hq.symm]) (by simp [hpk', hq.symm])]
      | @rem i p _ hpk hr =>
        have hg' : (L env.caller)[i]? = some p := by
          have := remove_get hr
          rw [posRepr_get hL, okOr_ok_iff] at this; exact this
        obtain ⟨ps2, h1, h2⟩ := (posRepr_remove hL (Nat.lt_of_succ_lt (hlen env.caller)) i).1 p hg'
        rw [hr] at h1; cases h1
        exact ⟨_, h2, fun q hq => perm_put _ q (filter_swapRemove hg' (by simp [hpk, hq.symm]))⟩
    rcases step_change hc ht h with ⟨k', e, _, hp⟩ | ⟨e, _, _, _, hp⟩
    · obtain ⟨L', h1, h2⟩ := main k' hp
      refine ⟨L', h1, fun k hk => h2 k ?_⟩
      rw [e] at hk
      simpa using hk
    · exact ⟨L, by rw [hp]; exact hL, fun _ _ _ => .refl _⟩

example : (Demo.traded.pools.get Demo.key2) = (Demo.start.pools.get Demo.key2) ∧
    (Demo.traded.pools.get Demo.key) ≠ (Demo.start.pools.get Demo.key) ∧
    (touched (Demo.by_ 3) Demo.start (.removePosition 1)) = [Demo.key2] := by decide +kernel

end Verif
