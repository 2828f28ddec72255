import Verif.Spec.Parts
import Verif.Proofs.Parts
import Verif.Props.Unseen

/-!
# C92: a position in two parts is worth the same, and nobody else notices
-/

set_option exponentiation.threshold 1000

namespace Verif
open Service Spec Twin

namespace Parts

variable {o : ActorId} {s t : Inv} {e : Env} {c : Call}

/-- two changes of a tick and one -/
theorem tick {t t0 t1 t2 u : Tick} {L M a b d : Nat} {up dep : Bool} (h0 : SameTick t t0) (h1 : TickUpd t0 t1 L a up dep)
    (h2 : TickUpd t1 t2 M b up dep) (h : TickUpd t u (L + M) d up dep) :
    SameTick u t2 ∧ t2.liquidityGross = u.liquidityGross := by
  have g0 : t0.liquidityGross = t.liquidityGross := by rw [h0.1]
  have hn : t2.net = u.net := by
    have n0 : t0.net = t.net := h0.2
    rw [h2.net, h1.net, h.net, n0]
    split <;> push_cast <;> ring
  have hg : t2.liquidityGross = u.liquidityGross := by
    cases dep
    · have := h1.wdr rfl; have := h2.wdr rfl; have := h.wdr rfl; omega
    · have := h1.dep rfl; have := h2.dep rfl; have := h.dep rfl; omega
  have hc : t2.liquidityChange = u.liquidityChange := by
    unfold Tick.net at hn
    cases hs : t2.sign <;> cases hs' : u.sign <;> simp [hs, hs'] at hn <;> omega
  refine ⟨⟨?_, hn⟩, hg⟩
  have e0 := h0.1
  have e1 := h1.eq
  have e2 := h2.eq
  have e := h.eq
  rw [hc, hg] at e2
  rw [e2, e1, e0, e]

/-- two changes of the liquidity of a pool and one -/
theorem pool {p p0 p1 p2 q : Pool} {L M x y x1 y1 x2 y2 n n1 n2 : Nat} {u l : Int} {sg : Bool} (h0 : SamePool p p0)
    (h1 : PoolUpd { p0 with lastTimestamp := n1 } p1 L sg u l x1 y1)
    (h2 : PoolUpd { p1 with lastTimestamp := n2 } p2 M sg u l x2 y2)
    (h : PoolUpd { p with lastTimestamp := n } q (L + M) sg u l x y) : SamePool q p2 := by
  have e1 := h1.eq
  have e2 := h2.eq
  have e := h.eq
  unfold SamePool at h0
  have t0 : p0.currentTickIndex = p.currentTickIndex := by rw [h0]
  have l0 : p0.liquidity = p.liquidity := by rw [h0]
  have t1 : p1.currentTickIndex = p0.currentTickIndex := by rw [e1]
  have el : p2.liquidity = q.liquidity := by
    by_cases hi : l ≤ p.currentTickIndex ∧ p.currentTickIndex < u
    · have hi0 : l ≤ p0.currentTickIndex ∧ p0.currentTickIndex < u := by rw [t0]; exact hi
      have hi' : l ≤ p1.currentTickIndex ∧ p1.currentTickIndex < u := by rw [t1]; exact hi0
      cases sg
      · have := h1.sub rfl hi0.1 hi0.2; have := h2.sub rfl hi'.1 hi'.2; have := h.sub rfl hi.1 hi.2
        dsimp only at *; omega
      · have := h1.add rfl hi0.1 hi0.2; have := h2.add rfl hi'.1 hi'.2; have := h.add rfl hi.1 hi.2
        dsimp only at *; omega
    · have hi0 : ¬ (l ≤ p0.currentTickIndex ∧ p0.currentTickIndex < u) := by rw [t0]; exact hi
      have hi' : ¬ (l ≤ p1.currentTickIndex ∧ p1.currentTickIndex < u) := by rw [t1]; exact hi0
      have := h1.out hi0; have := h2.out hi'; have := h.out hi
      dsimp only at *; omega
  unfold SamePool
  rw [el] at e2
  rw [e2, e1, h0, e]

/-- the amounts of two deposits and of one -/
theorem deposit {t l u : Int} {p L M x y x1 y1 x2 y2 : Nat} {i i1 i2 : Bool}
    (h1 : calculateAmountDelta t p L true u l = .ok (x1, y1, i1))
    (h2 : calculateAmountDelta t p M true u l = .ok (x2, y2, i2))
    (h : calculateAmountDelta t p (L + M) true u l = .ok (x, y, i)) :
    x ≤ x1 + x2 + 1 ∧ x1 + x2 ≤ x + 1 ∧ y ≤ y1 + y2 ∧ y1 + y2 ≤ y + 1 := by
  obtain ⟨pl, pu, hl, hu, -, rfl, rfl, -⟩ := calculateAmountDelta_ok h
  obtain ⟨pl', pu', hl', hu', -, rfl, rfl, -⟩ := calculateAmountDelta_ok h1
  rw [hl] at hl'; cases hl'
  rw [hu] at hu'; cases hu'
  obtain ⟨pl', pu', hl', hu', -, rfl, rfl, -⟩ := calculateAmountDelta_ok h2
  rw [hl] at hl'; cases hl'
  rw [hu] at hu'; cases hu'
  simp only [dxR_true, dyR_true]
  have a := dxUp_parts (clampPrice t l u p pl pu) pu L M
  have b := dyUp_parts pl (clampPrice t l u p pl pu) L M
  exact ⟨a.1, a.2, b.1, b.2⟩

/-- the amounts of two withdrawals and of one -/
theorem withdrawal {t l u : Int} {p L M x y x1 y1 x2 y2 : Nat} {i i1 i2 : Bool}
    (h1 : calculateAmountDelta t p L false u l = .ok (x1, y1, i1))
    (h2 : calculateAmountDelta t p M false u l = .ok (x2, y2, i2))
    (h : calculateAmountDelta t p (L + M) false u l = .ok (x, y, i)) :
    x1 + x2 ≤ x ∧ x ≤ x1 + x2 + 1 ∧ y1 + y2 ≤ y ∧ y ≤ y1 + y2 + 1 := by
  obtain ⟨pl, pu, hl, hu, -, rfl, rfl, -⟩ := calculateAmountDelta_ok h
  obtain ⟨pl', pu', hl', hu', -, rfl, rfl, -⟩ := calculateAmountDelta_ok h1
  rw [hl] at hl'; cases hl'
  rw [hu] at hu'; cases hu'
  obtain ⟨pl', pu', hl', hu', -, rfl, rfl, -⟩ := calculateAmountDelta_ok h2
  rw [hl] at hl'; cases hl'
  rw [hu] at hu'; cases hu'
  simp only [dxR_false, dyR_false]
  have a := dxDown_parts (clampPrice t l u p pl pu) pu L M
  have b := dyDown_parts pl (clampPrice t l u p pl pu) L M
  exact ⟨a.1, a.2, b.1, b.2⟩

theorem flip {bb v : Bool} {tm tm1 tm2 : Tickmap} {j : Int} {k : PoolKey} (h1 : flipIf bb tm v j k tm1)
    (h2 : flipIf bb tm v j k tm2) : tm2 = tm1 := by
  cases bb
  · rw [h1.2 rfl, h2.2 rfl]
  · have := h1.1 rfl
    rw [h2.1 rfl] at this
    exact Except.ok.inj this

theorem debit_others {b : Balances} {t who : ActorId} {n : Nat} {r : Balances × Nat}
    (h : decreaseTokenBalance b t who (some n) = .ok r) {a : ActorId} (ha : a ≠ who) (k : ActorId) :
    r.1.get (a, k) = b.get (a, k) := by
  have hne : (a, k) ≠ (who, t) := fun h => ha (Prod.mk.inj h).1
  rcases decrease_some_ok.1 h with ⟨-, rfl⟩ | ⟨-, v, -, -, rfl⟩
  · rfl
  · dsimp only
    split
    · rw [Map.get_erase_ne _ hne]
    · rw [Map.get_insert_ne _ _ hne]

/-- both debits of a deposit -/
theorem debits {b : Balances} {tx ty who : ActorId} {x y : Nat} {r q : Balances × Nat} (hne : tx ≠ ty)
    (h1 : decreaseTokenBalance b tx who (some x) = .ok r) (h2 : decreaseTokenBalance r.1 ty who (some y) = .ok q) :
    bal b who tx = bal q.1 who tx + x ∧ bal b who ty = bal q.1 who ty + y := by
  have e : ∀ (b : Balances) (w t : ActorId), bal b w t = balOf b w t := by
    intro b w t
    unfold bal balOf
    cases b.get (w, t) <;> rfl
  simp only [e]
  have a1 := (decrease_bal h1 who tx).1
  have a2 := (decrease_bal h1 who ty).1
  have a3 := (decrease_bal h2 who tx).1
  have a4 := (decrease_bal h2 who ty).1
  rw [if_pos ⟨rfl, rfl⟩] at a1 a4
  rw [if_neg fun h => hne h.2.symm] at a2
  rw [if_neg fun h => hne h.2] at a3
  omega

theorem add_get {ps : Positions} {a : ActorId} {p : Position} {x : ActorId} {j : Nat} :
    (ps.add a p).get x j = if x = a ∧ j = ps.getLength a then .ok p else ps.get x j := by
  unfold Positions.add Positions.get
  dsimp only
  rw [Map.get_insert]
  by_cases h : x = a ∧ j = ps.getLength a
  · rw [if_pos h, if_pos (by rw [h.1, h.2])]; rfl
  · rw [if_neg h, if_neg (fun e => h (Prod.mk.inj e))]

end Parts

variable {s a b₁ b : Inv} {e e₁ e₂ : Env} {key : PoolKey} {lower upper : Int} {L₁ L₂ ll lu ll₁ lu₁ ll₂ lu₂ : Nat}
  {p p₁ p₂ : Position}

/-- C92, the deposit: a deposit made in two parts costs the same up to one unit of each token, never less of Y, and the
two states are the same for everybody else. -/
theorem C92_deposit (hr : Reach s) (hn : s.positions.getLength e.caller + 1 < 2 ^ 32)
    (h : createPosition e s key lower upper (L₁ + L₂) ll lu = .ok (a, p))
    (h₁ : createPosition e₁ s key lower upper L₁ ll₁ lu₁ = .ok (b₁, p₁))
    (h₂ : createPosition e₂ b₁ key lower upper L₂ ll₂ lu₂ = .ok (b, p₂)) (c₁ : e₁.caller = e.caller)
    (c₂ : e₂.caller = e.caller) (hnow : e₁.now = e.now) :
    Halves e.caller a b (s.positions.getLength e.caller) (s.positions.getLength e.caller)
        (s.positions.getLength e.caller + 1) ∧
      bal a.balances e.caller key.tokenX ≤ bal b.balances e.caller key.tokenX + 1 ∧
      bal b.balances e.caller key.tokenX ≤ bal a.balances e.caller key.tokenX + 1 ∧
      bal b.balances e.caller key.tokenY ≤ bal a.balances e.caller key.tokenY ∧
      bal a.balances e.caller key.tokenY ≤ bal b.balances e.caller key.tokenY + 1 := by
  have hw := reach_wf s hr
  have hr₁ : Reach b₁ := by
    refine .call hr (env := e₁) (c := .createPosition key lower upper L₁ ll₁ lu₁) ?_
    show (do let r ← createPosition e₁ s key lower upper L₁ ll₁ lu₁; pure r.1) = Except.ok b₁
    rw [h₁]; rfl
  have hw₁ := reach_wf b₁ hr₁
  obtain ⟨pool, lt, ut, m, bl, tm1, tm2, E, ep, -, -, bx, by_, d1, d2, rfl⟩ := createPosition_full hw.indexed h
  obtain ⟨pool', lt', ut', m₁, bl', tm1', tm2', E₁, ep₁, -, -, bx', by', d1', d2', rfl⟩ :=
    createPosition_full hw.indexed h₁
  obtain ⟨pool'', lt'', ut'', m₂, bl'', tm1'', tm2'', E₂, ep₂, -, -, bx'', by'', d1'', d2'', rfl⟩ :=
    createPosition_full hw₁.indexed h₂
  dsimp only at E E₁ E₂ ep ep₁ ep₂
  have q1 := E₁.hpool
  rw [E.hpool] at q1; cases q1
  have q2 := E₁.hlt
  rw [hnow, E.hlt] at q2; cases q2
  have q3 := E₁.hut
  rw [hnow, E.hut] at q3; cases q3
  have hne := E.ne
  have q4 := E₂.hpool
  rw [E₁.res] at q4
  dsimp only at q4
  rw [Map.get_insert_self] at q4; cases q4
  have gl : b₁.ticks.get (key, lower) = some m₁.lower := by
    rw [E₁.res]; dsimp only
    rw [Map.get_insert_ne _ _ (fun h => hne (Prod.mk.inj h).2), Map.get_insert_self]
  have gu : b₁.ticks.get (key, upper) = some m₁.upper := by
    rw [E₁.res]; dsimp only
    rw [Map.get_insert_self]
  have q5 : lt'' = (m₁.lower, false) := by
    rcases getOrCreateTick_ok.1 E₂.hlt with ⟨t, ht, rfl⟩ | ⟨ht, -⟩
    · rw [gl] at ht; cases ht; rfl
    · rw [gl] at ht; cases ht
  have q6 : ut'' = (m₁.upper, false) := by
    rcases getOrCreateTick_ok.1 E₂.hut with ⟨t, ht, rfl⟩ | ⟨ht, -⟩
    · rw [gu] at ht; cases ht; rfl
    · rw [gu] at ht; cases ht
  subst q5; subst q6
  have hm := E.mod
  have hm₁ := E₁.mod
  have hm₂ := E₂.mod
  dsimp only at hm₂
  have pe := hm₁.pool.eq
  obtain ⟨tl, tl'⟩ := Parts.tick ⟨rfl, rfl⟩ hm₁.lower hm₂.lower hm.lower
  obtain ⟨tu, tu'⟩ := Parts.tick ⟨rfl, rfl⟩ hm₁.upper hm₂.upper hm.upper
  have hP : SamePool m.pool m₂.pool := by
    have h2 := hm₂.pool
    rw [hm₁.lower.index, hm₁.upper.index] at h2
    exact Parts.pool (by unfold SamePool; rfl) hm₁.pool h2 hm.pool
  have f1 : tm1'' = b₁.tickmap := E₂.flip1.2 rfl
  have f2 : tm2'' = tm1'' := E₂.flip2.2 rfl
  have f3 : tm1' = tm1 := Parts.flip E.flip1 E₁.flip1
  have f4 : tm2' = tm2 := by
    have := E₁.flip2
    rw [f3] at this
    exact Parts.flip E.flip2 this
  have f5 : tm2'' = tm2 := by rw [f2, f1, E₁.res]; exact f4
  have tne := poolKey_ne hr E.hpool
  rw [c₁] at d1' d2'
  rw [c₂, E₁.res] at d1''
  rw [c₂] at d2''
  dsimp only at d1'' d2''
  obtain ⟨b1, b2⟩ := Parts.debits tne d1 d2
  obtain ⟨b3, b4⟩ := Parts.debits tne d1' d2'
  obtain ⟨b5, b6⟩ := Parts.debits tne d1'' d2''
  obtain ⟨i, hi⟩ := hm.pool.amounts
  obtain ⟨i₁, hi₁⟩ := hm₁.pool.amounts
  obtain ⟨i₂, hi₂⟩ := hm₂.pool.amounts
  dsimp only at hi hi₁ hi₂
  have hi₂ : calculateAmountDelta pool.currentTickIndex pool.sqrtPrice L₂ true ut.1.index lt.1.index =
      .ok (m₂.amountX, m₂.amountY, i₂) := by
    rw [hm₁.lower.index, hm₁.upper.index, pe] at hi₂
    exact hi₂
  obtain ⟨k1, k2, k3, k4⟩ := Parts.deposit hi₁ hi₂ hi
  have ebal : b₁.balances = by'.1 := by rw [E₁.res]
  have lenb : b₁.positions.getLength e.caller = s.positions.getLength e.caller + 1 := by
    rw [E₁.res, c₁]
    show ((s.positions.length.insert e.caller (u32Succ (s.positions.getLength e.caller))).get e.caller).getD 0 = _
    rw [Map.get_insert_self]
    exact u32Succ_eq hn
  refine ⟨⟨⟨?_, ?_, ?_, ?_, ?_, ?_, ?_, ?_, ?_, ?_, ?_⟩, by omega, m.position, m₁.position, m₂.position, ?_, ?_, ?_, ?_, ?_, ?_⟩,
    ?_, ?_, ?_, ?_⟩
  · rw [E₂.res, E.res, E₁.res]
  · rw [E₂.res, E.res, E₁.res]
  · rw [E₂.res, E.res, E₁.res]
  · rw [E₂.res, E.res, E₁.res]
  · intro k; rw [E₂.res, E.res, E₁.res]
  · intro k
    rw [E₂.res, E.res, E₁.res]
    dsimp only
    simp only [Map.get_insert]
    split
    · exact .some hP
    · cases s.pools.get k with
      | none => exact .none
      | some p => exact .some rfl
  · intro k
    rw [E₂.res, E.res, E₁.res]
    dsimp only
    simp only [Map.get_insert]
    split
    · exact .some tu
    · split
      · exact .some tl
      · cases s.ticks.get k with
        | none => exact .none
        | some t => exact .some ⟨rfl, rfl⟩
  · intro k; rw [E₂.res, E.res]; dsimp only; rw [f5]
  · intro x hx
    rw [E₂.res, E.res, E₁.res, c₁, c₂]
    show ((Map.insert _ _ _).get x).getD 0 = ((Map.insert _ _ _).get x).getD 0
    rw [Map.get_insert_ne _ _ hx, Map.get_insert_ne _ _ hx]
    show ((Map.insert _ _ _).get x).getD 0 = _
    rw [Map.get_insert_ne _ _ hx]
  · intro x hx j
    rw [E₂.res, E.res, E₁.res, c₁, c₂]
    dsimp only
    simp only [Parts.add_get, hx, false_and, if_false]
  · intro x hx k
    rw [E₂.res, E.res]
    dsimp only
    rw [Parts.debit_others d2'' hx, Parts.debit_others d1'' hx, Parts.debit_others d2' hx, Parts.debit_others d1' hx,
      Parts.debit_others d2 hx, Parts.debit_others d1 hx]
  · rw [E.res]; dsimp only; rw [Parts.add_get, if_pos ⟨rfl, rfl⟩]
  · rw [E₂.res]; dsimp only
    rw [c₂, Parts.add_get, if_neg (by rw [lenb]; omega), E₁.res, c₁]
    dsimp only
    rw [Parts.add_get, if_pos ⟨rfl, rfl⟩]
  · rw [E₂.res]; dsimp only
    rw [c₂, Parts.add_get, if_pos ⟨rfl, lenb.symm⟩]
  · unfold PartOf
    have x1 := hm.pos.owedX
    have x2 := hm.pos.owedY
    have y1 := hm₁.pos.owedX
    have y2 := hm₁.pos.owedY
    have e1 := hm.pos.eq
    have e2 := hm₁.pos.eq
    simp only [Nat.mul_zero, Nat.zero_div, Nat.add_zero] at x1 x2 y1 y2
    rw [x1, x2] at e1
    rw [y1, y2] at e2
    rw [e1, e2]
  · unfold PartOf
    have x1 := hm.pos.owedX
    have x2 := hm.pos.owedY
    have y1 := hm₂.pos.owedX
    have y2 := hm₂.pos.owedY
    have e1 := hm.pos.eq
    have e2 := hm₂.pos.eq
    simp only [Nat.mul_zero, Nat.zero_div, Nat.add_zero] at x1 x2 y1 y2
    rw [x1, x2] at e1
    rw [y1, y2, hm₁.lower.index, hm₁.upper.index, hm₁.lower.outX, hm₁.upper.outX, hm₁.lower.outY, hm₁.upper.outY, pe] at e2
    rw [e1, e2]
  · have x1 := (hm.pos.add rfl).1
    have x2 := (hm₁.pos.add rfl).1
    have x3 := (hm₂.pos.add rfl).1
    dsimp only at x1 x2 x3
    omega
  · rw [E.res, E₂.res]; dsimp only; omega
  · rw [E.res, E₂.res]; dsimp only; omega
  · rw [E.res, E₂.res]; dsimp only; omega
  · rw [E.res, E₂.res]; dsimp only; omega

variable {o : ActorId} {t t₁ t₂ s' : Inv} {i j k : Nat}

namespace Parts

theorem samePool_symm {p q : Pool} (h : SamePool p q) : SamePool q p := by
  unfold SamePool at h ⊢
  rw [h]

theorem samePool_trans {p q r : Pool} (h : SamePool p q) (h' : SamePool q r) : SamePool p r := by
  unfold SamePool at h h' ⊢
  rw [h', h]

theorem sameTick_symm {p q : Tick} (h : SameTick p q) : SameTick q p := by
  refine ⟨?_, h.2.symm⟩
  rw [h.1]

theorem sameTick_trans {p q r : Tick} (h : SameTick p q) (h' : SameTick q r) : SameTick p r := by
  refine ⟨?_, h'.2.trans h.2⟩
  rw [h'.1, h.1]

theorem rel_symm {α : Type} {R : α → α → Prop} (hR : ∀ x y, R x y → R y x) {x y : Option α} (h : Option.Rel R x y) :
    Option.Rel R y x := by
  cases h with
  | none => exact .none
  | some h => exact .some (hR _ _ h)

theorem rel_trans {α : Type} {R : α → α → Prop} (hR : ∀ x y z, R x y → R y z → R x z) {x y z : Option α}
    (h : Option.Rel R x y) (h' : Option.Rel R y z) : Option.Rel R x z := by
  cases h with
  | none => exact h'
  | some h =>
    cases h' with
    | some h' => exact .some (hR _ _ _ h h')

theorem others_symm (h : SameForOthers o s t) : SameForOthers o t s where
  admin := h.admin.symm
  protocolFee := h.protocolFee.symm
  feeTiers := h.feeTiers.symm
  poolKeys := h.poolKeys.symm
  awaiting := fun k => (h.awaiting k).symm
  pool := fun k => rel_symm (fun _ _ => samePool_symm) (h.pool k)
  tick := fun k => rel_symm (fun _ _ => sameTick_symm) (h.tick k)
  word := fun k => (h.word k).symm
  length := fun a ha => (h.length a ha).symm
  position := fun a ha i => (h.position a ha i).symm
  balance := fun a ha k => (h.balance a ha k).symm

theorem others_trans {u : Inv} (h : SameForOthers o s t) (h' : SameForOthers o t u) : SameForOthers o s u where
  admin := h'.admin.trans h.admin
  protocolFee := h'.protocolFee.trans h.protocolFee
  feeTiers := h'.feeTiers.trans h.feeTiers
  poolKeys := h'.poolKeys.trans h.poolKeys
  awaiting := fun k => (h'.awaiting k).trans (h.awaiting k)
  pool := fun k => rel_trans (R := SamePool) (fun _ _ _ h h' => samePool_trans h h') (h.pool k) (h'.pool k)
  tick := fun k => rel_trans (R := SameTick) (fun _ _ _ h h' => sameTick_trans h h') (h.tick k) (h'.tick k)
  word := fun k => (h'.word k).trans (h.word k)
  length := fun a ha => (h'.length a ha).trans (h.length a ha)
  position := fun a ha i => (h'.position a ha i).trans (h.position a ha i)
  balance := fun a ha k => (h'.balance a ha k).trans (h.balance a ha k)

theorem partOf {p q : Position} (h1 : q.poolKey = p.poolKey) (h2 : q.lowerTickIndex = p.lowerTickIndex)
    (h3 : q.upperTickIndex = p.upperTickIndex) (h4 : q.feeGrowthInsideX = p.feeGrowthInsideX)
    (h5 : q.feeGrowthInsideY = p.feeGrowthInsideY) (h6 : q.tokensOwedX = p.tokensOwedX)
    (h7 : q.tokensOwedY = p.tokensOwedY) : PartOf p q := by
  unfold PartOf
  rw [← h1, ← h2, ← h3, ← h4, ← h5, ← h6, ← h7]

theorem flip_like {bb v : Bool} {x y x' y' : Tickmap} {j : Int} {k : PoolKey} (h : ∀ k, y.get k = x.get k)
    (h1 : flipIf bb x v j k x') (h2 : flipIf bb y v j k y') : ∀ k, y'.get k = x'.get k := by
  cases bb
  · rw [h1.2 rfl, h2.2 rfl]; exact h
  · have hl : MapLike (fun z : Nat × PoolKey => True) id Eq x y := by
      intro z _
      show Option.Rel Eq (x.get z) (y.get z)
      rw [h z]
      cases x.get z with
      | none => exact .none
      | some v => exact .some rfl
    have h3 := flip_sim (T := .all) (K := fun _ => True) (.of_like hl) (k := k) trivial (v := v) (i := j) (spacing := k.feeTier.tickSpacing)
    rw [h1.1 rfl, h2.1 rfl] at h3
    intro z
    cases h3 with
    | ok h3 =>
      have h4 : Option.Rel Eq (x'.get z) (y'.get z) := h3.2 trivial z trivial
      revert h4
      generalize x'.get z = a
      generalize y'.get z = b
      intro h4
      cases h4 with
      | none => rfl
      | some h4 => rw [h4]

theorem credit_others {b c : Balances} {t who : ActorId} {n : Nat} (h : increaseTokenBalance b t who n = .ok c)
    {a : ActorId} (ha : a ≠ who) (k : ActorId) : c.get (a, k) = b.get (a, k) := by
  rcases increase_ok.1 h with ⟨-, rfl⟩ | ⟨-, -, rfl⟩
  · rfl
  · rw [Map.get_insert_ne]
    exact fun h => ha (Prod.mk.inj h).1

theorem remove_others {ps ps' : Positions} {a : ActorId} {i : Nat} {p : Position} (h : ps.remove a i = .ok (ps', p))
    {x : ActorId} (hx : x ≠ a) : ps'.getLength x = ps.getLength x ∧ ∀ j, ps'.get x j = ps.get x j := by
  unfold Positions.remove Positions.removeAt at h
  simp only [bind_ok_iff, pure_ok_iff] at h
  obtain ⟨q, -, z, ⟨m, hm, rfl⟩, e⟩ := h
  cases e
  have hne : ∀ j n : Nat, (x, j) ≠ (a, n) := fun j n e => hx (Prod.mk.inj e).1
  refine ⟨?_, fun j => ?_⟩
  · show ((Map.insert _ _ _).get x).getD 0 = _
    rw [Map.get_insert_ne _ _ hx]
    rfl
  · unfold Positions.get
    dsimp only
    have : m.get (x, j) = ps.map.get (x, j) := by
      rw [ite_ok_iff] at hm
      rcases hm with ⟨-, hm⟩ | ⟨-, hm⟩
      · simp only [bind_ok_iff, pure_ok_iff] at hm
        obtain ⟨l, -, rfl⟩ := hm
        rw [Map.get_insert_ne _ _ (hne _ _), Map.get_erase_ne _ (hne _ _)]
      · simp only [pure_ok_iff] at hm
        subst hm
        rw [Map.get_erase_ne _ (hne _ _)]
    rw [this]

theorem fees_parts (g L M d : Nat) : g * L / d + g * M / d ≤ g * (L + M) / d ∧
    g * (L + M) / d ≤ g * L / d + g * M / d + 1 := by
  rw [Nat.mul_add]
  exact floor_parts _ _ _

end Parts

/-- C92, in between: whatever others do, the two states stay the same for them, and the parts stay parts. -/
theorem C92_history (hr : Reach s) (h : Halves o s t i j k) {l : List (Env × Call)}
    (ho : ∀ m ∈ l, o ∉ parties m.1 m.2) : Halves o (runAll s l) (runAll t l) i j k := by
  refine ⟨others_history hr h.others ho, h.ne, ?_⟩
  simp only [others_own_pos ho]
  exact h.parts

/-- C92, the fees: claims for both parts pay what a claim for the whole pays, or one unit less, and leave two parts. -/
theorem C92_claim {x y x₁ y₁ x₂ y₂ : Nat} (hr : Reach s) (hr' : Reach t) (h : Halves o s t i j k)
    (h0 : claimFee e s i = .ok (s', x, y)) (h1 : claimFee e₁ t j = .ok (t₁, x₁, y₁))
    (h2 : claimFee e₂ t₁ k = .ok (t₂, x₂, y₂)) (c : e.caller = o) (c₁ : e₁.caller = o) (c₂ : e₂.caller = o) :
    (x₁ + x₂ ≤ x ∧ x ≤ x₁ + x₂ + 1) ∧ (y₁ + y₂ ≤ y ∧ y ≤ y₁ + y₂ + 1) ∧ Halves o s' t₂ i j k := by
  have hr₁ : Reach t₁ := by
    refine .call hr' (env := e₁) (c := .claimFee j) ?_
    show (do let r ← claimFee e₁ t j; pure r.1) = Except.ok t₁
    rw [h1]; rfl
  obtain ⟨p, q, r, g1, g2, g3, pq, pr, eL⟩ := h.parts
  unfold PartOf at pq pr
  have a1 := C91_claim hr h0
  have a2 := C91_claim hr' h1
  have a3 := C91_claim hr₁ h2
  rw [c] at a1
  rw [c₁] at a2
  rw [c₂] at a3
  have ho := Parts.others_trans (Parts.others_trans (Parts.others_symm a1) h.others) (Parts.others_trans a2 a3)
  obtain ⟨f1, ⟨p0, p', u1, u2, u3, u4, u5, u6⟩, -⟩ := C32_frame hr h0
  obtain ⟨f2, ⟨q0, q', v1, v2, v3, v4, v5, v6⟩, -⟩ := C32_frame hr' h1
  obtain ⟨f3, ⟨r0, r', w1, w2, w3, w4, w5, w6⟩, -⟩ := C32_frame hr₁ h2
  obtain ⟨p1, p'', pool, ix, iy, l1, l2, l3, l4, rfl, rfl, l7, l8, l9, -⟩ := C32_amount hr h0
  obtain ⟨q1, q'', pool₁, ix₁, iy₁, m1, m2, m3, m4, rfl, rfl, m7, m8, m9, -⟩ := C32_amount hr' h1
  obtain ⟨r1, r'', pool₂, ix₂, iy₂, n1, n2, n3, n4, rfl, rfl, n7, n8, n9, -⟩ := C32_amount hr₁ h2
  rw [c] at u1 u2 l1 l7 f1
  rw [c₁] at v1 v2 m1 m7 f2
  rw [c₂] at w1 w2 n1 n7 f3
  rw [g1] at u1; cases u1
  rw [g1] at l1; cases l1
  rw [u2] at l7; cases l7
  rw [g2] at v1; cases v1
  rw [g2] at m1; cases m1
  rw [v2] at m7; cases m7
  have gk : t₁.positions.get o k = .ok r := by
    rw [f2 _ _ (fun e => h.ne (Prod.mk.inj e).2.symm)]; exact g3
  rw [gk] at w1; cases w1
  rw [gk] at n1; cases n1
  rw [w2] at n7; cases n7
  have gj : t₂.positions.get o j = .ok q' := by
    rw [f3 _ _ (fun e => h.ne (Prod.mk.inj e).2)]; exact v2
  have kq : q.poolKey = p.poolKey := by rw [pq]
  have kr : r.poolKey = p.poolKey := by rw [pr]
  have lq : q.lowerTickIndex = p.lowerTickIndex := by rw [pq]
  have lr : r.lowerTickIndex = p.lowerTickIndex := by rw [pr]
  have uq : q.upperTickIndex = p.upperTickIndex := by rw [pq]
  have ur : r.upperTickIndex = p.upperTickIndex := by rw [pr]
  have xq : q.feeGrowthInsideX = p.feeGrowthInsideX := by rw [pq]
  have xr : r.feeGrowthInsideX = p.feeGrowthInsideX := by rw [pr]
  have yq : q.feeGrowthInsideY = p.feeGrowthInsideY := by rw [pq]
  have yr : r.feeGrowthInsideY = p.feeGrowthInsideY := by rw [pr]
  rw [kq] at m2 m3 m4
  rw [lq, uq] at m3 m4
  rw [kr] at n2 n3 n4
  rw [lr, ur] at n3 n4
  obtain ⟨z1, z2⟩ := others_inside h.others l2 m2 p.lowerTickIndex p.upperTickIndex
  obtain ⟨z3, z4⟩ := others_inside a2 m2 n2 p.lowerTickIndex p.upperTickIndex
  rw [m3, l3] at z1; cases z1
  rw [m4, l4] at z2; cases z2
  rw [n3, m3] at z3; cases z3
  rw [n4, m4] at z4; cases z4
  have hr₂ : Reach t₂ := by
    refine .call hr₁ (env := e₂) (c := .claimFee k) ?_
    show (do let r ← claimFee e₂ t₁ k; pure r.1) = Except.ok t₂
    rw [h2]; rfl
  have hrs : Reach s' := by
    refine .call hr (env := e) (c := .claimFee i) ?_
    show (do let r ← claimFee e s i; pure r.1) = Except.ok s'
    rw [h0]; rfl
  obtain ⟨-, -, o1, o2⟩ := (reach_acc s' hrs).pos _ _ (posGet_ok.1 u2)
  obtain ⟨-, -, o3, o4⟩ := (reach_acc t₂ hr₂).pos _ _ (posGet_ok.1 gj)
  obtain ⟨-, -, o5, o6⟩ := (reach_acc t₂ hr₂).pos _ _ (posGet_ok.1 w2)
  rw [xq, xr, yq, yr, eL]
  refine ⟨Parts.fees_parts _ _ _ _, Parts.fees_parts _ _ _ _, ho, h.ne, p', q', r', u2, gj, w2, ?_, ?_, ?_⟩
  · exact Parts.partOf (by rw [v3, u3, kq]) (by rw [v5, u5, lq]) (by rw [v6, u6, uq]) (by rw [m8, l8]) (by rw [m9, l9])
      (by rw [o3, o1]) (by rw [o4, o2])
  · exact Parts.partOf (by rw [w3, u3, kr]) (by rw [w5, u5, lr]) (by rw [w6, u6, ur]) (by rw [n8, l8]) (by rw [n9, l9])
      (by rw [o5, o1]) (by rw [o6, o2])
  · rw [u4, v4, w4, eL]

/-- C92, leaving: whoever takes out both parts gets what the whole would have paid, or up to two units of each token less:
one for the liquidity and one for the fees. The two states are the same for everybody else afterwards. -/
theorem C92_leave {x y x₁ y₁ x₂ y₂ k' : Nat} {q r : Position} (hr : Reach s) (hr' : Reach t) (h : SameForOthers o s t)
    (g0 : s.positions.get o i = .ok p) (g1 : t.positions.get o j = .ok q) (g2 : t₁.positions.get o k' = .ok r)
    (pq : PartOf p q) (pr : PartOf p r) (eL : p.liquidity = q.liquidity + r.liquidity)
    (h0 : removePosition e s i = .ok (s', x, y)) (h1 : removePosition e₁ t j = .ok (t₁, x₁, y₁))
    (h2 : removePosition e₂ t₁ k' = .ok (t₂, x₂, y₂)) (c : e.caller = o) (c₁ : e₁.caller = o) (c₂ : e₂.caller = o) :
    (x₁ + x₂ ≤ x ∧ x ≤ x₁ + x₂ + 2) ∧ (y₁ + y₂ ≤ y ∧ y ≤ y₁ + y₂ + 2) ∧ SameForOthers o s' t₂ := by
  have hr₁ : Reach t₁ := by
    refine .call hr' (env := e₁) (c := .removePosition j) ?_
    show (do let r ← removePosition e₁ t j; pure r.1) = Except.ok t₁
    rw [h1]; rfl
  have hw := reach_wf s hr
  have hw' := reach_wf t hr'
  have hw₁ := reach_wf t₁ hr₁
  unfold PartOf at pq pr
  obtain ⟨p0, lo, up, pool, m, ps, bl, tm1, tm2, E, exy, b1, cr1, cr2⟩ := removePosition_full hw.indexed h0
  obtain ⟨q0, lo₁, up₁, pool₁, m₁, ps₁, bl₁, tm1₁, tm2₁, E₁, exy₁, b1₁, cr1₁, cr2₁⟩ := removePosition_full hw'.indexed h1
  obtain ⟨r0, lo₂, up₂, pool₂, m₂, ps₂, bl₂, tm1₂, tm2₂, E₂, exy₂, b1₂, cr1₂, cr2₂⟩ := removePosition_full hw₁.indexed h2
  dsimp only at E E₁ E₂ exy exy₁ exy₂ cr1 cr2 cr1₁ cr2₁ cr1₂ cr2₂
  have e0 := E.get
  rw [c, g0] at e0; cases e0
  have e0 := E₁.get
  rw [c₁, g1] at e0; cases e0
  have e0 := E₂.get
  rw [c₂, g2] at e0; cases e0
  have kq : q.poolKey = p.poolKey := by rw [pq]
  have kr : r.poolKey = p.poolKey := by rw [pr]
  have lq : q.lowerTickIndex = p.lowerTickIndex := by rw [pq]
  have lr : r.lowerTickIndex = p.lowerTickIndex := by rw [pr]
  have uq : q.upperTickIndex = p.upperTickIndex := by rw [pq]
  have ur : r.upperTickIndex = p.upperTickIndex := by rw [pr]
  have xq : q.feeGrowthInsideX = p.feeGrowthInsideX := by rw [pq]
  have xr : r.feeGrowthInsideX = p.feeGrowthInsideX := by rw [pr]
  have yq : q.feeGrowthInsideY = p.feeGrowthInsideY := by rw [pq]
  have yr : r.feeGrowthInsideY = p.feeGrowthInsideY := by rw [pr]
  obtain ⟨pos, -⟩ := hw.pos _ _ (posGet_ok.1 g0)
  obtain ⟨posr, -⟩ := hw₁.pos _ _ (posGet_ok.1 g2)
  have hne : p.lowerTickIndex ≠ p.upperTickIndex := pos.lt.ne
  have hl₁ := E₁.hlt
  have hu₁ := E₁.hut
  have hp₁ := E₁.hpool
  have hl₂ := E₂.hlt
  have hu₂ := E₂.hut
  have hp₂ := E₂.hpool
  rw [kq] at hl₁ hu₁ hp₁
  rw [lq] at hl₁
  rw [uq] at hu₁
  rw [kr] at hl₂ hu₂ hp₂
  rw [lr] at hl₂
  rw [ur] at hu₂
  have sl : SameTick lo lo₁ := by
    have := h.tick (p.poolKey, p.lowerTickIndex)
    rw [E.hlt, hl₁] at this
    obtain ⟨this⟩ := this
    exact this
  have su : SameTick up up₁ := by
    have := h.tick (p.poolKey, p.upperTickIndex)
    rw [E.hut, hu₁] at this
    obtain ⟨this⟩ := this
    exact this
  have sp : SamePool pool pool₁ := by
    have := h.pool p.poolKey
    rw [E.hpool, hp₁] at this
    obtain ⟨this⟩ := this
    exact this
  have hm := E.mod
  have hm₁ := E₁.mod
  have hm₂ := E₂.mod
  rw [eL] at hm
  have gl : m₁.lower.liquidityGross ≠ 0 := by
    have a1 := hm₁.lower.wdr rfl
    have a2 := hm.lower.wdr rfl
    have a3 : lo₁.liquidityGross = lo.liquidityGross := by rw [sl.1]
    have a4 := posr.liq
    omega
  have gu : m₁.upper.liquidityGross ≠ 0 := by
    have a1 := hm₁.upper.wdr rfl
    have a2 := hm.upper.wdr rfl
    have a3 : up₁.liquidityGross = up.liquidityGross := by rw [su.1]
    have a4 := posr.liq
    omega
  have R₁ := E₁.res
  simp only [gl, gu, if_false, kq, lq, uq] at R₁
  have el : lo₂ = m₁.lower := by
    rw [R₁] at hl₂
    dsimp only at hl₂
    rw [Map.get_insert_ne _ _ (fun h => hne (Prod.mk.inj h).2), Map.get_insert_self] at hl₂
    exact (Option.some.inj hl₂).symm
  have eu : up₂ = m₁.upper := by
    rw [R₁] at hu₂
    dsimp only at hu₂
    rw [Map.get_insert_self] at hu₂
    exact (Option.some.inj hu₂).symm
  have epool : pool₂ = m₁.pool := by
    rw [R₁] at hp₂
    dsimp only at hp₂
    rw [Map.get_insert_self] at hp₂
    exact (Option.some.inj hp₂).symm
  subst el eu epool
  obtain ⟨tl, tl'⟩ := Parts.tick sl hm₁.lower hm₂.lower hm.lower
  obtain ⟨tu, tu'⟩ := Parts.tick su hm₁.upper hm₂.upper hm.upper
  have il : lo₁.index = lo.index := by rw [sl.1]
  have iu : up₁.index = up.index := by rw [su.1]
  have P₁ := hm₁.pool
  have P₂ := hm₂.pool
  rw [hm₁.lower.index, hm₁.upper.index, il, iu] at P₂
  rw [il, iu] at P₁
  have hP := Parts.pool sp P₁ P₂ hm.pool
  unfold SamePool at sp
  have pe := P₁.eq
  -- the amounts
  obtain ⟨i0, a0⟩ := hm.pool.amounts
  obtain ⟨i1, a1⟩ := P₁.amounts
  obtain ⟨i2, a2⟩ := P₂.amounts
  dsimp only at a0 a1 a2
  have a1 : calculateAmountDelta pool.currentTickIndex pool.sqrtPrice q.liquidity false up.index lo.index =
      .ok (m₁.amountX, m₁.amountY, i1) := by
    rw [sp] at a1; exact a1
  have a2 : calculateAmountDelta pool.currentTickIndex pool.sqrtPrice r.liquidity false up.index lo.index =
      .ok (m₂.amountX, m₂.amountY, i2) := by
    rw [pe, sp] at a2; exact a2
  obtain ⟨k1, k2, k3, k4⟩ := Parts.withdrawal a1 a2 a0
  -- the fees
  obtain ⟨-, -, o1, o2⟩ := (reach_acc s hr).pos _ _ (posGet_ok.1 g0)
  obtain ⟨-, -, o3, o4⟩ := (reach_acc t hr').pos _ _ (posGet_ok.1 g1)
  obtain ⟨-, -, o5, o6⟩ := (reach_acc t₁ hr₁).pos _ _ (posGet_ok.1 g2)
  have fx := hm.pos.owedX
  have fy := hm.pos.owedY
  have fx₁ := hm₁.pos.owedX
  have fy₁ := hm₁.pos.owedY
  have fx₂ := hm₂.pos.owedX
  have fy₂ := hm₂.pos.owedY
  rw [o1, Nat.zero_add, eL] at fx
  rw [o2, Nat.zero_add, eL] at fy
  rw [o3, Nat.zero_add, xq, sl.1, su.1, sp] at fx₁
  rw [o4, Nat.zero_add, yq, sl.1, su.1, sp] at fy₁
  rw [o5, Nat.zero_add, xr, hm₁.lower.index, hm₁.upper.index, hm₁.lower.outX, hm₁.upper.outX, pe, sl.1, su.1, sp] at fx₂
  rw [o6, Nat.zero_add, yr, hm₁.lower.index, hm₁.upper.index, hm₁.lower.outY, hm₁.upper.outY, pe, sl.1, su.1, sp] at fy₂
  dsimp only at fx₁ fy₁ fx₂ fy₂
  have FX := Parts.fees_parts (fgSub (feeGrowthInside1 lo.index lo.feeGrowthOutsideX up.index up.feeGrowthOutsideX
    pool.currentTickIndex pool.feeGrowthGlobalX) p.feeGrowthInsideX) q.liquidity r.liquidity (10 ^ 33)
  have FY := Parts.fees_parts (fgSub (feeGrowthInside1 lo.index lo.feeGrowthOutsideY up.index up.feeGrowthOutsideY
    pool.currentTickIndex pool.feeGrowthGlobalY) p.feeGrowthInsideY) q.liquidity r.liquidity (10 ^ 33)
  rw [← fx, ← fx₁, ← fx₂] at FX
  rw [← fy, ← fy₁, ← fy₂] at FY
  simp only [Prod.mk.injEq] at exy exy₁ exy₂
  refine ⟨by omega, by omega, ?_⟩
  -- the states
  have R := E.res
  have R₂ := E₂.res
  simp only [kr, lr, ur, tl', tu'] at R₂
  have w₁ : t₁.tickmap = t.tickmap := by
    rw [R₁]
    dsimp only
    have f1 := E₁.flip1.2 (by simp [gl])
    have f2 := E₁.flip2.2 (by simp [gu])
    rw [f2, f1]
  have F1 := E₂.flip1
  have F2 := E₂.flip2
  rw [kr, lr, tl', w₁] at F1
  rw [kr, ur, tu'] at F2
  have words := Parts.flip_like (Parts.flip_like h.word E.flip1 F1) E.flip2 F2
  refine ⟨?_, ?_, ?_, ?_, ?_, ?_, ?_, ?_, ?_, ?_, ?_⟩
  · rw [R₂, R, R₁]; exact h.admin
  · rw [R₂, R, R₁]; exact h.protocolFee
  · rw [R₂, R, R₁]; exact h.feeTiers
  · rw [R₂, R, R₁]; exact h.poolKeys
  · rw [R₂, R, R₁]; exact h.awaiting
  · intro z
    rw [R₂, R, R₁]
    dsimp only
    simp only [Map.get_insert]
    split
    · exact .some hP
    · exact h.pool z
  · intro z
    rw [R₂, R, R₁]
    dsimp only
    by_cases z2 : z = (p.poolKey, p.upperTickIndex)
    · by_cases y2 : m.upper.liquidityGross = 0
      · simp only [y2, if_true, z2, Map.get_erase]; exact .none
      · simp only [y2, if_false, z2, Map.get_insert, if_true]; exact .some tu
    · by_cases z1 : z = (p.poolKey, p.lowerTickIndex)
      · by_cases y1 : m.lower.liquidityGross = 0 <;> by_cases y2 : m.upper.liquidityGross = 0 <;>
          simp only [y1, y2, if_true, if_false, Map.get_insert, Map.get_erase, z1, z1 ▸ z2]
        · exact .none
        · exact .none
        · exact .some tl
        · exact .some tl
      · by_cases y1 : m.lower.liquidityGross = 0 <;> by_cases y2 : m.upper.liquidityGross = 0 <;>
          simp only [y1, y2, if_true, if_false, Map.get_insert, Map.get_erase, z1, z2] <;> exact h.tick z
  · intro z
    rw [R₂, R]
    exact words z
  · intro a ha
    rw [R₂, R]
    dsimp only
    rw [(Parts.remove_others (c₂ ▸ E₂.rem) ha).1, R₁]
    dsimp only
    rw [(Parts.remove_others (c₁ ▸ E₁.rem) ha).1, (Parts.remove_others (ps := s.positions) (ps' := ps) (c ▸ E.rem) ha).1]
    exact h.length a ha
  · intro a ha n
    rw [R₂, R]
    dsimp only
    rw [(Parts.remove_others (c₂ ▸ E₂.rem) ha).2, R₁]
    dsimp only
    rw [(Parts.remove_others (c₁ ▸ E₁.rem) ha).2, (Parts.remove_others (ps := s.positions) (ps' := ps) (c ▸ E.rem) ha).2]
    exact h.position a ha n
  · intro a ha n
    rw [R₂, R]
    dsimp only
    rw [c₂] at cr1₂ cr2₂
    rw [c₁] at cr1₁ cr2₁
    rw [c] at cr1 cr2
    rw [Parts.credit_others cr2₂ ha, Parts.credit_others cr1₂ ha, R₁]
    dsimp only
    rw [Parts.credit_others cr2₁ ha, Parts.credit_others cr1₁ ha, Parts.credit_others cr2 ha, Parts.credit_others cr1 ha]
    exact h.balance a ha n

namespace Parts

/-- what a deposit that was accepted shows, apart from the balances -/
theorem accepted (hr : Reach s) (h : createPosition e s key lower upper L₁ ll lu = .ok (a, p)) :
    ∃ pool x y i, s.pools.get key = some pool ∧ L₁ ≠ 0 ∧ lower < upper ∧ Grid key.feeTier.tickSpacing lower ∧
      Grid key.feeTier.tickSpacing upper ∧ ll ≤ pool.sqrtPrice ∧ pool.sqrtPrice ≤ lu ∧
      tG s.ticks key lower + L₁ < calculateMaxLiquidityPerTick key.feeTier.tickSpacing ∧
      tG s.ticks key upper + L₁ < calculateMaxLiquidityPerTick key.feeTier.tickSpacing ∧
      calculateAmountDelta pool.currentTickIndex pool.sqrtPrice L₁ true upper lower = .ok (x, y, i) ∧
      (lower ≤ pool.currentTickIndex → pool.currentTickIndex < upper → pool.liquidity + L₁ < 2 ^ 256) ∧
      balOf s.balances e.caller key.tokenX = balOf a.balances e.caller key.tokenX + x ∧
      balOf s.balances e.caller key.tokenY = balOf a.balances e.caller key.tokenY + y ∧
      (∃ pool', a.pools.get key = some pool' ∧ pool'.currentTickIndex = pool.currentTickIndex ∧
        pool'.sqrtPrice = pool.sqrtPrice ∧
        (lower ≤ pool.currentTickIndex → pool.currentTickIndex < upper → pool'.liquidity = pool.liquidity + L₁)) ∧
      tG a.ticks key lower = tG s.ticks key lower + L₁ ∧ tG a.ticks key upper = tG s.ticks key upper + L₁ := by
  have hw := reach_wf s hr
  obtain ⟨pool, lt, ut, m, bl, tm1, tm2, E, ep, h1, h2, bx, by_, d1, d2, rfl⟩ := createPosition_full hw.indexed h
  dsimp only at E
  obtain ⟨hT, -⟩ := (reach_tiers hr).pools _ (by rw [E.hpool]; rfl)
  obtain ⟨i1, gl, -⟩ := getOrCreate_grid hw hT.1 E.hlt
  obtain ⟨i2, gu, -⟩ := getOrCreate_grid hw hT.1 E.hut
  have tl := getOrCreate_tG E.hlt
  have tu := getOrCreate_tG E.hut
  obtain ⟨i, hi⟩ := E.mod.pool.amounts
  dsimp only at hi
  rw [i1, i2] at hi
  have hle := (calculateAmountDelta_ok hi).choose_spec.choose_spec.2.2.1
  have a1 := E.mod.lower.dep rfl
  have a2 := E.mod.upper.dep rfl
  have tne := poolKey_ne hr E.hpool
  obtain ⟨b1, b2⟩ := debits tne d1 d2
  have eb : ∀ (b : Balances) (w t : ActorId), bal b w t = balOf b w t := by
    intro b w t
    unfold bal balOf
    cases b.get (w, t) <;> rfl
  rw [eb, eb] at b1 b2
  have pe := E.mod.pool.eq
  have hadd : lower ≤ pool.currentTickIndex → pool.currentTickIndex < upper →
      m.pool.liquidity = pool.liquidity + L₁ ∧ m.pool.liquidity < 2 ^ 256 := by
    intro x1 x2
    have := E.mod.pool.add rfl (by rw [i1]; exact x1) (by rw [i2]; exact x2)
    exact this
  refine ⟨pool, m.amountX, m.amountY, i, E.hpool, E.hdelta, lt_of_le_of_ne hle E.ne, gl, gu, h1, h2, ?_, ?_, hi, ?_, ?_,
    ?_, ⟨m.pool, ?_, ?_, ?_, fun x1 x2 => (hadd x1 x2).1⟩, ?_, ?_⟩
  · rw [tl.1]; omega
  · rw [tu.1]; omega
  · intro x1 x2
    have := hadd x1 x2
    omega
  · rw [E.res]; exact b1
  · rw [E.res]; exact b2
  · rw [E.res]; dsimp only; rw [Map.get_insert_self]
  · rw [pe]
  · rw [pe]
  · rw [tl.1, ← a1.1]
    refine tG_some ?_
    rw [E.res]; dsimp only
    rw [Map.get_insert_ne _ _ (fun h => E.ne (Prod.mk.inj h).2), Map.get_insert_self]
  · rw [tu.1, ← a2.1]
    refine tG_some ?_
    rw [E.res]; dsimp only
    rw [Map.get_insert_self]

theorem net_le (hr : Reach s) {pool : Pool} (hp : s.pools.get key = some pool) (j : Int) :
    (tN s.ticks key j).natAbs ≤ tG s.ticks key j := by
  unfold tN tG
  cases ht : s.ticks.get (key, j) with
  | none => simp
  | some t =>
    have h1 := ((C12_counters hr hp).2.1 j t ht).2
    dsimp only
    unfold Tick.net
    split <;> omega

end Parts

/-- C92, accepted as a whole: if a deposit is accepted in two parts and a unit of X is left, it is accepted as a whole. -/
theorem C92_whole (hr : Reach s) (h₁ : createPosition e₁ s key lower upper L₁ ll lu = .ok (b₁, p₁))
    (h₂ : createPosition e₂ b₁ key lower upper L₂ ll₂ lu₂ = .ok (b, p₂)) (c₁ : e₁.caller = e.caller)
    (c₂ : e₂.caller = e.caller) (hx : 1 ≤ bal b.balances e.caller key.tokenX) :
    ∃ r, createPosition e s key lower upper (L₁ + L₂) ll lu = .ok r := by
  have eb : ∀ (b : Balances) (w t : ActorId), bal b w t = balOf b w t := by
    intro b w t
    unfold bal balOf
    cases b.get (w, t) <;> rfl
  have hr₁ : Reach b₁ := by
    refine .call hr (env := e₁) (c := .createPosition key lower upper L₁ ll lu) ?_
    show (do let r ← createPosition e₁ s key lower upper L₁ ll lu; pure r.1) = Except.ok b₁
    rw [h₁]; rfl
  obtain ⟨pool, x, y, i, hp, hL, hlt, gl, gu, k1, k2, k3, k4, k5, k6, k7, k8, ⟨pool', q1, q2, q3, q4⟩, k9, k10⟩ :=
    Parts.accepted hr h₁
  obtain ⟨pool'', x', y', i', hp', hL', -, -, -, -, -, l3, l4, l5, l6, l7, l8, -⟩ := Parts.accepted hr₁ h₂
  rw [q1] at hp'; cases hp'
  rw [q2, q3] at l5
  rw [q2] at l6
  rw [k9] at l3
  rw [k10] at l4
  rw [c₁] at k7 k8
  rw [c₂] at l7 l8
  rw [eb] at hx
  have hprice := reach_price s hr _ _ hp
  obtain ⟨pl, pu, f1, f2, f3, f4, f5, -⟩ := calculateAmountDelta_ok k5
  obtain ⟨pl', pu', f1', f2', -, f4', f5', -⟩ := calculateAmountDelta_ok l5
  rw [f1] at f1'; cases f1'
  rw [f2] at f2'; cases f2'
  rw [dxR_true] at f4 f4'
  rw [dyR_true] at f5 f5'
  have D := dxUp_parts (clampPrice pool.currentTickIndex lower upper pool.sqrtPrice pl pu) pu L₁ L₂
  have D' := dyUp_parts pl (clampPrice pool.currentTickIndex lower upper pool.sqrtPrice pl pu) L₁ L₂
  rw [← f4, ← f4'] at D
  rw [← f5, ← f5'] at D'
  have wf := reach_balWF hr
  have lt : ∀ k, balOf s.balances e.caller k < 2 ^ 256 := by
    intro k
    unfold balOf
    cases h : s.balances.get (e.caller, k) with
    | none => simp
    | some v => exact (wf _ _ h).2
  have lX := lt key.tokenX
  have lY := lt key.tokenY
  have hcap : calculateMaxLiquidityPerTick key.feeTier.tickSpacing ≤ 2 ^ 256 := by
    unfold calculateMaxLiquidityPerTick
    exact le_trans (Nat.div_le_self _ _) (Nat.sub_le _ _)
  obtain ⟨⟨X, Y, I⟩, hA⟩ := deposit_fits (t := pool.currentTickIndex) (le_of_lt hlt) hprice f1 f2 (L := L₁ + L₂)
    (by omega) (by omega) (by omega)
  obtain ⟨m1, m2, m3, m4⟩ := Parts.deposit k5 l5 hA
  have n1 := Parts.net_le hr hp lower
  have n2 := Parts.net_le hr hp upper
  exact create_succeeds (env := e) hr hp (by omega) hlt gl gu k1 k2 (by omega) (by omega) (by omega) (by omega) hA
    (fun x1 x2 => by have := q4 x1 x2; have := l6 x1 x2; omega) (by omega) (by omega)

/-- C92, accepted in parts: if a deposit is accepted and a unit of each token is left, it is accepted in any two parts. -/
theorem C92_halves (hr : Reach s) (h : createPosition e s key lower upper (L₁ + L₂) ll lu = .ok (a, p)) (hL₁ : L₁ ≠ 0)
    (hL₂ : L₂ ≠ 0) (c₁ : e₁.caller = e.caller) (c₂ : e₂.caller = e.caller)
    (hx : 1 ≤ bal a.balances e.caller key.tokenX) (hy : 1 ≤ bal a.balances e.caller key.tokenY) :
    ∃ b₁ p₁ b p₂, createPosition e₁ s key lower upper L₁ ll lu = .ok (b₁, p₁) ∧
      createPosition e₂ b₁ key lower upper L₂ ll lu = .ok (b, p₂) := by
  have eb : ∀ (b : Balances) (w t : ActorId), bal b w t = balOf b w t := by
    intro b w t
    unfold bal balOf
    cases b.get (w, t) <;> rfl
  obtain ⟨pool, x, y, i, hp, hL, hlt, gl, gu, k1, k2, k3, k4, k5, k6, k7, k8, -⟩ := Parts.accepted hr h
  rw [eb] at hx hy
  have hprice := reach_price s hr _ _ hp
  obtain ⟨pl, pu, f1, f2, f3, f4, f5, -, f7, f8, -⟩ := calculateAmountDelta_ok k5
  rw [dxR_true] at f4
  rw [dyR_true] at f5
  have D := dxUp_parts (clampPrice pool.currentTickIndex lower upper pool.sqrtPrice pl pu) pu L₁ L₂
  have D' := dyUp_parts pl (clampPrice pool.currentTickIndex lower upper pool.sqrtPrice pl pu) L₁ L₂
  rw [← f4] at D
  rw [← f5] at D'
  have wf := reach_balWF hr
  have lt : ∀ k, balOf s.balances e.caller k < 2 ^ 256 := by
    intro k
    unfold balOf
    cases h : s.balances.get (e.caller, k) with
    | none => simp
    | some v => exact (wf _ _ h).2
  have lX := lt key.tokenX
  have lY := lt key.tokenY
  have hcap : calculateMaxLiquidityPerTick key.feeTier.tickSpacing ≤ 2 ^ 256 := by
    unfold calculateMaxLiquidityPerTick
    exact le_trans (Nat.div_le_self _ _) (Nat.sub_le _ _)
  obtain ⟨⟨X, Y, I⟩, hA⟩ := deposit_fits (t := pool.currentTickIndex) (le_of_lt hlt) hprice f1 f2 (L := L₁)
    (by omega) (by omega) (by omega)
  obtain ⟨⟨X', Y', I'⟩, hB⟩ := deposit_fits (t := pool.currentTickIndex) (le_of_lt hlt) hprice f1 f2 (L := L₂)
    (by omega) (by omega) (by omega)
  obtain ⟨m1, m2, m3, m4⟩ := Parts.deposit hA hB k5
  have n1 := Parts.net_le hr hp lower
  have n2 := Parts.net_le hr hp upper
  obtain ⟨⟨b₁, p₁⟩, h₁⟩ := create_succeeds (env := e₁) hr hp hL₁ hlt gl gu k1 k2 (by omega) (by omega) (by omega)
    (by omega) hA (fun x1 x2 => by have := k6 x1 x2; omega) (by rw [c₁]; omega) (by rw [c₁]; omega)
  have hr₁ : Reach b₁ := by
    refine .call hr (env := e₁) (c := .createPosition key lower upper L₁ ll lu) ?_
    show (do let r ← createPosition e₁ s key lower upper L₁ ll lu; pure r.1) = Except.ok b₁
    rw [h₁]; rfl
  obtain ⟨pool₀, X₀, Y₀, I₀, hp₀, -, -, -, -, -, -, -, -, l5, -, l7, l8, ⟨pool', q1, q2, q3, q4⟩, l9, l10⟩ :=
    Parts.accepted hr h₁
  rw [hp] at hp₀; cases hp₀
  rw [hA] at l5
  have l5 := Except.ok.inj l5
  simp only [Prod.mk.injEq] at l5
  rw [c₁] at l7 l8
  have n1' := Parts.net_le hr₁ q1 lower
  have n2' := Parts.net_le hr₁ q1 upper
  obtain ⟨⟨b, p₂⟩, h₂⟩ := create_succeeds (env := e₂) (ll := ll) (lu := lu) hr₁ q1 hL₂ hlt gl gu (by rw [q3]; exact k1)
    (by rw [q3]; exact k2) (by omega) (by omega) (by omega) (by omega) (by rw [q2, q3]; exact hB)
    (fun x1 x2 => by
      rw [q2] at x1 x2
      have := k6 x1 x2
      have := q4 x1 x2
      omega) (by rw [c₂]; omega) (by rw [c₂]; omega)
  exact ⟨b₁, p₁, b, p₂, h₁, h₂⟩

theorem Parts.remove_stay {ps ps' : Positions} {a : ActorId} {j k : Nat} {p q : Position}
    (h : ps.remove a j = .ok (ps', p)) (hk : ps.get a k = .ok q) (hne : k ≠ j) (hl : k + 1 < ps.getLength a)
    (hn : ps.getLength a < 2 ^ 32) : ps'.get a k = .ok q := by
  unfold Positions.remove Positions.removeAt at h
  simp only [bind_ok_iff, pure_ok_iff] at h
  obtain ⟨q, -, z, ⟨m, hm, rfl⟩, e⟩ := h
  cases e
  rw [u32Pred_eq (by omega) hn] at hm
  have h1 : (a, k) ≠ (a, j) := fun e => hne (Prod.mk.inj e).2
  have h2 : (a, k) ≠ (a, ps.getLength a - 1) := fun e => by have := (Prod.mk.inj e).2; omega
  rw [← hk]
  unfold Positions.get
  dsimp only
  have : m.get (a, k) = ps.map.get (a, k) := by
    rw [ite_ok_iff] at hm
    rcases hm with ⟨-, hm⟩ | ⟨-, hm⟩
    · simp only [bind_ok_iff, pure_ok_iff] at hm
      obtain ⟨l, -, rfl⟩ := hm
      rw [Map.get_insert_ne _ _ h1, Map.get_erase_ne _ h2]
    · simp only [pure_ok_iff] at hm
      subst hm
      rw [Map.get_erase_ne _ h1]
  rw [this]

/-- C92, from the deposit to the end: a position and its two parts, whatever the others did in between, taken out. The part
that is not the last in the list of its owner keeps its number. -/
theorem C92_end {x y x₁ y₁ x₂ y₂ : Nat} {o : ActorId} {i j k : Nat} {s' t t₁ t₂ : Inv} {l : List (Env × Call)} (hr : Reach s)
    (hr' : Reach t) (h : Halves o s t i j k) (ho : ∀ m ∈ l, o ∉ parties m.1 m.2)
    (hk : k + 1 < (runAll t l).positions.getLength o) (hn : (runAll t l).positions.getLength o < 2 ^ 32)
    (h0 : removePosition e (runAll s l) i = .ok (s', x, y)) (h1 : removePosition e₁ (runAll t l) j = .ok (t₁, x₁, y₁))
    (h2 : removePosition e₂ t₁ k = .ok (t₂, x₂, y₂)) (c : e.caller = o) (c₁ : e₁.caller = o) (c₂ : e₂.caller = o) :
    (x₁ + x₂ ≤ x ∧ x ≤ x₁ + x₂ + 2) ∧ (y₁ + y₂ ≤ y ∧ y ≤ y₁ + y₂ + 2) ∧ SameForOthers o s' t₂ := by
  have H := C92_history hr h ho
  have R := ProviderDemo.reach_all l s hr
  have R' := ProviderDemo.reach_all l t hr'
  obtain ⟨p, q, r, g1, g2, g3, pq, pr, eL⟩ := H.parts
  obtain ⟨q0, lo, up, pool, m, ps, bl, tm1, tm2, E, -⟩ := removePosition_full (reach_wf _ R').indexed h1
  have e3 : t₁.positions = ps := congrArg Inv.positions E.res
  have := Parts.remove_stay (c₁ ▸ E.rem) g3 h.ne.symm (by omega) (by omega)
  exact C92_leave R R' H.others g1 g2 (by rw [e3]; exact this) pq pr eL h0 h1 h2 c c₁ c₂

/-! ### examples -/

namespace PartsDemo

/-- account 3 deposits, as a whole or in two parts -/
def whole : Inv := runAll Demo.traded [(Demo.by_ 3, .createPosition Demo.key (-30) 30 (10 ^ 15) 0 (10 ^ 25))]
def parts : Inv :=
  runAll Demo.traded
    [(Demo.by_ 3, .createPosition Demo.key (-30) 30 333333333333333 0 (10 ^ 25)),
     (Demo.by_ 3, .createPosition Demo.key (-30) 30 666666666666667 0 (10 ^ 25))]

/-- account 2 trades in both directions -/
def trades : List (Env × Call) :=
  [(Demo.by_ 2, .swap Demo.key false (30 * 10 ^ 6) true MAX_SQRT_PRICE),
   (Demo.by_ 2, .swap Demo.key true 7000001 true MIN_SQRT_PRICE)]

/-- a pool whose price is one unit of its last digit below a tick -/
def tier : FeeTier := ⟨10 ^ 9, 1⟩
def pair : PoolKey := ⟨5, 7, tier⟩
def below : Inv :=
  runAll Demo.funded
    [(Demo.by_ 1, .addFeeTier tier), (Demo.by_ 2, .createPool 5 7 tier (10 ^ 24) 0),
     (Demo.by_ 3, .createPosition pair 0 1 (10 ^ 29) 0 (10 ^ 25)),
     (Demo.by_ 2, .swap pair false 50048798798798798798 true MAX_SQRT_PRICE)]

theorem below_reach : Reach below :=
  ProviderDemo.reach_all _ _ (reach32_reach _ (clear_reach32 _ (clearBooks_clear demo_funded_books))).1

end PartsDemo

/-- The parts cost one unit of X more, and the same of Y. -/
example :
    bal PartsDemo.whole.balances 3 5 = 99999999999464314266 ∧ bal PartsDemo.parts.balances 3 5 = 99999999999464314265 ∧
      bal PartsDemo.whole.balances 3 7 = 99999999999478259440 ∧
      bal PartsDemo.parts.balances 3 7 = 99999999999478259440 ∧
      PartsDemo.whole.positions.getLength 3 = 3 ∧ PartsDemo.parts.positions.getLength 3 = 4 := by
  decide +kernel

/-- Account 2 trades the same; the claims pay 419 + 840 and 2154 + 4309 instead of 1260 and 6463; leaving pays
10787355 + 5393676 and 9201897 + 4600948 instead of 16181033 and 13802845. -/
example :
    let w := runAll PartsDemo.whole PartsDemo.trades
    let p := runAll PartsDemo.parts PartsDemo.trades
    bal w.balances 2 5 = bal p.balances 2 5 ∧ bal w.balances 2 7 = bal p.balances 2 7 ∧
      (claimFee (Demo.by_ 3) w 2).toOption.map (·.2) = some (1260, 6463) ∧
      (claimFee (Demo.by_ 3) p 2).toOption.map (·.2) = some (419, 2154) ∧
      (claimFee (Demo.by_ 3) p 3).toOption.map (·.2) = some (840, 4309) ∧
      (removePosition (Demo.by_ 3) w 2).toOption.map (·.2) = some (16181033, 13802845) ∧
      (removePosition (Demo.by_ 3) p 3).toOption.map (·.2) = some (10787355, 9201897) ∧
      (removePosition (Demo.by_ 3) (runAll p [(Demo.by_ 3, .removePosition 3)]) 2).toOption.map (·.2) =
        some (5393676, 4600948) := by
  decide +kernel

private theorem create_eval {e : Env} {s : Inv} {k : PoolKey} {l u : Int} {L ll lu x y : Nat}
    (h : (createPosition e s k l u L ll lu).toOption.map (fun r => (bal r.1.balances 3 5, bal r.1.balances 3 7)) =
      some (x, y)) :
    ∃ a p, createPosition e s k l u L ll lu = .ok (a, p) ∧ bal a.balances 3 5 = x ∧ bal a.balances 3 7 = y := by
  cases hc : createPosition e s k l u L ll lu with
  | error _ => rw [hc] at h; cases h
  | ok r =>
    rw [hc] at h
    obtain ⟨a, p⟩ := r
    have h : some (bal a.balances 3 5, bal a.balances 3 7) = some (x, y) := h
    simp only [Option.some.injEq, Prod.mk.injEq] at h
    exact ⟨a, p, rfl, h⟩

/-- That the parts cost no less is false of X: one unit below a tick 120000 costs a unit of X, twice 60000 costs none. -/
theorem C92_negation :
    ¬ ∀ (s a b₁ b : Inv) (e : Env) (key : PoolKey) (lower upper : Int) (L₁ L₂ ll lu : Nat) (p p₁ p₂ : Position), Reach s →
      createPosition e s key lower upper (L₁ + L₂) ll lu = .ok (a, p) →
      createPosition e s key lower upper L₁ ll lu = .ok (b₁, p₁) →
      createPosition e b₁ key lower upper L₂ ll lu = .ok (b, p₂) →
      bal b.balances e.caller key.tokenX ≤ bal a.balances e.caller key.tokenX := by
  intro h
  obtain ⟨a, p, h0, x0, -⟩ := create_eval (e := Demo.by_ 3) (s := PartsDemo.below) (k := PartsDemo.pair) (l := 0) (u := 1)
    (L := 60000 + 60000) (ll := 0) (lu := 10 ^ 25) (x := 50003749750017186327) (y := 99999999999999999999)
    (by decide +kernel)
  obtain ⟨b₁, p₁, h1, x1, -⟩ := create_eval (e := Demo.by_ 3) (s := PartsDemo.below) (k := PartsDemo.pair) (l := 0)
    (u := 1) (L := 60000) (ll := 0) (lu := 10 ^ 25) (x := 50003749750017186328) (y := 99999999999999999999)
    (by decide +kernel)
  have e1 : b₁ = runAll PartsDemo.below [(Demo.by_ 3, .createPosition PartsDemo.pair 0 1 60000 0 (10 ^ 25))] := by
    have : step (Demo.by_ 3) PartsDemo.below (.createPosition PartsDemo.pair 0 1 60000 0 (10 ^ 25)) = .ok b₁ := by
      show (do let r ← createPosition (Demo.by_ 3) PartsDemo.below PartsDemo.pair 0 1 60000 0 (10 ^ 25); pure r.1) =
        Except.ok b₁
      rw [h1]; rfl
    unfold runAll runAll run
    rw [this]
  obtain ⟨b, p₂, h2, x2, -⟩ := create_eval (e := Demo.by_ 3)
    (s := runAll PartsDemo.below [(Demo.by_ 3, .createPosition PartsDemo.pair 0 1 60000 0 (10 ^ 25))]) (k := PartsDemo.pair)
    (l := 0) (u := 1) (L := 60000) (ll := 0) (lu := 10 ^ 25) (x := 50003749750017186328) (y := 99999999999999999998)
    (by decide +kernel)
  rw [← e1] at h2
  have : bal b.balances 3 5 ≤ bal a.balances 3 5 := h _ _ _ _ _ _ _ _ _ _ _ _ _ _ _ PartsDemo.below_reach h0 h1 h2
  rw [x2, x0] at this
  exact absurd this (by decide)

end Verif
