import Verif.Spec.Traceless
import Verif.Proofs.Alike
import Verif.Proofs.Claim
import Verif.Proofs.Market
import Verif.Props.Parts

/-! # States that differ in one account and in words that are zero -/

set_option exponentiation.threshold 1000

namespace Verif
open Service Spec Twin

namespace Trace

variable {o : ActorId} {s t : Inv} {e : Env} {c : Call}

theorem like_of {κ V : Type} [DecidableEq κ] {P : κ → Prop} {R : V → V → Prop} (hR : ∀ v, R v v)
    {m m' : Map κ V} (h : ∀ k, P k → m'.get k = m.get k) : MapLike P id R m m' := by
  intro k hk
  show Option.Rel _ _ (m'.get k)
  rw [h k hk]
  cases m.get k with
  | none => exact .none
  | some v => exact .some (hR v)

theorem of_like {κ V : Type} [DecidableEq κ] {P : κ → Prop} {R : V → V → Prop} (hR : ∀ v w, R v w → w = v)
    {m m' : Map κ V} (h : MapLike P id R m m') (k : κ) (hk : P k) : m'.get k = m.get k := by
  have := h k hk
  revert this
  show Option.Rel _ _ (m'.get k) → _
  generalize m.get k = a
  generalize m'.get k = b
  intro this
  cases this with
  | none => rfl
  | some h => rw [hR _ _ h]

theorem get_iff {ps ps' : Positions} {a : ActorId} {i : Nat} :
    ps'.get a i = ps.get a i ↔ ps'.map.get (a, i) = ps.map.get (a, i) := by
  unfold Positions.get
  constructor
  · cases ps.map.get (a, i) <;> cases ps'.map.get (a, i) <;> simp [okOr]
  · intro h; rw [h]

theorem gross_lt (hr : Reach s) {k : PoolKey × Int} {t : Tick} (h : s.ticks.get k = some t) :
    t.liquidityGross < 2 ^ 256 := by
  refine lt_of_lt_of_le ((reach_wf s hr).tick k.1 k.2 _ h).1.cap ?_
  unfold calculateMaxLiquidityPerTick
  exact le_trans (Nat.div_le_self _ _) (Nat.sub_le _ _)

theorem toSim (hr : Reach s) (h : Traceless o s t) (n : Nat) :
    Sim .wordless (fun _ => True) (fun a => a ≠ o) id n n s t where
  inj := Function.injective_id
  admin := h.admin
  protocolFee := h.protocolFee
  feeTiers := h.feeTiers
  poolKeys := h.poolKeys
  tickmap := ⟨fun k c _ => h.word (c, k), False.elim⟩
  pools := fun k _ => by
    have h1 := h.pool k
    have h2 := reach_liqLt s hr k
    show Option.Rel _ _ (t.pools.get k)
    revert h1 h2
    generalize s.pools.get k = a
    generalize t.pools.get k = b
    intro h1 h2
    cases h1 with
    | none => exact .none
    | @some p q h =>
      refine .some ⟨p.startTimestamp, q.lastTimestamp, ?_, .inl trivial, fun _ => ⟨rfl, rfl⟩, False.elim,
        .inr (h2 _ rfl)⟩
      unfold SamePool at h
      rw [h]
      rfl
  ticks := fun k _ => by
    have h1 := h.tick k
    have h2 : ∀ t, s.ticks.get k = some t → _ := fun t => gross_lt hr (t := t)
    show Option.Rel _ _ (t.ticks.get k)
    revert h1 h2
    generalize s.ticks.get k = a
    generalize t.ticks.get k = b
    intro h1 h2
    cases h1 with
    | none => exact .none
    | @some x y h =>
      obtain ⟨h, hn⟩ := h
      refine .some ⟨x.secondsOutside, y.sign, ?_, fun _ => rfl, ?_, .inr (h2 _ rfl)⟩
      · rw [h]
      · have hc : y.liquidityChange = x.liquidityChange := by rw [h]
        unfold netLiq at hn
        rw [hc] at hn
        cases hy : y.sign <;> cases hx : x.sign <;> simp [hy, hx] at hn ⊢ <;> omega
  lengths := h.length
  positions := like_of (fun p => ⟨_, rfl, fun _ => rfl⟩) fun z hz => get_iff.1 (h.position z.1 hz z.2)
  balances := like_of (fun _ => rfl) fun z hz => h.balance z.1 hz z.2
  awaiting := fun _ k => by
    rw [h.awaiting]
    have : renameTransfer id = id := rfl
    rw [this, Option.map_id]
    rfl

theorem samePool {n m : Nat} {p q : Pool} (h : Twin.PoolSim .wordless id n m p q) : SamePool p q := by
  obtain ⟨st, lt, rfl, -, h, -⟩ := h
  rw [(h trivial).2]
  rfl

theorem sameTick {p q : Tick} (h : TickSim .wordless p q) : SameTick p q := by
  obtain ⟨so, sg, rfl, h, h', -⟩ := h
  rw [h trivial]
  refine ⟨rfl, ?_⟩
  rcases h' with rfl | ⟨-, h'⟩
  · rfl
  · unfold netLiq
    dsimp only
    rw [h']
    simp

theorem pos_eq {p q : Position} (h : PosSim .wordless p q) : q = p := by
  obtain ⟨b, rfl, h⟩ := h
  rw [h trivial]

theorem rel_of {κ V : Type} [DecidableEq κ] {R S : V → V → Prop} (hR : ∀ v w, R v w → S v w)
    {m m' : Map κ V} (h : MapLike (fun _ => True) id R m m') (k : κ) : Option.Rel S (m.get k) (m'.get k) := by
  have := h k trivial
  revert this
  show Option.Rel _ _ (m'.get k) → _
  generalize m.get k = a
  generalize m'.get k = b
  intro this
  cases this with
  | none => exact .none
  | some h => exact .some (hR _ _ h)

theorem ofSim {n m : Nat} (h : Sim .wordless (fun _ => True) (fun a => a ≠ o) id n m s t) :
    Traceless o s t where
  admin := h.admin
  protocolFee := h.protocolFee
  feeTiers := h.feeTiers
  poolKeys := h.poolKeys
  word := fun k => h.tickmap.1 k.2 k.1 trivial
  pool := rel_of (fun _ _ => samePool) h.pools
  tick := rel_of (fun _ _ => sameTick) h.ticks
  length := h.lengths
  position := fun a ha i => get_iff.2 (of_like (fun _ _ => pos_eq) h.positions (a, i) ha)
  balance := fun a ha k => of_like (fun _ _ h => h.symm) h.balances (a, k) ha
  awaiting := fun k => by
    rw [h.awaiting trivial]
    have : renameTransfer id = id := rfl
    rw [this, Option.map_id]
    rfl

theorem renameCall_id (c : Call) : renameCall id c = c := by cases c <;> rfl

theorem caller_mem : e.caller ∈ parties e c := by cases c <;> exact List.mem_cons_self


/-- adding liquidity to a tick and taking it away again -/
theorem tick_back {t t1 t2 : Tick} {L a b : Nat} {up : Bool} (h1 : TickUpd t t1 L a up true)
    (h2 : TickUpd t1 t2 L b up false) : SameTick t t2 ∧ t2.liquidityGross = t.liquidityGross := by
  have hn : t2.net = t.net := by
    rw [h2.net, h1.net]
    cases up <;> simp
  have hg : t2.liquidityGross = t.liquidityGross := by
    have := h1.dep rfl; have := h2.wdr rfl; omega
  have hc : t2.liquidityChange = t.liquidityChange := by
    unfold Tick.net at hn
    cases hs : t2.sign <;> cases hs' : t.sign <;> simp [hs, hs'] at hn <;> omega
  refine ⟨⟨?_, hn⟩, hg⟩
  have e1 := h1.eq
  have e2 := h2.eq
  rw [hc, hg] at e2
  rw [e2, e1]

/-- adding liquidity to a pool and taking it away again -/
theorem pool_back {p p1 p2 : Pool} {L x1 y1 x2 y2 n1 n2 : Nat} {u l : Int}
    (h1 : PoolUpd { p with lastTimestamp := n1 } p1 L true u l x1 y1)
    (h2 : PoolUpd { p1 with lastTimestamp := n2 } p2 L false u l x2 y2) : SamePool p p2 := by
  have e1 := h1.eq
  have e2 := h2.eq
  have t1 : p1.currentTickIndex = p.currentTickIndex := by rw [e1]
  have el : p2.liquidity = p.liquidity := by
    by_cases hi : l ≤ p.currentTickIndex ∧ p.currentTickIndex < u
    · have hi' : l ≤ p1.currentTickIndex ∧ p1.currentTickIndex < u := by rw [t1]; exact hi
      have := h1.add rfl hi.1 hi.2; have := h2.sub rfl hi'.1 hi'.2
      dsimp only at *; omega
    · have hi' : ¬ (l ≤ p1.currentTickIndex ∧ p1.currentTickIndex < u) := by rw [t1]; exact hi
      have := h1.out hi; have := h2.out hi'
      dsimp only at *; omega
  unfold SamePool
  rw [el] at e2
  rw [e2, e1]

/-- appending a position and removing it again -/
theorem add_remove {ps ps' : Positions} {a : ActorId} {p q : Position} (hn : ps.getLength a + 1 < 2 ^ 32)
    (h0 : ps.map.get (a, ps.getLength a) = none) (h : (ps.add a p).remove a (ps.getLength a) = .ok (ps', q)) :
    q = p ∧ (∀ b, ps'.getLength b = ps.getLength b) ∧ ∀ b i, ps'.get b i = ps.get b i := by
  have hl : (ps.add a p).getLength a = ps.getLength a + 1 := by
    show ((ps.length.insert a (u32Succ (ps.getLength a))).get a).getD 0 = _
    rw [Map.get_insert_self]
    exact u32Succ_eq hn
  unfold Positions.remove Positions.removeAt at h
  rw [hl, u32Pred_eq (by omega) hn] at h
  simp only [bind_ok_iff, pure_ok_iff, Nat.add_sub_cancel, lt_irrefl, if_false] at h
  obtain ⟨q', hq, z, ⟨m, rfl, rfl⟩, e⟩ := h
  cases e
  rw [Parts.add_get, if_pos ⟨rfl, rfl⟩] at hq
  cases hq
  refine ⟨rfl, fun b => ?_, fun b i => ?_⟩
  · show ((Map.insert _ _ _).get b).getD 0 = _
    by_cases hb : b = a
    · subst hb; rw [Map.get_insert_self]; rfl
    · rw [Map.get_insert_ne _ _ hb]
      show ((Map.insert _ _ _).get b).getD 0 = _
      rw [Map.get_insert_ne _ _ hb]; rfl
  · unfold Positions.get
    dsimp only [Positions.add]
    by_cases hb : (b, i) = (a, ps.getLength a)
    · rw [hb, Map.get_erase_self, h0]
    · rw [Map.get_erase_ne _ hb, Map.get_insert_ne _ _ hb]

end Trace

end Verif
