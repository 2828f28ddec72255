import Verif.Spec.Alike
import Verif.Props.Authority

/-! # Two runs of the program on states that differ in times and names of accounts -/

namespace Verif
open Service Spec

/-! ## Results -/

section outcome
variable {α β γ δ : Type} {R : α → β → Prop} {S : γ → δ → Prop}

theorem Spec.SameOutcome.bind {x : M α} {y : M β} {f : α → M γ} {g : β → M δ} (h : SameOutcome R x y)
    (k : ∀ a b, R a b → SameOutcome S (f a) (g b)) : SameOutcome S (x >>= f) (y >>= g) := by
  cases h with
  | ok h => exact k _ _ h
  | error => exact .error

theorem Spec.SameOutcome.same {x : M α} {f : α → M γ} {g : α → M δ} (k : ∀ a, SameOutcome S (f a) (g a)) :
    SameOutcome S (x >>= f) (x >>= g) := by
  cases x with
  | ok a => exact k a
  | error => exact .error

theorem Spec.SameOutcome.bind' {x : M α} {y : M β} {f : α → M γ} {g : β → M δ} (h : SameOutcome R x y)
    (k : ∀ a b, x = .ok a → R a b → SameOutcome S (f a) (g b)) : SameOutcome S (x >>= f) (y >>= g) := by
  cases h with
  | ok h => exact k _ _ rfl h
  | error => exact .error

theorem Spec.SameOutcome.same' {x : M α} {f : α → M γ} {g : α → M δ} (k : ∀ a, x = .ok a → SameOutcome S (f a) (g a)) :
    SameOutcome S (x >>= f) (x >>= g) := by
  cases x with
  | ok a => exact k a rfl
  | error => exact .error

theorem Spec.SameOutcome.guard {c c' : Prop} [Decidable c] [Decidable c'] {e : Err} {f : Unit → M γ} {g : Unit → M δ}
    (h : c ↔ c') (k : ¬ c → SameOutcome S (f ()) (g ())) : SameOutcome S (failIf c e >>= f) (failIf c' e >>= g) := by
  by_cases hc : c
  · rw [failIf_pos hc, failIf_pos (h.1 hc)]; exact .error
  · rw [failIf_neg hc, failIf_neg (fun x => hc (h.2 x))]; exact k hc

theorem Spec.SameOutcome.pure {a : γ} {b : δ} (h : S a b) : SameOutcome S (Pure.pure a : M γ) (Pure.pure b : M δ) :=
  .ok h

theorem Spec.SameOutcome.unwrap {x : M γ} {y : M δ} (h : SameOutcome S x y) :
    SameOutcome S (Verif.unwrap x) (Verif.unwrap y) := by
  cases h with
  | ok h => exact .ok h
  | error => exact .error

theorem Spec.SameOutcome.okOr {x : Option γ} {y : Option δ} {e : Err} (h : Option.Rel S x y) :
    SameOutcome S (Verif.okOr e x) (Verif.okOr e y) := by
  cases h with
  | some h => exact .ok h
  | none => exact .error

theorem Spec.SameOutcome.mono {S' : γ → δ → Prop} {x : M γ} {y : M δ} (h : SameOutcome S x y)
    (k : ∀ a b, S a b → S' a b) : SameOutcome S' x y := by
  cases h with
  | ok h => exact .ok (k _ _ h)
  | error => exact .error

theorem Spec.SameOutcome.refl {x : M γ} : SameOutcome Eq x x := by
  cases x with
  | ok _ => exact .ok rfl
  | error => exact .error

end outcome

namespace Twin

/-! ## Maps -/

section maps
variable {K K' V V' : Type} [DecidableEq K] [DecidableEq K'] {R : V → V' → Prop} {f : K → K'} {P : K → Prop}

/-- related entries under renamed keys, for the keys with `P` -/
def MapLike (P : K → Prop) (f : K → K') (R : V → V' → Prop) (m : Map K V) (m' : Map K' V') : Prop :=
  ∀ k, P k → Option.Rel R (m.get k) (m'.get (f k))

theorem MapLike.insert (hf : Function.Injective f) {m : Map K V} {m' : Map K' V'} (h : MapLike P f R m m') {k : K}
    {k' : K'} {v : V} {v' : V'} (hk : k' = f k) (hv : R v v') : MapLike P f R (m.insert k v) (m'.insert k' v') := by
  subst hk
  intro j hP
  by_cases hj : j = k
  · subst hj; rw [Map.get_insert_self, Map.get_insert_self]; exact .some hv
  · rw [Map.get_insert_ne _ _ hj, Map.get_insert_ne _ _ (fun e => hj (hf e))]; exact h j hP

theorem MapLike.erase (hf : Function.Injective f) {m : Map K V} {m' : Map K' V'} (h : MapLike P f R m m') {k : K}
    {k' : K'} (hk : k' = f k) : MapLike P f R (m.erase k) (m'.erase k') := by
  subst hk
  intro j hP
  by_cases hj : j = k
  · subst hj; rw [Map.get_erase_self, Map.get_erase_self]; exact .none
  · rw [Map.get_erase_ne _ hj, Map.get_erase_ne _ (fun e => hj (hf e))]; exact h j hP

end maps

/-! ## Pools, ticks, positions -/

/-- what is to be the same: the times and numbers of blocks, the times of the last change, the sign of a tick at which
the liquidity does not change, the words of the tick map that are zero -/
structure Strict where
  times : Prop
  last : Prop
  signs : Prop
  words : Prop
  waits : Prop
  le : last → times

/-- everything but times and numbers of blocks -/
abbrev Strict.timeless : Strict := ⟨False, False, True, True, True, id⟩
/-- everything -/
abbrev Strict.all : Strict := ⟨True, True, True, True, True, id⟩
/-- everything but the times of the last change and the sign of no change -/
abbrev Strict.unsigned : Strict := ⟨True, False, False, True, True, False.elim⟩
/-- everything but the times of the last change, the sign of no change and the words that are zero -/
abbrev Strict.wordless : Strict := ⟨True, False, False, False, True, False.elim⟩
/-- everything but the transfers waited for -/
abbrev Strict.waitless : Strict := ⟨True, True, True, True, False, id⟩

/-- the same pool with times of its own, both created by then; with `T.times` and `T.last`, with the same times -/
def PoolSim (T : Strict) (σ : ActorId → ActorId) (n m : Nat) (p q : Pool) : Prop :=
  ∃ st lt, q = { p with startTimestamp := st, lastTimestamp := lt, feeReceiver := σ p.feeReceiver } ∧
    (T.times ∨ p.startTimestamp ≤ n ∧ st ≤ m) ∧ (T.times → n = m ∧ st = p.startTimestamp) ∧
    (T.last → lt = p.lastTimestamp) ∧ (T.signs ∨ p.liquidity < 2 ^ 256)

/-- the same tick with seconds of its own and, if the liquidity does not change there, a sign of its own -/
def TickSim (T : Strict) (t u : Tick) : Prop :=
  ∃ so sg, u = { t with secondsOutside := so, sign := sg } ∧ (T.times → so = t.secondsOutside) ∧
    (sg = t.sign ∨ ¬ T.signs ∧ t.liquidityChange = 0) ∧ (T.signs ∨ t.liquidityGross < 2 ^ 256)

/-- the same tick map of the pools `K`; without `T.words`, a missing word is the word zero -/
def TmSim (T : Strict) (K : PoolKey → Prop) (x y : Tickmap) : Prop :=
  (∀ k c, K k → chunkWord y k c = chunkWord x k c) ∧ (T.words → MapLike (fun z => K z.2) id Eq x y)

def PosSim (T : Strict) (p q : Position) : Prop :=
  ∃ b, q = { p with lastBlockNumber := b } ∧ (T.times → b = p.lastBlockNumber)

structure ModSim (T : Strict) (σ : ActorId → ActorId) (n m : Nat) (a b : ModifyResult) : Prop where
  position : PosSim T a.position b.position
  pool : PoolSim T σ n m a.pool b.pool
  upper : TickSim T a.upper b.upper
  lower : TickSim T a.lower b.lower
  amountX : b.amountX = a.amountX
  amountY : b.amountY = a.amountY

variable {T : Strict} {σ : ActorId → ActorId} {n m : Nat} {p q : Pool} {t u : Tick} {K : PoolKey → Prop} {A : ActorId → Prop}

theorem addFee_sim (h : PoolSim T σ n m p q) {amount protocolFee : Nat} {inX : Bool} :
    SameOutcome (PoolSim T σ n m) (p.addFee amount inX protocolFee) (q.addFee amount inX protocolFee) := by
  obtain ⟨st, lt, rfl, h1, h2, h3, h4⟩ := h
  unfold Pool.addFee
  dsimp only
  refine .same fun pf => .same fun fee => ?_
  split
  · exact .pure ⟨st, lt, rfl, h1, h2, h3, h4⟩
  · refine .same fun g => ?_
    split
    · exact .same fun x => .pure ⟨st, lt, rfl, h1, h2, h3, h4⟩
    · exact .same fun x => .pure ⟨st, lt, rfl, h1, h2, h3, h4⟩

theorem updateLiquidity_sim (h : PoolSim T σ n m p q) {delta : Nat} {sign : Bool} {up lo : Int} :
    SameOutcome (fun a b => PoolSim T σ n m a.1 b.1 ∧ b.2 = a.2) (p.updateLiquidity delta sign up lo)
      (q.updateLiquidity delta sign up lo) := by
  obtain ⟨st, lt, rfl, h1, h2, h3, h4⟩ := h
  unfold Pool.updateLiquidity
  dsimp only
  refine .same fun r => ?_
  split
  · exact .pure ⟨⟨st, lt, rfl, h1, h2, h3, h4⟩, rfl⟩
  · split
    · exact .same' fun x hx => .pure ⟨⟨st, lt, rfl, h1, h2, h3, h4.imp id fun _ => by
        obtain ⟨h, rfl⟩ := addC_ok_iff.1 hx; exact h⟩, rfl⟩
    · exact .same' fun x hx => .pure ⟨⟨st, lt, rfl, h1, h2, h3, h4.imp id fun hl => by
        obtain ⟨h, rfl⟩ := subC_ok_iff.1 hx; exact lt_of_le_of_lt (Nat.sub_le _ _) hl⟩, rfl⟩

theorem tickCreate_sim (h : PoolSim T σ n m p q) {i : Int} {now now' : Nat} (hT : T.times → now' = now) :
    SameOutcome (TickSim T) (Tick.create i p now) (Tick.create i q now') := by
  obtain ⟨st, lt, rfl, h1, h2, h3, h4⟩ := h
  unfold Tick.create
  dsimp only
  exact .same fun x => .pure ⟨_, _, rfl, fun ht => by rw [hT ht, (h2 ht).2], .inl rfl, .inr (by positivity)⟩

theorem cross_sim (h : PoolSim T σ n m p q) (ht : TickSim T t u) :
    SameOutcome (fun a b => TickSim T a.1 b.1 ∧ PoolSim T σ n m a.2 b.2) (t.cross p n) (u.cross q m) := by
  obtain ⟨st, lt, rfl, h1, h2, h3, h4⟩ := h
  obtain ⟨so, sg, rfl, hso, hsg, hg⟩ := ht
  unfold Tick.cross
  by_cases hle : p.startTimestamp ≤ n
  · have hle' : st ≤ m := h1.elim (fun ht => by obtain ⟨rfl, rfl⟩ := h2 ht; exact hle) (·.2)
    have e1 : subC .track n p.startTimestamp = .ok (n - p.startTimestamp) := by unfold subC; rw [if_pos hle]
    have e2 : subC .track m st = .ok (m - st) := by unfold subC; rw [if_pos hle']
    dsimp only
    rw [e1, e2, ok_bind, ok_bind]
    have key : ∀ x, (T.signs ∨ x < 2 ^ 256) → TickSim T
        { t with
          feeGrowthOutsideX := fgSub p.feeGrowthGlobalX t.feeGrowthOutsideX
          feeGrowthOutsideY := fgSub p.feeGrowthGlobalY t.feeGrowthOutsideY
          secondsOutside := (n - p.startTimestamp + 2 ^ 64 - t.secondsOutside) % 2 ^ 64 }
        { t with
          sign := sg
          feeGrowthOutsideX := fgSub p.feeGrowthGlobalX t.feeGrowthOutsideX
          feeGrowthOutsideY := fgSub p.feeGrowthGlobalY t.feeGrowthOutsideY
          secondsOutside := (m - st + 2 ^ 64 - so) % 2 ^ 64 } ∧
        PoolSim T σ n m { p with liquidity := x, lastTimestamp := n }
          { p with liquidity := x, startTimestamp := st, lastTimestamp := m, feeReceiver := σ p.feeReceiver } :=
      fun x hx => ⟨⟨_, _, rfl, fun ht => by obtain ⟨rfl, rfl⟩ := h2 ht; rw [hso ht], hsg, hg⟩, _, _, rfl, h1, h2,
        fun ht => (h2 (T.le ht)).1.symm, hx⟩
    rcases hsg with rfl | ⟨hns, h0⟩
    · refine .same' fun x hx => .pure (key x (h4.imp id fun hl => ?_))
      split at hx
      · exact (addC_ok_iff.1 hx).2 ▸ (addC_ok_iff.1 hx).1
      · obtain ⟨-, rfl⟩ := subC_ok_iff.1 hx
        exact lt_of_le_of_lt (Nat.sub_le _ _) hl
    · have hl := h4.resolve_left hns
      have a1 : ∀ b : Prop, [Decidable b] → (if b then addC 256 .track p.liquidity t.liquidityChange
          else subC .track p.liquidity t.liquidityChange) = .ok p.liquidity := by
        intro b _
        rw [h0]
        split
        · exact addC_ok_iff.2 ⟨hl, rfl⟩
        · exact subC_ok_iff.2 ⟨Nat.zero_le _, rfl⟩
      rw [a1, a1]
      exact .pure (key _ h4)
  · have ht : T.times := h1.elim id fun h => absurd h.1 hle
    obtain ⟨rfl, rfl⟩ := h2 ht
    have e1 : subC .track n p.startTimestamp = .error .track := by unfold subC; rw [if_neg hle]
    dsimp only
    rw [e1]
    exact .error

/-- the sign of a tick at which the liquidity does not change does not matter -/
theorem update_unsigned (h0 : t.liquidityChange = 0) (hg : t.liquidityGross < 2 ^ 256) (sg : Bool)
    {delta maxPerTick : Nat} {isUpper isDeposit : Bool} :
    Tick.update { t with sign := sg } delta maxPerTick isUpper isDeposit =
      t.update delta maxPerTick isUpper isDeposit := by
  unfold Tick.update
  have e : Tick.calculateNewLiquidityGross { t with sign := sg } isDeposit delta maxPerTick =
    t.calculateNewLiquidityGross isDeposit delta maxPerTick := rfl
  rw [e]
  cases hgr : t.calculateNewLiquidityGross isDeposit delta maxPerTick with
  | error e => rfl
  | ok g =>
    rw [ok_bind, ok_bind]
    have hd : delta < 2 ^ 256 := by
      obtain ⟨b1, b2⟩ := gross_ok hgr
      cases isDeposit with
      | true => have := b1 rfl; omega
      | false => have := b2 rfl; omega
    have ha : addC 256 .panic 0 delta = .ok delta := addC_ok_iff.2 ⟨by rwa [Nat.zero_add], (Nat.zero_add _).symm⟩
    have key : ∀ (x : Tick) (sg : Bool), x.liquidityChange = 0 → ∀ d,
        Tick.updateLiquidityChange { x with sign := sg } delta d =
          .ok { x with liquidityChange := delta, sign := d } := by
      intro x sg hx d
      unfold Tick.updateLiquidityChange
      dsimp only
      rw [hx, if_neg (Nat.not_lt_zero _), ha]
      cases sg <;> cases d <;> rfl
    exact (key { t with liquidityGross := g } sg h0 _).trans (key { t with liquidityGross := g } t.sign h0 _).symm

theorem tickUpdate_sim (ht : TickSim T t u) {delta maxPerTick : Nat} {isUpper isDeposit : Bool} :
    SameOutcome (TickSim T) (t.update delta maxPerTick isUpper isDeposit) (u.update delta maxPerTick isUpper isDeposit) := by
  obtain ⟨so, sg, rfl, hso, hsg, hg⟩ := ht
  have e : Tick.update { t with secondsOutside := so, sign := sg } delta maxPerTick isUpper isDeposit =
      Tick.update { t with secondsOutside := so } delta maxPerTick isUpper isDeposit := by
    rcases hsg with rfl | ⟨hns, h0⟩
    · rfl
    · exact update_unsigned (t := { t with secondsOutside := so }) h0 (hg.resolve_left hns) sg
  rw [e]
  unfold Tick.update
  refine .same' fun g hgr => ?_
  have hg' : T.signs ∨ g < 2 ^ 256 := hg.imp id fun hl => by
    obtain ⟨b1, b2⟩ := gross_ok hgr
    cases isDeposit with
    | true => exact (b1 rfl).2.2
    | false => have := b2 rfl; omega
  unfold Tick.updateLiquidityChange
  dsimp only
  split
  · split
    · exact .pure ⟨so, _, rfl, hso, .inl rfl, hg'⟩
    · exact .pure ⟨so, _, rfl, hso, .inl rfl, hg'⟩
  · exact .same fun x => .pure ⟨so, _, rfl, hso, .inl rfl, hg'⟩

theorem posUpdate_sim {a b : Position} (h : PosSim T a b) {sign : Bool} {delta x y : Nat} :
    SameOutcome (PosSim T) (a.update sign delta x y) (b.update sign delta x y) := by
  obtain ⟨k, rfl, hk0⟩ := h
  unfold Position.update Position.calculateNewLiquidity
  dsimp only
  exact .same fun _ => .same fun _ => .same fun _ => .same fun _ => .same fun _ => .same fun _ => .pure ⟨k, rfl, hk0⟩

theorem modify_sim {a b : Position} (ha : PosSim T a b) (h : PoolSim T σ n m p q) {l l' : Tick} (ht : TickSim T t u)
    (hl : TickSim T l l') {delta : Nat} {add : Bool} {now now' spacing : Nat} (hT : T.times → now' = now) :
    SameOutcome (ModSim T σ n m) (a.modify p t l delta add now spacing) (b.modify q u l' delta add now' spacing) := by
  unfold Position.modify
  refine (tickUpdate_sim hl).bind fun l1 l2 hl => (tickUpdate_sim ht).bind fun t1 t2 ht => ?_
  obtain ⟨st, lt, rfl, h1, h2, h3, h4⟩ := h
  have hp : PoolSim T σ n m { p with lastTimestamp := now }
      { p with startTimestamp := st, lastTimestamp := now', feeReceiver := σ p.feeReceiver } :=
    ⟨st, now', rfl, h1, h2, fun ht => hT (T.le ht), h4⟩
  obtain ⟨so, sg, rfl, hso⟩ := hl
  obtain ⟨so', sg', rfl, hso'⟩ := ht
  dsimp only
  refine (posUpdate_sim ha).bind fun a1 b1 ha => (updateLiquidity_sim hp).bind fun r1 r2 hr => ?_
  exact .pure ⟨ha, hr.1, ⟨_, _, rfl, hso'⟩, ⟨_, _, rfl, hso⟩, by rw [hr.2], by rw [hr.2]⟩

theorem posClaim_sim {a b : Position} (ha : PosSim T a b) (h : PoolSim T σ n m p q) {l l' : Tick} (ht : TickSim T t u)
    (hl : TickSim T l l') {now now' : Nat} (hT : T.times → now' = now) :
    SameOutcome (ModSim T σ n m) (a.claimFee p t l now) (b.claimFee q u l' now') := by
  unfold Position.claimFee
  have hk : b.poolKey = a.poolKey := by obtain ⟨k, rfl, hk0⟩ := ha; rfl
  rw [hk]
  refine (modify_sim ha h ht hl hT).unwrap.bind fun r1 r2 hr => ?_
  obtain ⟨k, e, hk0⟩ := hr.position
  exact .pure ⟨⟨k, by rw [e], hk0⟩, hr.pool, hr.upper, hr.lower, by dsimp only; rw [e], by dsimp only; rw [e]⟩

theorem posCreate_sim {key : PoolKey} (h : PoolSim T σ n m p q) {l l' : Tick} (ht : TickSim T t u) (hl : TickSim T l l')
    {now now' delta a b k k' spacing : Nat} (hT : T.times → now' = now ∧ k' = k) :
    SameOutcome (ModSim T σ n m) (Position.create p key l t now delta a b k spacing)
      (Position.create q key l' u now' delta a b k' spacing) := by
  unfold Position.create
  have h0 := h
  obtain ⟨st, lt, rfl, h1, h2, h3, h4⟩ := h
  refine .same fun _ => ?_
  refine (modify_sim ?_ h0 ht hl fun h => (hT h).1).unwrap
  obtain ⟨so, sg, rfl, hso⟩ := hl
  obtain ⟨so', sg', rfl, hso'⟩ := ht
  exact ⟨k', rfl, fun h => (hT h).2⟩

theorem posRemove_sim {a b : Position} (ha : PosSim T a b) (h : PoolSim T σ n m p q) {l l' : Tick} (ht : TickSim T t u)
    (hl : TickSim T l l') {now now' spacing : Nat} (hT : T.times → now' = now) :
    SameOutcome (ModSim T σ n m) (a.remove p now l t spacing) (b.remove q now' l' u spacing) := by
  unfold Position.remove
  have hk : b.liquidity = a.liquidity := by obtain ⟨k, rfl, hk0⟩ := ha; rfl
  rw [hk]
  refine (modify_sim ha h ht hl hT).unwrap.bind fun r1 r2 hr => ?_
  obtain ⟨k, e, hk0⟩ := hr.position
  rw [hr.amountX, hr.amountY, e]
  exact .same fun x => .same fun y => .pure ⟨⟨k, by first | exact e | rfl, hk0⟩, hr.pool, hr.upper, hr.lower, rfl, rfl⟩

/-! ## States -/

structure Sim (T : Strict) (K : PoolKey → Prop) (A : ActorId → Prop) (σ : ActorId → ActorId) (n m : Nat) (s t : Inv) : Prop where
  inj : Function.Injective σ
  admin : t.admin = σ s.admin
  protocolFee : t.protocolFee = s.protocolFee
  feeTiers : t.feeTiers = s.feeTiers
  poolKeys : t.poolKeys = s.poolKeys
  tickmap : TmSim T K s.tickmap t.tickmap
  pools : MapLike K id (PoolSim T σ n m) s.pools t.pools
  ticks : MapLike (fun z => K z.1) id (TickSim T) s.ticks t.ticks
  lengths : ∀ a, A a → t.positions.getLength (σ a) = s.positions.getLength a
  positions : MapLike (fun z => A z.1) (Prod.map σ id) (PosSim T) s.positions.map t.positions.map
  balances : MapLike (fun z => A z.1) (Prod.map σ id) Eq s.balances t.balances
  awaiting : T.waits → ∀ k, t.awaiting.get k = (s.awaiting.get k).map (renameTransfer σ)

variable {s s' : Inv}

theorem Sim.injp (h : Sim T K A σ n m s s') {V : Type} : Function.Injective (Prod.map σ (id : V → V)) :=
  Function.Injective.prodMap h.inj Function.injective_id

theorem Sim.mono (h : Sim T K A σ n m s s') {n' m' : Nat} (hn : n ≤ n') (hm : m ≤ m')
    (hT : T.times → n' = m') : Sim T K A σ n' m' s s' :=
  { h with
    pools := fun k hk => by
      have := h.pools k hk
      revert this
      generalize s.pools.get k = a
      generalize s'.pools.get (id k) = b
      intro this
      cases this with
      | some h =>
        obtain ⟨st, lt, e, h1, h2, h3⟩ := h
        exact .some ⟨st, lt, e, h1.imp id fun h => ⟨h.1.trans hn, h.2.trans hm⟩, fun ht => ⟨hT ht, (h2 ht).2⟩, h3⟩
      | none => exact .none }

theorem poolsGet_sim (h : Sim T K A σ n m s s') {k : PoolKey} (hk : K k) :
    SameOutcome (PoolSim T σ n m) (poolsGet s.pools k) (poolsGet s'.pools k) := .okOr (h.pools k hk)

theorem ticksGet_sim {x y : Map (PoolKey × Int) Tick} (h : MapLike (fun z => K z.1) id (TickSim T) x y) {k : PoolKey} (hk : K k) (i : Int) :
    SameOutcome (TickSim T) (ticksGet x k i) (ticksGet y k i) := .okOr (h (k, i) hk)

theorem poolsUpdate_sim (h : Sim T K A σ n m s s') {k : PoolKey} (hk : K k) (hp : PoolSim T σ n m p q) :
    SameOutcome (MapLike K id (PoolSim T σ n m)) (poolsUpdate s.pools k p) (poolsUpdate s'.pools k q) := by
  unfold poolsUpdate
  exact (poolsGet_sim h hk).bind fun a b _ => .pure <| h.pools.insert Function.injective_id rfl hp

theorem ticksUpdate_sim {x y : Map (PoolKey × Int) Tick} (h : MapLike (fun z => K z.1) id (TickSim T) x y) {k : PoolKey} (hk : K k) {i : Int}
    (ht : TickSim T t u) : SameOutcome (MapLike (fun z => K z.1) id (TickSim T)) (ticksUpdate x k i t) (ticksUpdate y k i u) := by
  unfold ticksUpdate
  exact (ticksGet_sim h hk i).bind fun a b _ => .pure <| h.insert Function.injective_id rfl ht

theorem ticksRemove_sim {x y : Map (PoolKey × Int) Tick} (h : MapLike (fun z => K z.1) id (TickSim T) x y) {k : PoolKey} (hk : K k) {i : Int} :
    SameOutcome (MapLike (fun z => K z.1) id (TickSim T)) (ticksRemove x k i) (ticksRemove y k i) := by
  unfold ticksRemove
  exact (ticksGet_sim h hk i).bind fun a b _ => .pure <| h.erase Function.injective_id rfl

theorem ticksAdd_sim {x y : Map (PoolKey × Int) Tick} (h : MapLike (fun z => K z.1) id (TickSim T) x y) {k : PoolKey} (hk : K k) {i : Int}
    (ht : TickSim T t u) : SameOutcome (MapLike (fun z => K z.1) id (TickSim T)) (ticksAdd x k i t) (ticksAdd y k i u) := by
  unfold ticksAdd
  have := h (k, i) hk
  dsimp only [id] at this
  revert this
  generalize x.get (k, i) = a
  generalize y.get (k, i) = b
  intro this
  cases this
  · exact .error
  · exact .pure <| h.insert Function.injective_id rfl ht

theorem TmSim.of_like {x y : Tickmap} (h : MapLike (fun z => K z.2) id Eq x y) : TmSim T K x y := by
  refine ⟨fun k c hk => ?_, fun _ => h⟩
  unfold chunkWord
  have := h (c, k) hk
  dsimp only [id] at this
  revert this
  generalize x.get (c, k) = a
  generalize y.get (c, k) = b
  intro this
  cases this with
  | some e => rw [e]
  | none => rfl

theorem word_eq {x y : Tickmap} (h : TmSim T K x y) {k : PoolKey} (hk : K k) (c : Nat) :
    chunkWord y k c = chunkWord x k c := h.1 k c hk

theorem flip_sim {x y : Tickmap} (h : TmSim T K x y) {k : PoolKey} (hk : K k) {v : Bool} {i : Int}
    {spacing : Nat} : SameOutcome (TmSim T K) (tickmapFlip x v i spacing k)
      (tickmapFlip y v i spacing k) := by
  unfold tickmapFlip
  refine .same fun r => ?_
  dsimp only
  rw [word_eq h hk]
  refine .same fun _ => .pure ⟨fun k' c hk' => ?_, fun hT => (h.2 hT).insert Function.injective_id rfl rfl⟩
  have := h.1 k' c hk'
  unfold chunkWord at this ⊢
  rw [Map.get_insert, Map.get_insert]
  split
  · rfl
  · exact this

theorem next_sim {x y : Tickmap} (h : TmSim T K x y) {k : PoolKey} (hk : K k)
    {spacing limChunk limBit : Nat} (n : Nat) : ∀ chunk bit,
      nextLoop y k spacing limChunk limBit n chunk bit = nextLoop x k spacing limChunk limBit n chunk bit := by
  induction n with
  | zero => intro chunk bit; rfl
  | succ n ih =>
    intro chunk bit
    unfold nextLoop
    rw [word_eq h hk, ih]

theorem prev_sim {x y : Tickmap} (h : TmSim T K x y) {k : PoolKey} (hk : K k)
    {spacing limChunk limBit : Nat} (chunk : Nat) : ∀ bit,
      prevLoop y k spacing limChunk limBit chunk bit = prevLoop x k spacing limChunk limBit chunk bit := by
  induction chunk with
  | zero => intro bit; unfold prevLoop; rw [word_eq h hk]
  | succ n ih =>
    intro bit
    unfold prevLoop
    dsimp only
    rw [word_eq h hk, ih]

theorem closer_sim {x y : Tickmap} (h : TmSim T K x y) {k : PoolKey} (hk : K k) {limit : Nat}
    {xToY : Bool} {cur : Int} {spacing : Nat} :
    getCloserLimit y limit xToY cur spacing k = getCloserLimit x limit xToY cur spacing k := by
  unfold getCloserLimit nextInitialized prevInitialized
  simp only [next_sim h hk, prev_sim h hk]

theorem addTick_sim (h : Sim T K A σ n m s s') {k : PoolKey} (hk : K k) (ht : TickSim T t u) :
    SameOutcome (Sim T K A σ n m) (addTick s k t) (addTick s' k u) := by
  unfold addTick
  have hi : u.index = t.index := by obtain ⟨so, sg, rfl, hso⟩ := ht; rfl
  rw [hi]
  exact (ticksAdd_sim h.ticks hk ht).bind fun a b hab => (flip_sim h.tickmap hk).bind fun c d hcd =>
    .pure { h with ticks := hab, tickmap := hcd }

theorem removeTick_sim (h : Sim T K A σ n m s s') {k : PoolKey} (hk : K k) (ht : TickSim T t u) :
    SameOutcome (Sim T K A σ n m) (removeTick s k t) (removeTick s' k u) := by
  unfold removeTick
  obtain ⟨so, sg, rfl, hso⟩ := ht
  dsimp only
  exact .same fun _ => (flip_sim h.tickmap hk).bind fun c d hcd => (ticksRemove_sim h.ticks hk).bind fun a b hab =>
    .pure { h with ticks := hab, tickmap := hcd }

theorem putTick_sim (h : Sim T K A σ n m s s') {k : PoolKey} (hk : K k) (ht : TickSim T t u) {new : Bool} :
    SameOutcome (Sim T K A σ n m) (putTick s k t new) (putTick s' k u new) := by
  unfold putTick
  split
  · exact addTick_sim h hk ht
  · have hi : u.index = t.index := by obtain ⟨so, sg, rfl, hso⟩ := ht; rfl
    rw [hi]
    exact (ticksUpdate_sim h.ticks hk ht).bind fun a b hab => .pure <| { h with ticks := hab }

theorem dropTick_sim (h : Sim T K A σ n m s s') {k : PoolKey} (hk : K k) {i : Int} (ht : TickSim T t u) :
    SameOutcome (Sim T K A σ n m) (dropTick s k i t) (dropTick s' k i u) := by
  unfold dropTick
  have hi : u.liquidityGross = t.liquidityGross := by obtain ⟨so, sg, rfl, hso⟩ := ht; rfl
  rw [hi]
  split
  · exact removeTick_sim h hk ht
  · exact (ticksUpdate_sim h.ticks hk ht).bind fun a b hab => .pure <| { h with ticks := hab }

theorem getOrCreateTick_sim (h : Sim T K A σ n m s s') {k : PoolKey} (hk : K k) {i : Int} {now now' : Nat}
    (hT : T.times → now' = now) :
    SameOutcome (fun a b => TickSim T a.1 b.1 ∧ b.2 = a.2) (getOrCreateTick s now k i) (getOrCreateTick s' now' k i) := by
  unfold getOrCreateTick
  have := h.ticks (k, i) hk
  dsimp only [id] at this
  revert this
  generalize s.ticks.get (k, i) = a
  generalize s'.ticks.get (k, i) = b
  intro this
  cases this with
  | some h => exact .ok ⟨h, rfl⟩
  | none =>
    refine SameOutcome.bind (R := TickSim T) (.unwrap ?_) fun a b hab => .pure ⟨hab, rfl⟩
    unfold createTick
    exact .same fun _ => (poolsGet_sim h hk).bind fun a b hab => tickCreate_sim hab hT

/-! ## Balances -/

theorem bal_eq {x y : Balances} (h : MapLike (fun z => A z.1) (Prod.map σ id) Eq x y) {a : ActorId} (ha : A a) (k : ActorId) :
    y.get (σ a, k) = x.get (a, k) := by
  have := h (a, k) ha
  revert this
  generalize x.get (a, k) = v
  show Option.Rel Eq v (y.get (σ a, k)) → _
  generalize y.get (σ a, k) = w
  intro this
  cases this with
  | some e => rw [e]
  | none => rfl

theorem increase_sim (hs : Function.Injective σ) {x y : Balances} (h : MapLike (fun z => A z.1) (Prod.map σ id) Eq x y) {k a : ActorId}
    (ha : A a) {v : Nat} : SameOutcome (MapLike (fun z => A z.1) (Prod.map σ id) Eq) (increaseTokenBalance x k a v)
      (increaseTokenBalance y k (σ a) v) := by
  unfold increaseTokenBalance
  rw [bal_eq h ha]
  split
  · exact .pure h
  · exact .same fun w => .pure <| h.insert (hs.prodMap Function.injective_id) rfl rfl

theorem decrease_sim (hs : Function.Injective σ) {x y : Balances} (h : MapLike (fun z => A z.1) (Prod.map σ id) Eq x y) {k a : ActorId}
    (ha : A a) {v : Option Nat} :
    SameOutcome (fun c d => MapLike (fun z => A z.1) (Prod.map σ id) Eq c.1 d.1 ∧ d.2 = c.2) (decreaseTokenBalance x k a v)
      (decreaseTokenBalance y k (σ a) v) := by
  have hi : Function.Injective (Prod.map σ (id : ActorId → ActorId)) := hs.prodMap Function.injective_id
  unfold decreaseTokenBalance
  split
  · exact .pure ⟨h, rfl⟩
  · rw [bal_eq h ha]
    refine .same fun w => ?_
    split
    · exact .same fun r => .pure ⟨h.insert hi rfl rfl, rfl⟩
    · exact .pure ⟨h.erase hi rfl, rfl⟩
  · rw [bal_eq h ha]
    exact .same fun w => .pure ⟨h.erase hi rfl, rfl⟩

/-! ## Positions -/

/-- related positions of all owners -/
structure PossSim (T : Strict) (A : ActorId → Prop) (σ : ActorId → ActorId) (x y : Positions) : Prop where
  lengths : ∀ a, A a → y.getLength (σ a) = x.getLength a
  map : MapLike (fun z => A z.1) (Prod.map σ id) (PosSim T) x.map y.map

theorem Sim.poss (h : Sim T K A σ n m s s') : PossSim T A σ s.positions s'.positions := ⟨h.lengths, h.positions⟩

theorem getLength_insert {x : Positions} {mp : Map (ActorId × Nat) Position} {a b : ActorId} {v : Nat} :
    Positions.getLength { length := x.length.insert a v, map := mp } b = if b = a then v else x.getLength b := by
  unfold Positions.getLength
  dsimp only
  by_cases h : b = a
  · subst h; rw [Map.get_insert_self, if_pos rfl]; rfl
  · rw [Map.get_insert_ne _ _ h, if_neg h]

theorem lengths_insert (hs : Function.Injective σ) {x y : Positions} (h : PossSim T A σ x y) {a : ActorId} {v : Nat}
    {mp mp' : Map (ActorId × Nat) Position} (hm : MapLike (fun z => A z.1) (Prod.map σ id) (PosSim T) mp mp') :
    PossSim T A σ { length := x.length.insert a v, map := mp } { length := y.length.insert (σ a) v, map := mp' } := by
  refine ⟨fun b hb' => ?_, hm⟩
  rw [getLength_insert, getLength_insert]
  by_cases hb : b = a
  · subst hb; rw [if_pos rfl, if_pos rfl]
  · rw [if_neg hb, if_neg (fun e => hb (hs e)), h.lengths _ hb']

theorem posAdd_sim (hs : Function.Injective σ) {x y : Positions} (h : PossSim T A σ x y) {a : ActorId} (ha : A a)
    {v w : Position} (hv : PosSim T v w) : PossSim T A σ (x.add a v) (y.add (σ a) w) := by
  unfold Positions.add
  dsimp only
  rw [h.lengths _ ha]
  exact lengths_insert hs h (h.map.insert (hs.prodMap Function.injective_id) rfl hv)

theorem positionsGet_sim {x y : Positions} (h : PossSim T A σ x y) {a : ActorId} (ha : A a) (i : Nat) :
    SameOutcome (PosSim T) (x.get a i) (y.get (σ a) i) := .okOr (h.map (a, i) ha)

theorem positionsUpdate_sim (hs : Function.Injective σ) {x y : Positions} (h : PossSim T A σ x y) {a : ActorId} (ha : A a)
    {i : Nat} {v w : Position} (hv : PosSim T v w) : SameOutcome (PossSim T A σ) (x.update a i v) (y.update (σ a) i w) := by
  unfold Positions.update
  rw [h.lengths _ ha]
  split
  · exact .error
  · exact .ok ⟨h.lengths, h.map.insert (hs.prodMap Function.injective_id) rfl hv⟩

theorem removeAt_sim (hs : Function.Injective σ) {x y : Positions} (h : PossSim T A σ x y) {a : ActorId} (ha : A a)
    (i last : Nat) :
    SameOutcome (PossSim T A σ) (x.removeAt a i last) (y.removeAt (σ a) i last) := by
  have hi : Function.Injective (Prod.map σ (id : Nat → Nat)) := hs.prodMap Function.injective_id
  unfold Positions.removeAt
  refine SameOutcome.bind (R := MapLike (fun z => A z.1) (Prod.map σ id) (PosSim T)) ?_ fun c d hcd => .pure (lengths_insert hs h hcd)
  split
  · exact SameOutcome.bind (.okOr (h.map (a, last) ha)) fun c d hcd => .pure ((h.map.erase hi rfl).insert hi rfl hcd)
  · exact .pure (h.map.erase hi rfl)

theorem positionsRemove_sim (hs : Function.Injective σ) {x y : Positions} (h : PossSim T A σ x y) {a : ActorId}
    (ha : A a) {i : Nat} :
    SameOutcome (fun c d => PossSim T A σ c.1 d.1 ∧ PosSim T c.2 d.2) (x.remove a i) (y.remove (σ a) i) := by
  unfold Positions.remove
  refine (positionsGet_sim h ha i).bind fun v w hv => ?_
  rw [h.lengths _ ha]
  exact (removeAt_sim hs h ha i _).bind fun c d hcd => .pure ⟨hcd, hv⟩

theorem positionsTransfer_sim (hs : Function.Injective σ) {x y : Positions} (h : PossSim T A σ x y) {a b : ActorId}
    (ha : A a) (hb : A b) {i : Nat} : SameOutcome (PossSim T A σ) (x.transfer a i b) (y.transfer (σ a) i (σ b)) := by
  unfold Positions.transfer
  exact (positionsRemove_sim hs h ha).bind fun c d hcd => .pure (posAdd_sim hs hcd.1 hb hcd.2)

/-! ## Swaps -/

inductive PickSim (T : Strict) : UpdatePoolTick → UpdatePoolTick → Prop
  | noTick : PickSim T .noTick .noTick
  | initialized {t u : Tick} : TickSim T t u → PickSim T (.initialized t) (.initialized u)
  | uninitialized (i : Int) : PickSim T (.uninitialized i) (.uninitialized i)

structure UpdSim (T : Strict) (σ : ActorId → ActorId) (n m : Nat) (a b : UpdateTickResult) : Prop where
  pool : PoolSim T σ n m a.pool b.pool
  tick : PickSim T a.tick b.tick
  total : b.total = a.total
  remaining : b.remaining = a.remaining
  crossed : b.crossed = a.crossed

theorem PoolSim.tick (h : PoolSim T σ n m p q) (i : Int) :
    PoolSim T σ n m { p with currentTickIndex := i } { q with currentTickIndex := i } := by
  obtain ⟨st, lt, rfl, h1, h2, h3, h4⟩ := h
  exact ⟨st, lt, rfl, h1, h2, h3, h4⟩

theorem PoolSim.price (h : PoolSim T σ n m p q) (x : Nat) :
    PoolSim T σ n m { p with sqrtPrice := x } { q with sqrtPrice := x } := by
  obtain ⟨st, lt, rfl, h1, h2, h3, h4⟩ := h
  exact ⟨st, lt, rfl, h1, h2, h3, h4⟩

theorem PoolSim.eqs (h : PoolSim T σ n m p q) : q.sqrtPrice = p.sqrtPrice ∧ q.liquidity = p.liquidity ∧
    q.currentTickIndex = p.currentTickIndex := by
  obtain ⟨st, lt, rfl, h1, h2, h3, h4⟩ := h
  exact ⟨rfl, rfl, rfl⟩

theorem updateTick_sim (h : PoolSim T σ n m p q) {a b : UpdatePoolTick} (ht : PickSim T a b) {r : SwapResult}
    {limit remaining protocolFee : Nat} {byIn xToY : Bool} {tier : FeeTier} :
    SameOutcome (UpdSim T σ n m) (p.updateTick r limit a remaining byIn xToY n protocolFee tier)
      (q.updateTick r limit b remaining byIn xToY m protocolFee tier) := by
  unfold Pool.updateTick
  have hno : b = .noTick ↔ a = .noTick := by cases ht <;> simp
  simp only [hno]
  split
  · exact .same fun i => .pure ⟨h.tick i, ht, rfl, rfl, rfl⟩
  · refine SameOutcome.bind (R := Eq) ?_ fun enough enough' he => ?_
    · rw [h.eqs.2.1]
      exact .refl
    subst he
    cases ht with
    | noTick => exact .error
    | uninitialized i => exact .pure ⟨h.tick _, .uninitialized i, rfl, rfl, rfl⟩
    | @initialized t u ht =>
      have hi : u.index = t.index := by obtain ⟨so, sg, rfl, hso⟩ := ht; rfl
      dsimp only
      split
      · refine (cross_sim h ht).unwrap.bind fun c d hcd => ?_
        rw [hi]
        exact .pure ⟨hcd.2.tick _, .initialized hcd.1, rfl, rfl, rfl⟩
      · split
        · split
          · refine (addFee_sim h).unwrap.bind fun c d hcd => ?_
            rw [hi]
            exact .pure ⟨hcd.tick _, .initialized ht, rfl, rfl, rfl⟩
          · rw [hi]; exact .pure ⟨h.tick _, .initialized ht, rfl, rfl, rfl⟩
        · rw [hi]; exact .pure ⟨h.tick _, .initialized ht, rfl, rfl, rfl⟩

structure SwSim (T : Strict) (σ : ActorId → ActorId) (n m : Nat) (a b : SwapState) : Prop where
  pool : PoolSim T σ n m a.pool b.pool
  ticks : List.Forall₂ (TickSim T) a.ticks b.ticks
  remaining : b.remaining = a.remaining
  totalIn : b.totalIn = a.totalIn
  totalOut : b.totalOut = a.totalOut
  fee : b.fee = a.fee

theorem limitingTick_sim (h : Sim T K A σ n m s s') {key : PoolKey} (hk : K key) {o : Option (Int × Bool)} :
    SameOutcome (PickSim T) (limitingTick s key o) (limitingTick s' key o) := by
  unfold limitingTick
  split
  · exact (ticksGet_sim h.ticks hk _).bind fun a b hab => .pure (.initialized hab)
  · exact .ok (.uninitialized _)
  · exact .ok .noTick

theorem swapIter_sim (h : Sim T K A σ n m s s') {key : PoolKey} (hk : K key) {xToY byIn : Bool} {limit : Nat} {a b : SwapState}
    (hab : SwSim T σ n m a b) : SameOutcome (SwSim T σ n m) (swapIter s ⟨key, xToY, byIn, limit, n⟩ a)
      (swapIter s' ⟨key, xToY, byIn, limit, m⟩ b) := by
  unfold swapIter
  dsimp only
  obtain ⟨e1, e2, e3⟩ := hab.pool.eqs
  rw [closer_sim h.tickmap hk, h.protocolFee, e1, e2, e3, hab.remaining, hab.totalIn, hab.totalOut, hab.fee]
  refine .same fun lim => .same fun r => .same fun inFee => .same fun remaining => ?_
  refine (addFee_sim hab.pool).unwrap.bind fun p q hp => .same fun fee => .same fun tin => .same fun tout =>
    .same fun _ => (limitingTick_sim h hk).bind fun t u ht => ?_
  refine (updateTick_sim (hp.price _) ht).bind fun c d hcd => ?_
  rw [hcd.total, hcd.remaining, hcd.crossed, hcd.pool.eqs.2.2]
  refine .same fun total => .same fun _ => .pure ⟨hcd.pool, ?_, rfl, rfl, rfl, rfl⟩
  dsimp only
  have hk := hcd.tick
  revert hk
  generalize c.tick = x
  generalize d.tick = y
  intro hk
  cases hk with
  | noTick => exact hab.ticks
  | uninitialized i => exact hab.ticks
  | initialized ht =>
    dsimp only
    split
    · exact List.rel_append hab.ticks (.cons ht .nil)
    · exact hab.ticks

theorem swapLoop_sim (h : Sim T K A σ n m s s') {key : PoolKey} (hk : K key) {xToY byIn : Bool} {limit : Nat} (fuel : Nat) :
    ∀ {a b : SwapState}, SwSim T σ n m a b →
      Option.Rel (SameOutcome (SwSim T σ n m)) (swapLoop s ⟨key, xToY, byIn, limit, n⟩ fuel a)
        (swapLoop s' ⟨key, xToY, byIn, limit, m⟩ fuel b) := by
  induction fuel with
  | zero => intro a b _; exact .none
  | succ k ih =>
    intro a b hab
    unfold swapLoop
    rw [hab.remaining]
    split
    · exact .some (.ok hab)
    · have := swapIter_sim h hk (xToY := xToY) (byIn := byIn) (limit := limit) hab
      revert this
      generalize swapIter s ⟨key, xToY, byIn, limit, n⟩ a = x
      generalize swapIter s' ⟨key, xToY, byIn, limit, m⟩ b = y
      intro this
      cases this with
      | error => exact .some .error
      | ok hc => exact ih hc

structure ResSim (T : Strict) (σ : ActorId → ActorId) (n m : Nat) (a b : CalculateSwapResult) : Prop where
  amountIn : b.amountIn = a.amountIn
  amountOut : b.amountOut = a.amountOut
  start : b.startSqrtPrice = a.startSqrtPrice
  target : b.targetSqrtPrice = a.targetSqrtPrice
  fee : b.fee = a.fee
  pool : PoolSim T σ n m a.pool b.pool
  ticks : List.Forall₂ (TickSim T) a.ticks b.ticks

theorem calculateSwap_sim (h : Sim T K A σ n m s s') {key : PoolKey} (hk : K key) {xToY byIn : Bool} {amount limit : Nat} :
    SameOutcome (ResSim T σ n m) (calculateSwap s n key xToY amount byIn limit)
      (calculateSwap s' m key xToY amount byIn limit) := by
  unfold calculateSwap
  refine SameOutcome.bind (R := PoolSim T σ n m) ?_ fun p q hp => ?_
  · unfold swapStart
    refine .same fun _ => (poolsGet_sim h hk).bind fun p q hp => ?_
    rw [hp.eqs.1]
    exact .same fun _ => .same fun _ => .pure hp
  · refine SameOutcome.bind (R := SwSim T σ n m) ?_ fun a b hab => ?_
    · have := swapLoop_sim h hk (xToY := xToY) (byIn := byIn) (limit := limit) swapFuel
        (a := { pool := p, ticks := [], remaining := amount, totalIn := 0, totalOut := 0, fee := 0 })
        (b := { pool := q, ticks := [], remaining := amount, totalIn := 0, totalOut := 0, fee := 0 })
        ⟨hp, .nil, rfl, rfl, rfl, rfl⟩
      revert this
      generalize swapLoop s _ _ _ = x
      generalize swapLoop s' _ _ _ = y
      intro this
      cases this with
      | none => exact .error
      | some h => exact h
    · rw [hab.totalOut]
      exact .same fun _ => .pure ⟨hab.totalIn, rfl, hp.eqs.1, hab.pool.eqs.1, hab.fee, hab.pool, hab.ticks⟩

theorem updateTicks_sim {key : PoolKey} (hk : K key) {l l' : List Tick} (hl : List.Forall₂ (TickSim T) l l') :
    ∀ {x y : Map (PoolKey × Int) Tick}, MapLike (fun z => K z.1) id (TickSim T) x y →
      SameOutcome (MapLike (fun z => K z.1) id (TickSim T)) (updateTicks key l x) (updateTicks key l' y) := by
  induction hl with
  | nil => intro x y h; exact .ok h
  | @cons t u l l' ht _ ih =>
    intro x y h
    unfold updateTicks
    have hi : u.index = t.index := by obtain ⟨so, sg, rfl, hso⟩ := ht; rfl
    rw [hi]
    exact (ticksUpdate_sim h hk ht).bind fun a b hab => ih hab

/-! ## Calls -/

variable {e e' : Env}

theorem swap_sim (h : Sim T K A σ e.now e'.now s s') (hc : e'.caller = σ e.caller) (ha : A e.caller) {key : PoolKey}
    (hk : K key) {xToY byIn : Bool}
    {amount limit : Nat} :
    SameOutcome (fun a b => Sim T K A σ e.now e'.now a.1 b.1 ∧ ResSim T σ e.now e'.now a.2 b.2)
      (swap e s key xToY amount byIn limit) (swap e' s' key xToY amount byIn limit) := by
  unfold swap
  rw [hc]
  refine (calculateSwap_sim h hk).bind fun r r' hr => (updateTicks_sim hk hr.ticks h.ticks).bind fun tm tm' ht =>
    (poolsUpdate_sim h hk hr.pool).bind fun ps ps' hp => ?_
  rw [hr.amountIn, hr.amountOut]
  exact (decrease_sim h.inj h.balances ha).bind fun b1 b1' h1 => (increase_sim h.inj h1.1 ha).bind fun b2 b2' h2 =>
    .pure ⟨{ h with ticks := ht, pools := hp, balances := h2 }, hr⟩

theorem routeSwap_sim (hc : e'.caller = σ e.caller) (ha : A e.caller) (l : List SwapHop) (hl : ∀ x ∈ l, K x.key) :
    ∀ {s s' : Inv} {v : Nat}, Sim T K A σ e.now e'.now s s' →
      SameOutcome (fun a b => Sim T K A σ e.now e'.now a.1 b.1 ∧ b.2 = a.2) (routeSwap e l s v) (routeSwap e' l s' v) := by
  induction l with
  | nil => intro s s' v h; exact .ok ⟨h, rfl⟩
  | cons x l ih =>
    intro s s' v h
    unfold routeSwap
    refine (swap_sim h hc ha (hl x List.mem_cons_self)).bind fun a b hab => ?_
    rw [hab.2.amountOut]
    exact ih (fun y hy => hl y (List.mem_cons_of_mem _ hy)) hab.1

theorem swapRoute_sim (h : Sim T K A σ e.now e'.now s s') (hc : e'.caller = σ e.caller) (ha : A e.caller) {v w x : Nat}
    {l : List SwapHop} (hl : ∀ x ∈ l, K x.key) :
    SameOutcome (fun a b => Sim T K A σ e.now e'.now a.1 b.1 ∧ b.2 = a.2) (swapRoute e s v w x l)
      (swapRoute e' s' v w x l) := by
  unfold swapRoute
  refine (routeSwap_sim hc ha l hl h).bind fun a b hab => ?_
  rw [hab.2]
  exact .same fun _ => .same fun _ => .pure hab

theorem createPosition_sim (h : Sim T K A σ e.now e'.now s s') (hc : e'.caller = σ e.caller) (ha : A e.caller)
    (hT : T.times → e'.now = e.now ∧ e'.block = e.block) {key : PoolKey} (hk : K key) {lo up : Int}
    {d a b : Nat} :
    SameOutcome (fun x y => Sim T K A σ e.now e'.now x.1 y.1 ∧ PosSim T x.2 y.2) (createPosition e s key lo up d a b)
      (createPosition e' s' key lo up d a b) := by
  unfold createPosition
  rw [hc]
  refine .same fun _ => .same fun _ => (poolsGet_sim h hk).bind fun p q hp =>
    (getOrCreateTick_sim h hk fun ht => (hT ht).1).bind fun l l' hl => (getOrCreateTick_sim h hk fun ht => (hT ht).1).bind fun u u' hu =>
    (posCreate_sim hp hu.1 hl.1 hT).bind fun r r' hr => ?_
  rw [hr.amountX, hr.amountY, hl.2, hu.2]
  refine (decrease_sim h.inj h.balances ha).bind fun b1 b1' h1 => (decrease_sim h.inj h1.1 ha).bind fun b2 b2' h2 =>
    (poolsUpdate_sim h hk hr.pool).bind fun ps ps' hps => ?_
  have hadd := posAdd_sim h.inj h.poss ha hr.position
  refine (putTick_sim (σ := σ) (n := e.now) (m := e'.now) (A := A) ?_ hk hr.lower).bind fun s2 s2' hs2 =>
    (putTick_sim hs2 hk hr.upper).bind fun s3 s3' hs3 => .pure ⟨hs3, hr.position⟩
  exact { h with balances := h2.1, pools := hps, lengths := hadd.lengths, positions := hadd.map }

theorem removePosition_sim (h : Sim T K A σ e.now e'.now s s') (hc : e'.caller = σ e.caller) (ha : A e.caller)
    (hT : T.times → e'.now = e.now ∧ e'.block = e.block)
    {i : Nat} (hK : ∀ p, s.positions.get e.caller i = .ok p → K p.poolKey) :
    SameOutcome (fun x y => Sim T K A σ e.now e'.now x.1 y.1 ∧ y.2 = x.2) (removePosition e s i) (removePosition e' s' i) := by
  unfold removePosition
  rw [hc]
  refine (positionsGet_sim h.poss ha i).bind' fun v w hv0 hv => ?_
  have hk := hK v hv0
  have hv' := hv
  obtain ⟨k, rfl, hk0⟩ := hv
  dsimp only
  refine (ticksGet_sim h.ticks hk _).bind fun l l' hl => (ticksGet_sim h.ticks hk _).bind fun u u' hu =>
    (poolsGet_sim h hk).bind fun p q hp => (posRemove_sim hv' hp hu hl fun ht => (hT ht).1).bind fun r r' hr =>
    (poolsUpdate_sim h hk hr.pool).bind fun ps ps' hps => ?_
  rw [hr.amountX, hr.amountY]
  refine (dropTick_sim (s := { s with pools := ps }) (s' := { s' with pools := ps' }) { h with pools := hps }
    hk hr.lower).bind fun s1 s1' h1 =>
    (dropTick_sim h1 hk hr.upper).bind fun s2 s2' h2 => (positionsRemove_sim h.inj h2.poss ha).bind fun x x' hx =>
    (increase_sim h.inj h2.balances ha).bind fun b1 b1' hb1 => (increase_sim h.inj hb1 ha).bind fun b2 b2' hb2 =>
    .pure ⟨{ h2 with lengths := hx.1.lengths, positions := hx.1.map, balances := hb2 }, rfl⟩

theorem claimFee_sim (h : Sim T K A σ e.now e'.now s s') (hc : e'.caller = σ e.caller) (ha : A e.caller)
    (hT : T.times → e'.now = e.now ∧ e'.block = e.block)
    {i : Nat} (hK : ∀ p, s.positions.get e.caller i = .ok p → K p.poolKey) :
    SameOutcome (fun x y => Sim T K A σ e.now e'.now x.1 y.1 ∧ y.2 = x.2) (claimFee e s i) (claimFee e' s' i) := by
  unfold claimFee
  rw [hc]
  refine (positionsGet_sim h.poss ha i).bind' fun v w hv0 hv => ?_
  have hk := hK v hv0
  have hv' := hv
  obtain ⟨k, rfl, hk0⟩ := hv
  dsimp only
  refine (ticksGet_sim h.ticks hk _).bind fun l l' hl => (ticksGet_sim h.ticks hk _).bind fun u u' hu =>
    (poolsGet_sim h hk).bind fun p q hp => (posClaim_sim hv' hp hu hl fun ht => (hT ht).1).bind fun r r' hr =>
    (positionsUpdate_sim h.inj h.poss ha hr.position).bind fun x x' hx =>
    (poolsUpdate_sim h hk hr.pool).bind fun ps ps' hps => ?_
  have h1 : r'.upper.index = r.upper.index := by obtain ⟨so, sg, e, -⟩ := hr.upper; rw [e]
  have h2 : r'.lower.index = r.lower.index := by obtain ⟨so, sg, e, -⟩ := hr.lower; rw [e]
  rw [hr.amountX, hr.amountY, h1, h2]
  exact (ticksUpdate_sim h.ticks hk hr.upper).bind fun t1 t1' ht1 => (ticksUpdate_sim ht1 hk hr.lower).bind fun t2 t2' ht2 =>
    (increase_sim h.inj h.balances ha).bind fun b1 b1' hb1 => (increase_sim h.inj hb1 ha).bind fun b2 b2' hb2 =>
    .pure ⟨{ h with lengths := hx.lengths, positions := hx.map, pools := hps, ticks := ht2, balances := hb2 }, rfl⟩

theorem createPool_sim (h : Sim T K A σ e.now e'.now s s') {x y : ActorId} {tier : FeeTier} {v : Nat} {i : Int}
    (hT : T.times → e'.now = e.now ∧ e'.block = e.block) (hK : ∀ k, PoolKey.new x y tier = .ok k → K k) :
    SameOutcome (Sim T K A σ e.now e'.now) (createPool e s x y tier v i) (createPool e' s' x y tier v i) := by
  unfold createPool
  rw [h.feeTiers, h.poolKeys]
  refine .same fun _ => .same fun _ => .same' fun key hkey => .guard ?_ fun _ => ?_
  · have := h.pools key (hK key hkey)
    revert this
    show Option.Rel _ _ (s'.pools.get key) → _
    generalize s.pools.get key = a
    generalize s'.pools.get key = b
    intro this
    cases this <;> simp
  refine SameOutcome.bind (R := PoolSim T σ e.now e'.now) ?_ fun p q hp => ?_
  · unfold Pool.create
    refine .same fun _ => .same fun _ => .same fun _ => .pure ⟨e'.now, e'.now, ?_, .inr ⟨Nat.le_refl _, Nat.le_refl _⟩,
      fun ht => ⟨(hT ht).1.symm, (hT ht).1⟩, fun ht => (hT (T.le ht)).1, .inr (by positivity)⟩
    rw [h.admin]
  refine SameOutcome.bind (R := MapLike K id (PoolSim T σ e.now e'.now)) ?_ fun a b hab => .same fun pk =>
    .pure { h with pools := hab, poolKeys := rfl, feeTiers := rfl }
  unfold poolsAdd
  have := h.pools key (hK key hkey)
  revert this
  show Option.Rel _ _ (s'.pools.get key) → _
  generalize s.pools.get key = a
  generalize s'.pools.get key = b
  intro this
  cases this with
  | some _ => exact .error
  | none => exact .ok (h.pools.insert Function.injective_id rfl hp)

theorem admin_iff (h : Sim T K A σ n m s s') (hc : e'.caller = σ e.caller) : s.admin ≠ e.caller ↔ s'.admin ≠ e'.caller := by
  rw [h.admin, hc, ne_eq, ne_eq, h.inj.eq_iff]

theorem withdrawProtocolFee_sim (h : Sim T K A σ e.now e'.now s s') (hc : e'.caller = σ e.caller) (ha : A e.caller)
    {key : PoolKey} (hk : K key) :
    SameOutcome (fun x y => Sim T K A σ e.now e'.now x.1 y.1 ∧ y.2 = x.2) (withdrawProtocolFee e s key)
      (withdrawProtocolFee e' s' key) := by
  unfold withdrawProtocolFee Pool.withdrawProtocolFee
  refine (poolsGet_sim h hk).bind fun p q hp => ?_
  obtain ⟨st, lt, rfl, h1, h2, h3, h4⟩ := hp
  dsimp only
  rw [hc]
  refine .guard (by rw [ne_eq, ne_eq, h.inj.eq_iff]) fun _ => ?_
  refine (poolsUpdate_sim h (p := { p with feeProtocolTokenX := 0, feeProtocolTokenY := 0 }) hk
    ⟨st, lt, rfl, h1, h2, h3, h4⟩).bind fun ps ps' hps => ?_
  exact (increase_sim h.inj h.balances ha).bind fun b1 b1' hb1 => (increase_sim h.inj hb1 ha).bind fun b2 b2' hb2 =>
    .pure ⟨{ h with pools := hps, balances := hb2 }, rfl⟩

theorem withdrawVara_sim (h : Sim T K A σ n m s s') (hc : e'.caller = σ e.caller) (ha : A e.caller) {v : Option Nat} :
    SameOutcome (fun x y => Sim T K A σ n m x.1 y.1 ∧ y.2 = x.2) (withdrawVara e s v) (withdrawVara e' s' v) := by
  unfold withdrawVara
  rw [hc]
  refine SameOutcome.bind (R := fun c d => MapLike (fun z => A z.1) (Prod.map σ id) Eq c.1 d.1 ∧ d.2 = c.2) ?_ fun a b hab => ?_
  · cases v with
    | some v => exact .same fun _ => decrease_sim h.inj h.balances ha
    | none =>
      have := decrease_sim h.inj h.balances ha (k := VARA) (v := none)
      revert this
      dsimp only
      generalize decreaseTokenBalance s.balances VARA e.caller none = x
      generalize decreaseTokenBalance s'.balances VARA (σ e.caller) none = y
      intro this
      cases this with
      | ok h => exact .ok h
      | error => exact .ok ⟨h.balances, rfl⟩
  · rw [hab.2]
    exact .same fun _ => .pure ⟨{ h with balances := hab.1 }, rfl⟩

theorem pos_touched {i : Nat} {v : Position} (h : s.positions.get e.caller i = .ok v) :
    v.poolKey ∈ ((s.positions.map.get (e.caller, i)).map (·.poolKey)).toList := by
  unfold Positions.get at h
  rw [okOr_ok_iff] at h
  rw [h]
  exact List.mem_cons_self

theorem step_sim (h : Sim T K A σ e.now e'.now s s') (hc : e'.caller = σ e.caller) (hv : e'.value = e.value) (c : Call)
    (hT : T.times → e'.now = e.now ∧ e'.block = e.block)
    (ha : A e.caller) (hr : ∀ i r, c = .transferPosition i r → A r) (hK : ∀ k ∈ touched e s c, K k) :
    SameOutcome (Sim T K A σ e.now e'.now) (step e s c) (step e' s' (renameCall σ c)) := by
  cases c with
  | changeProtocolFee f =>
    exact SameOutcome.bind (R := fun a b => Sim T K A σ e.now e'.now a.1 b.1)
      (.guard (admin_iff h hc) fun _ => .pure { h with protocolFee := rfl }) fun a b hab => .pure hab
  | addFeeTier t =>
    refine SameOutcome.bind (R := fun a b => Sim T K A σ e.now e'.now a.1 b.1) ?_ fun a b hab => .pure hab
    unfold addFeeTier
    rw [h.feeTiers]
    exact .same fun _ => .same fun _ => .guard (admin_iff h hc) fun _ => .same fun l => .pure { h with feeTiers := rfl }
  | removeFeeTier t =>
    refine SameOutcome.bind (R := fun a b => Sim T K A σ e.now e'.now a.1 b.1) ?_ fun a b hab => .pure hab
    unfold removeFeeTier
    rw [h.feeTiers]
    exact .guard (admin_iff h hc) fun _ => .same fun l => .pure { h with feeTiers := rfl }
  | createPool x y t v i =>
    refine createPool_sim h hT fun k hk => hK k ?_
    unfold PoolKey.new at hk
    split_ifs at hk with h1 h2
    · cases hk
      show _ ∈ [PoolKey.mk _ _ _]
      rw [min_eq_left h2.le, max_eq_right h2.le]
      exact List.mem_cons_self
    · cases hk
      show _ ∈ [PoolKey.mk _ _ _]
      rw [min_eq_right (not_lt.1 h2), max_eq_left (not_lt.1 h2)]
      exact List.mem_cons_self
  | changeFeeReceiver k r =>
    show SameOutcome _ (changeFeeReceiver e s k r) (changeFeeReceiver e' s' k (σ r))
    unfold changeFeeReceiver
    refine .guard (admin_iff h hc) fun _ => (poolsGet_sim h (hK k List.mem_cons_self)).bind fun p q hp => ?_
    obtain ⟨st, lt, rfl, h1, h2, h3, h4⟩ := hp
    refine (poolsUpdate_sim h (p := { p with feeReceiver := r }) (hK k List.mem_cons_self) ⟨st, lt, rfl, h1, h2, h3, h4⟩).bind
      fun ps ps' hps => ?_
    exact .pure { h with pools := hps }
  | createPosition k l u d a b => exact (createPosition_sim h hc ha hT (hK k List.mem_cons_self)).bind fun a b hab => .pure hab.1
  | removePosition i => exact (removePosition_sim h hc ha hT fun p hp => hK _ (pos_touched hp)).bind fun a b hab => .pure hab.1
  | transferPosition i r =>
    show SameOutcome _ (transferPosition e s i r) (transferPosition e' s' i (σ r))
    unfold transferPosition
    rw [hc]
    exact (positionsTransfer_sim h.inj h.poss ha (hr i r rfl)).bind fun a b hab =>
      .pure { h with lengths := hab.lengths, positions := hab.map }
  | swap k d a b l => exact (swap_sim h hc ha (hK k List.mem_cons_self)).bind fun a b hab => .pure hab.1
  | swapRoute a x sl l => exact (swapRoute_sim h hc ha fun x hx => hK _ (List.mem_map_of_mem hx)).bind fun a b hab => .pure hab.1
  | claimFee i => exact (claimFee_sim h hc ha hT fun p hp => hK _ (pos_touched hp)).bind fun a b hab => .pure hab.1
  | withdrawProtocolFee k => exact (withdrawProtocolFee_sim h hc ha (hK k List.mem_cons_self)).bind fun a b hab => .pure hab.1
  | depositVara =>
    refine SameOutcome.bind (R := fun a b => Sim T K A σ e.now e'.now a.1 b.1) ?_ fun a b hab => .pure hab
    unfold depositVara
    rw [hc, hv]
    exact (increase_sim h.inj h.balances ha).bind fun a b hab => .pure { h with balances := hab }
  | withdrawVara v => exact (withdrawVara_sim h hc ha).bind fun a b hab => .pure hab.1

end Twin

end Verif
