import Verif.Spec.Market
import Verif.Proofs.Crossed
import Verif.Proofs.SdkExport

/-! # Two swaps on pools with the same market -/

namespace Verif
open Service Spec

/-! ## Results -/

/-- both succeed with related results, both fail, or one is aborted for another reason than an announced one -/
inductive Paired {α β : Type} (R : α → β → Prop) : M α → M β → Prop
  | ok {a : α} {b : β} : R a b → Paired R (.ok a) (.ok b)
  | fail {e e' : Err} : Paired R (.error e) (.error e')
  | left {e : Err} {b : β} : (∀ v, e ≠ .inv v) → Paired R (.error e) (.ok b)
  | right {e : Err} {a : α} : (∀ v, e ≠ .inv v) → Paired R (.ok a) (.error e)

namespace Paired
variable {α β γ δ : Type} {R : α → β → Prop} {S : γ → δ → Prop}

theorem bind {x : M α} {y : M β} {f : α → M γ} {g : β → M δ} (h : Paired R x y)
    (k : ∀ a b, R a b → Paired S (f a) (g b)) : Paired S (x >>= f) (y >>= g) := by
  cases h with
  | ok h => exact k _ _ h
  | fail => exact .fail
  | @left e b he =>
    show Paired S (.error e) (g b)
    cases g b with
    | ok _ => exact .left he
    | error _ => exact .fail
  | @right e a he =>
    show Paired S (f a) (.error e)
    cases f a with
    | ok _ => exact .right he
    | error _ => exact .fail

theorem same {x : M α} {f : α → M γ} {g : α → M δ} (k : ∀ a, Paired S (f a) (g a)) : Paired S (x >>= f) (x >>= g) := by
  cases x with
  | ok a => exact k a
  | error => exact .fail

theorem pure {a : γ} {b : δ} (h : S a b) : Paired S (Pure.pure a : M γ) (Pure.pure b : M δ) := .ok h

theorem unwrap {x : M γ} {y : M δ} (h : ∀ a b, x = .ok a → y = .ok b → S a b) :
    Paired S (Verif.unwrap x) (Verif.unwrap y) := by
  cases x with
  | ok a =>
    cases y with
    | ok b => exact .ok (h a b rfl rfl)
    | error => exact .right (fun v hv => by cases hv)
  | error =>
    cases y with
    | ok b => exact .left (fun v hv => by cases hv)
    | error => exact .fail

theorem okOr {x : Option γ} {y : Option δ} {e : Err} (h : Option.Rel S x y) :
    Paired S (Verif.okOr e x) (Verif.okOr e y) := by
  cases h with
  | some h => exact .ok h
  | none => exact .fail

end Paired

/-! ## Pools and ticks -/

namespace Market

def PoolM (p q : Pool) : Prop :=
  q.sqrtPrice = p.sqrtPrice ∧ q.currentTickIndex = p.currentTickIndex ∧ q.liquidity = p.liquidity

def TickM (t u : Tick) : Prop := u.index = t.index ∧ netLiq u = netLiq t

variable {p q p' q' : Pool} {t u t' u' : Tick}

theorem addFee_market {amount f : Nat} {inX : Bool} (h : p.addFee amount inX f = .ok p') : PoolM p p' := by
  unfold Pool.addFee at h
  simp only [bind_ok_iff] at h
  obtain ⟨_, _, _, _, h⟩ := h
  split at h
  · cases h; exact ⟨rfl, rfl, rfl⟩
  · rw [bind_ok_iff] at h
    obtain ⟨g, _, h⟩ := h
    split at h
    · rw [bind_ok_iff] at h
      obtain ⟨_, _, h⟩ := h
      cases h; exact ⟨rfl, rfl, rfl⟩
    · rw [bind_ok_iff] at h
      obtain ⟨_, _, h⟩ := h
      cases h; exact ⟨rfl, rfl, rfl⟩

theorem addFee_pair (h : PoolM p q) {amount f f' : Nat} {inX : Bool} :
    Paired PoolM (unwrap (p.addFee amount inX f)) (unwrap (q.addFee amount inX f')) := by
  refine .unwrap fun a b ha hb => ?_
  obtain ⟨a1, a2, a3⟩ := addFee_market ha
  obtain ⟨b1, b2, b3⟩ := addFee_market hb
  obtain ⟨h1, h2, h3⟩ := h
  exact ⟨by omega, by omega, by omega⟩

theorem cross_ok {n : Nat} {r : Tick × Pool} (h : t.cross p n = .ok r) : TickM t r.1 ∧ r.2.sqrtPrice = p.sqrtPrice ∧
    (r.2.liquidity : Int) = p.liquidity + (if p.currentTickIndex ≥ t.index then -1 else 1) * netLiq t := by
  unfold Tick.cross at h
  simp only [bind_ok_iff, pure_ok_iff] at h
  obtain ⟨passed, _, l, hl, rfl⟩ := h
  refine ⟨⟨rfl, rfl⟩, rfl, ?_⟩
  unfold netLiq
  split at hl
  · next hx =>
    rw [addC_ok_iff] at hl
    obtain ⟨_, rfl⟩ := hl
    by_cases hc : p.currentTickIndex ≥ t.index <;> cases hs : t.sign <;> simp_all
  · next hx =>
    rw [subC_ok_iff] at hl
    obtain ⟨h1, rfl⟩ := hl
    by_cases hc : p.currentTickIndex ≥ t.index <;> cases hs : t.sign <;> simp_all <;> omega

theorem cross_pair (h : PoolM p q) (ht : TickM t u) {n m : Nat} :
    Paired (fun a b => TickM a.1 b.1 ∧ b.2.sqrtPrice = a.2.sqrtPrice ∧ b.2.liquidity = a.2.liquidity)
      (unwrap (t.cross p n)) (unwrap (u.cross q m)) := by
  refine .unwrap fun a b ha hb => ?_
  obtain ⟨⟨a1, a2⟩, a3, a4⟩ := cross_ok ha
  obtain ⟨⟨b1, b2⟩, b3, b4⟩ := cross_ok hb
  obtain ⟨h1, h2, h3⟩ := h
  refine ⟨⟨by rw [a1, b1, ht.1], by rw [a2, b2, ht.2]⟩, by omega, ?_⟩
  rw [h2, ht.1, ht.2, h3] at b4
  omega

inductive PickM : UpdatePoolTick → UpdatePoolTick → Prop
  | noTick : PickM .noTick .noTick
  | initialized {t u : Tick} : TickM t u → PickM (.initialized t) (.initialized u)
  | uninitialized (i : Int) : PickM (.uninitialized i) (.uninitialized i)

structure UpdM (a b : UpdateTickResult) : Prop where
  pool : PoolM a.pool b.pool
  tick : PickM a.tick b.tick
  total : b.total = a.total
  remaining : b.remaining = a.remaining
  crossed : b.crossed = a.crossed

theorem updateTick_pair (h : PoolM p q) {a b : UpdatePoolTick} (ht : PickM a b) {r : SwapResult}
    {limit remaining f f' n m : Nat} {byIn xToY : Bool} {tier : FeeTier} :
    Paired UpdM (p.updateTick r limit a remaining byIn xToY n f tier)
      (q.updateTick r limit b remaining byIn xToY m f' tier) := by
  unfold Pool.updateTick
  have hno : b = .noTick ↔ a = .noTick := by cases ht <;> simp
  simp only [hno, h.2.2]
  split
  · exact .same fun i => .pure ⟨⟨h.1, rfl, rfl⟩, ht, rfl, rfl, rfl⟩
  · refine .same fun enough => ?_
    cases ht with
    | noTick => exact .fail
    | uninitialized i => exact .pure ⟨⟨h.1, rfl, rfl⟩, .uninitialized i, rfl, rfl, rfl⟩
    | @initialized t u ht =>
      dsimp only
      split
      · refine (cross_pair h ht).bind fun c d hcd => ?_
        rw [ht.1]
        exact .pure ⟨⟨hcd.2.1, rfl, hcd.2.2⟩, .initialized hcd.1, rfl, rfl, rfl⟩
      · split
        · split
          · refine (addFee_pair h).bind fun c d hcd => ?_
            rw [ht.1]
            exact .pure ⟨⟨hcd.1, rfl, hcd.2.2⟩, .initialized ht, rfl, rfl, rfl⟩
          · rw [ht.1]; exact .pure ⟨⟨h.1, rfl, rfl⟩, .initialized ht, rfl, rfl, rfl⟩
        · rw [ht.1]; exact .pure ⟨⟨h.1, rfl, rfl⟩, .initialized ht, rfl, rfl, rfl⟩

structure SwM (a b : SwapState) : Prop where
  pool : PoolM a.pool b.pool
  ticks : List.Forall₂ TickM a.ticks b.ticks
  remaining : b.remaining = a.remaining
  totalIn : b.totalIn = a.totalIn
  totalOut : b.totalOut = a.totalOut
  fee : b.fee = a.fee

/-! ## The tick map -/

section maps
variable {x y : Tickmap} {k k' : PoolKey}

theorem next_eq (h : ∀ c, chunkWord y k' c = chunkWord x k c) {spacing limChunk limBit : Nat} (n : Nat) : ∀ chunk bit,
      nextLoop y k' spacing limChunk limBit n chunk bit = nextLoop x k spacing limChunk limBit n chunk bit := by
  induction n with
  | zero => intro chunk bit; rfl
  | succ n ih =>
    intro chunk bit
    unfold nextLoop
    rw [h, ih]

theorem prev_eq (h : ∀ c, chunkWord y k' c = chunkWord x k c) {spacing limChunk limBit : Nat} (chunk : Nat) : ∀ bit,
      prevLoop y k' spacing limChunk limBit chunk bit = prevLoop x k spacing limChunk limBit chunk bit := by
  induction chunk with
  | zero => intro bit; unfold prevLoop; rw [h]
  | succ n ih =>
    intro bit
    unfold prevLoop
    dsimp only
    rw [h, ih]

theorem closer_eq (h : ∀ c, chunkWord y k' c = chunkWord x k c) {limit : Nat} {xToY : Bool} {cur : Int}
    {spacing : Nat} :
    getCloserLimit y limit xToY cur spacing k' = getCloserLimit x limit xToY cur spacing k := by
  unfold getCloserLimit nextInitialized prevInitialized
  simp only [next_eq h, prev_eq h]

/-- a bit is set exactly for the legal ticks stored -/
theorem bit_iff {s : Inv} (hw : StoreWF s) (hs : 1 ≤ k.feeTier.tickSpacing) (i : Nat) :
    tmBit s.tickmap k i = true ↔ i ≤ 2 * gridHalf k.feeTier.tickSpacing ∧
      (s.ticks.get (k, ((i : Int) - gridHalf k.feeTier.tickSpacing) * k.feeTier.tickSpacing)).isSome = true := by
  have hm := gridHalf_mul_le k.feeTier.tickSpacing
  have hspos : (0 : Int) < k.feeTier.tickSpacing := by exact_mod_cast hs
  have key : i ≤ 2 * gridHalf k.feeTier.tickSpacing → tmBit s.tickmap k i =
      (s.ticks.get (k, ((i : Int) - gridHalf k.feeTier.tickSpacing) * k.feeTier.tickSpacing)).isSome := by
    intro hle
    obtain ⟨j, hj⟩ : ∃ j : Int, j = (i : Int) - gridHalf k.feeTier.tickSpacing := ⟨_, rfl⟩
    rw [← hj]
    have h1 : -(gridHalf k.feeTier.tickSpacing : Int) ≤ j := by omega
    have h2 : j ≤ gridHalf k.feeTier.tickSpacing := by omega
    have hi := bitmapIndex_eq hs h1
    have hg : Grid k.feeTier.tickSpacing (j * k.feeTier.tickSpacing) :=
      ⟨Dvd.intro_left _ rfl, by nlinarith, by nlinarith⟩
    rw [← hw.bit k _ hs hg]
    congr 1
    omega
  constructor
  · intro h
    have hle := hw.legal k i h hs
    exact ⟨hle, by rw [← key hle]; exact h⟩
  · rintro ⟨hle, h⟩
    rw [key hle]; exact h

theorem word_eq {s s' : Inv} (hw : StoreWF s) (hw' : StoreWF s') (ht : k'.feeTier.tickSpacing = k.feeTier.tickSpacing)
    (hs : 1 ≤ k.feeTier.tickSpacing)
    (hk : ∀ i, (s'.ticks.get (k', i)).isSome = (s.ticks.get (k, i)).isSome) (c : Nat) :
    chunkWord s'.tickmap k' c = chunkWord s.tickmap k c := by
  refine Nat.eq_of_testBit_eq fun b => ?_
  rcases Nat.lt_or_ge b 64 with hb | hb
  · rw [← tmBit_mk _ _ _ _ hb, ← tmBit_mk _ _ _ _ hb, Bool.eq_iff_iff, bit_iff hw hs,
      bit_iff hw' (by rw [ht]; exact hs), ht, hk]
  · rw [Nat.testBit_lt_two_pow (lt_of_lt_of_le (hw.wf k c) (Nat.pow_le_pow_right (by norm_num) hb)),
      Nat.testBit_lt_two_pow (lt_of_lt_of_le (hw'.wf k' c) (Nat.pow_le_pow_right (by norm_num) hb))]

end maps

/-! ## Swaps -/

/-- the two states as seen by the loop -/
structure Mkt (s : Inv) (k : PoolKey) (s' : Inv) (k' : PoolKey) : Prop where
  tier : k'.feeTier = k.feeTier
  pool : Option.Rel PoolM (s.pools.get k) (s'.pools.get k')
  ticks : ∀ i, Option.Rel TickM (s.ticks.get (k, i)) (s'.ticks.get (k', i))
  word : ∀ c, chunkWord s'.tickmap k' c = chunkWord s.tickmap k c

variable {s s' : Inv} {k k' : PoolKey}

theorem limitingTick_pair (h : Mkt s k s' k') {o : Option (Int × Bool)} :
    Paired PickM (limitingTick s k o) (limitingTick s' k' o) := by
  unfold limitingTick
  split
  · exact (Paired.okOr (h.ticks _)).bind fun a b hab => .pure (.initialized hab)
  · exact .ok (.uninitialized _)
  · exact .ok .noTick

theorem swapIter_pair (h : Mkt s k s' k') {xToY byIn : Bool} {limit n m : Nat} {a b : SwapState}
    (hab : SwM a b) : Paired SwM (swapIter s ⟨k, xToY, byIn, limit, n⟩ a) (swapIter s' ⟨k', xToY, byIn, limit, m⟩ b) := by
  unfold swapIter
  dsimp only
  rw [h.tier, closer_eq h.word, hab.pool.1, hab.pool.2.1, hab.pool.2.2, hab.remaining, hab.totalIn, hab.totalOut,
    hab.fee]
  refine .same fun lim => .same fun r => .same fun inFee => .same fun remaining => ?_
  refine (addFee_pair hab.pool).bind fun p q hp => .same fun fee => .same fun tin => .same fun tout =>
    .same fun _ => (limitingTick_pair h).bind fun t u ht => ?_
  refine (updateTick_pair (p := { p with sqrtPrice := r.nextSqrtPrice }) (q := { q with sqrtPrice := r.nextSqrtPrice })
    ⟨rfl, hp.2.1, hp.2.2⟩ ht).bind fun c d hcd => ?_
  rw [hcd.total, hcd.remaining, hcd.crossed, hcd.pool.2.1]
  refine .same fun total => .same fun _ => .pure ⟨hcd.pool, ?_, rfl, rfl, rfl, rfl⟩
  dsimp only
  have hk := hcd.tick
  revert hk
  generalize c.tick = x
  generalize d.tick = y
  intro hk
  cases hk with
  | noTick => exact hab.ticks
  | uninitialized i => exact hab.ticks
  | initialized ht =>
    dsimp only
    split
    · exact List.rel_append hab.ticks (.cons ht .nil)
    · exact hab.ticks

theorem swapLoop_pair (h : Mkt s k s' k') {xToY byIn : Bool} {limit n m : Nat} (fuel : Nat) :
    ∀ {a b : SwapState}, SwM a b →
      Option.Rel (Paired SwM) (swapLoop s ⟨k, xToY, byIn, limit, n⟩ fuel a)
        (swapLoop s' ⟨k', xToY, byIn, limit, m⟩ fuel b) ∨
      (∃ e st, (∀ v, e ≠ .inv v) ∧ (swapLoop s ⟨k, xToY, byIn, limit, n⟩ fuel a = some (.error e) ∧
        swapLoop s' ⟨k', xToY, byIn, limit, m⟩ fuel b = st ∨
        swapLoop s ⟨k, xToY, byIn, limit, n⟩ fuel a = st ∧
        swapLoop s' ⟨k', xToY, byIn, limit, m⟩ fuel b = some (.error e))) := by
  induction fuel with
  | zero => intro a b _; exact .inl .none
  | succ j ih =>
    intro a b hab
    unfold swapLoop
    rw [hab.remaining]
    split
    · exact .inl (.some (.ok hab))
    · have := swapIter_pair h (xToY := xToY) (byIn := byIn) (limit := limit) (n := n) (m := m) hab
      revert this
      generalize swapIter s ⟨k, xToY, byIn, limit, n⟩ a = x
      generalize swapIter s' ⟨k', xToY, byIn, limit, m⟩ b = y
      intro this
      cases this with
      | fail => exact .inl (.some .fail)
      | ok hc => exact ih hc
      | @left e b he => exact .inr ⟨e, _, he, .inl ⟨rfl, rfl⟩⟩
      | @right e a he => exact .inr ⟨e, _, he, .inr ⟨rfl, rfl⟩⟩

structure ResM (a b : CalculateSwapResult) : Prop where
  trade : SameDeal a b
  pool : PoolM a.pool b.pool
  ticks : List.Forall₂ TickM a.ticks b.ticks

theorem calculateSwap_pair (h : Mkt s k s' k') {xToY byIn : Bool} {amount limit n m : Nat} :
    Paired ResM (calculateSwap s n k xToY amount byIn limit) (calculateSwap s' m k' xToY amount byIn limit) := by
  unfold calculateSwap
  refine Paired.bind (R := PoolM) ?_ fun p q hp => ?_
  · unfold swapStart
    refine .same fun _ => (Paired.okOr h.pool).bind fun p q hp => ?_
    rw [hp.1]
    exact .same fun _ => .same fun _ => .pure hp
  · refine Paired.bind (R := SwM) ?_ fun a b hab => ?_
    · have := swapLoop_pair h (xToY := xToY) (byIn := byIn) (limit := limit) (n := n) (m := m) swapFuel
        (a := { pool := p, ticks := [], remaining := amount, totalIn := 0, totalOut := 0, fee := 0 })
        (b := { pool := q, ticks := [], remaining := amount, totalIn := 0, totalOut := 0, fee := 0 })
        ⟨hp, .nil, rfl, rfl, rfl, rfl⟩
      revert this
      generalize swapLoop s _ _ _ = x
      generalize swapLoop s' _ _ _ = y
      rintro (this | ⟨e, st, he, ⟨rfl, rfl⟩ | ⟨rfl, rfl⟩⟩)
      · cases this with
        | none => exact .fail
        | some h => exact h
      · simp only [Option.getD_some]
        cases y with
        | none => exact .fail
        | some z =>
          cases z with
          | ok z => exact .left he
          | error => exact .fail
      · simp only [Option.getD_some]
        cases x with
        | none => exact .fail
        | some z =>
          cases z with
          | ok z => exact .right he
          | error => exact .fail
    · rw [hab.totalOut]
      refine .same fun _ => .pure ⟨⟨hab.totalIn, rfl, hab.fee, hp.1, hab.pool.1, ?_⟩, hab.pool, hab.ticks⟩
      dsimp only
      have := hab.ticks
      revert this
      generalize a.ticks = x
      generalize b.ticks = y
      intro hxy
      induction hxy with
      | nil => rfl
      | cons h _ ih => rw [List.map_cons, List.map_cons, ih, h.1]

theorem updateTicks_pair {l l' : List Tick} (hl : List.Forall₂ TickM l l') :
    ∀ {x y x' y' : Map (PoolKey × Int) Tick}, (∀ i, Option.Rel TickM (x.get (k, i)) (y.get (k', i))) →
      updateTicks k l x = .ok x' → updateTicks k' l' y = .ok y' →
      ∀ i, Option.Rel TickM (x'.get (k, i)) (y'.get (k', i)) := by
  induction hl with
  | nil => intro x y x' y' h h1 h2; cases h1; cases h2; exact h
  | @cons t u l l' ht _ ih =>
    intro x y x' y' h h1 h2
    simp only [updateTicks, bind_ok_iff, ticksUpdate_ok] at h1 h2
    obtain ⟨_, ⟨_, rfl⟩, h1⟩ := h1
    obtain ⟨_, ⟨_, rfl⟩, h2⟩ := h2
    refine ih ?_ h1 h2
    intro i
    rw [Map.get_insert, Map.get_insert]
    by_cases hi : i = t.index
    · rw [if_pos (by rw [hi]), if_pos (by rw [hi, ht.1])]
      exact .some ht
    · rw [if_neg (by simp [hi]), if_neg (by simp [hi, ht.1])]
      exact h i

theorem mkt_of (hr : Reach s) (hr' : Reach s') (h : SameMarket s k s' k') (hp : (s.pools.get k).isSome) :
    Mkt s k s' k' := by
  have hw := reach_wf s hr
  have hw' := reach_wf s' hr'
  refine ⟨h.tier, h.pool, ?_, ?_⟩
  · intro i
    have := h.ticks i
    cases ha : s.ticks.get (k, i) with
    | none =>
      rw [ha] at this
      cases hb : s'.ticks.get (k', i) with
      | none => exact .none
      | some u => rw [hb] at this; cases this
    | some t =>
      rw [ha] at this
      cases hb : s'.ticks.get (k', i) with
      | none => rw [hb] at this; cases this
      | some u =>
        rw [hb] at this
        cases this with
        | some e => exact .some ⟨by rw [hw.indexed _ _ _ ha, hw'.indexed _ _ _ hb], e⟩
  · refine word_eq hw hw' (by rw [h.tier]) ((reach_tiers hr).pools k hp).1.1 ?_
    intro i
    have := h.ticks i
    revert this
    generalize s.ticks.get (k, i) = a
    generalize s'.ticks.get (k', i) = b
    intro this
    cases this <;> rfl

end Market
end Verif
