import Verif.Proofs.CheapStep
import Verif.Proofs.Market
import Verif.Spec.Cheaper

/-! # Two runs of the swap loop, one with more to spend and a lower fee -/

namespace Verif
open Service Spec

namespace Cheap
open Market

variable {s s' : Inv} {a b : SwapArgs} {A B A' B' : SwapState} {start start' : Nat}

/-- the same order on the same market with a lower fee -/
structure Low (s : Inv) (a : SwapArgs) (s' : Inv) (b : SwapArgs) : Prop where
  xToY : b.xToY = a.xToY
  byIn : b.byIn = a.byIn
  limit : b.limit = a.limit
  spacing : b.key.feeTier.tickSpacing = a.key.feeTier.tickSpacing
  fee : b.key.feeTier.fee ≤ a.key.feeTier.fee
  ticks : ∀ i, Option.Rel TickM (s.ticks.get (a.key, i)) (s'.ticks.get (b.key, i))
  word : ∀ c, chunkWord s'.tickmap b.key c = chunkWord s.tickmap a.key c

theorem pick (h : Low s a s' b) {o : Option (Int × Bool)} {t u : UpdatePoolTick}
    (h1 : limitingTick s a.key o = .ok t) (h2 : limitingTick s' b.key o = .ok u) : PickM t u := by
  match o with
  | none => simp only [limitingTick] at h1 h2; cases h1; cases h2; exact .noTick
  | some (i, false) => simp only [limitingTick] at h1 h2; cases h1; cases h2; exact .uninitialized i
  | some (i, true) =>
    simp only [limitingTick, ticksGet] at h1 h2
    have := h.ticks i
    revert this h1 h2
    generalize s.ticks.get (a.key, i) = x
    generalize s'.ticks.get (b.key, i) = y
    intro h1 h2 hxy
    cases hxy with
    | none => simp [okOr, bind_ok_iff] at h1
    | some h =>
      simp only [okOr, bind_ok_iff, pure_ok_iff] at h1 h2
      obtain ⟨_, h3, rfl⟩ := h1
      obtain ⟨_, h4, rfl⟩ := h2
      cases h3; cases h4
      exact .initialized h

/-- what the two rounds have in common -/
theorem round (h : Low s a s' b) (hp : PoolM A.pool B.pool) {target target' remA remB : Nat}
    {info info' : Option (Int × Bool)} {ra rb : SwapResult} {pA pB : Pool} {tick tick' : UpdatePoolTick}
    {uA uB : UpdateTickResult} (hA : SwapIterOk s a A A' target info ra remA pA tick uA)
    (hB : SwapIterOk s' b B B' target' info' rb remB pB tick' uB) :
    target' = target ∧ info' = info ∧ PickM tick tick' ∧ PoolM pA pB := by
  have e1 := hB.limit
  rw [hp.2.1, h.limit, h.xToY, h.spacing, closer_eq h.word, hA.limit] at e1
  injection e1 with e1
  injection e1 with e1 e2
  have e3 := hB.htick
  rw [← e2] at e3
  obtain ⟨a1, a2, a3⟩ := addFee_market hA.fee
  obtain ⟨b1, b2, b3⟩ := addFee_market hB.fee
  obtain ⟨h1, h2, h3⟩ := hp
  exact ⟨e1.symm, e2.symm, pick h hA.htick e3, by omega, by omega, by omega⟩

theorem cross_same {p q p' q' : Pool} {t u t' u' : Tick} {n m : Nat} (hp : PoolM p q) (ht : TickM t u)
    (h1 : t.cross p n = .ok (t', p')) (h2 : u.cross q m = .ok (u', q')) :
    q'.sqrtPrice = p'.sqrtPrice ∧ q'.liquidity = p'.liquidity := by
  obtain ⟨_, a3, a4⟩ := Market.cross_ok h1
  obtain ⟨_, b3, b4⟩ := Market.cross_ok h2
  obtain ⟨e1, e2, e3⟩ := hp
  dsimp only at a3 a4 b3 b4
  refine ⟨by omega, ?_⟩
  rw [e2, ht.1, ht.2, e3] at b4
  omega

/-! ## What a swap leaves of the ticks -/

theorem ticks_stored (hw : StoreWF s) {n : Nat} (hi : ∀ t ∈ A.ticks, ∃ u, s.ticks.get (a.key, t.index) = some u ∧
    netLiq t = netLiq u) (h : swapLoop s a n A = some (.ok A')) :
    ∀ t ∈ A'.ticks, ∃ u, s.ticks.get (a.key, t.index) = some u ∧ netLiq t = netLiq u := by
  refine (swapLoop_ind (P := fun st => ∀ t ∈ st.ticks, ∃ u, s.ticks.get (a.key, t.index) = some u ∧
    netLiq t = netLiq u) ?_ n A A' hi h).1
  intro st st' hP _ hit
  obtain ⟨target, info, r, rem, p, tick, u, hA⟩ := swapIter_ok hit
  rw [hA.res]
  dsimp only
  cases hA.upd with
  | inside => dsimp only; cases tick <;> simpa using hP
  | dust ht => subst ht; simpa using hP
  | drop ht => subst ht; simpa using hP
  | done ht => subst ht; simpa using hP
  | uninit ht => subst ht; simpa using hP
  | cross ht hp he hc hx =>
    subst ht
    simp only [if_true, List.mem_append, List.mem_singleton]
    rintro v (hv | rfl)
    · exact hP v hv
    · have hst := (limiting_index hw.indexed hA.htick).2
      obtain ⟨⟨g1, g2⟩, _⟩ := Market.cross_ok hx
      exact ⟨_, by rw [g1]; exact hst, g2⟩

theorem updateTicks_net {k : PoolKey} {x : Map (PoolKey × Int) Tick} (l : List Tick) : ∀ {y z},
    (∀ t ∈ l, ∃ u, x.get (k, t.index) = some u ∧ netLiq t = netLiq u) →
    (∀ i, Option.Rel (fun t u : Tick => netLiq u = netLiq t) (x.get (k, i)) (y.get (k, i))) →
    updateTicks k l y = .ok z →
    ∀ i, Option.Rel (fun t u : Tick => netLiq u = netLiq t) (x.get (k, i)) (z.get (k, i)) := by
  induction l with
  | nil => intro y z _ h h1; cases h1; exact h
  | cons t l ih =>
    intro y z hl h h1
    simp only [updateTicks, bind_ok_iff, ticksUpdate_ok] at h1
    obtain ⟨_, ⟨_, rfl⟩, h1⟩ := h1
    refine ih (fun t ht => hl t (List.mem_cons_of_mem _ ht)) ?_ h1
    intro i
    rw [Map.get_insert]
    by_cases hi : i = t.index
    · obtain ⟨u, h2, h3⟩ := hl t List.mem_cons_self
      rw [if_pos (by rw [hi]), hi, h2]
      exact .some h3
    · rw [if_neg (by simp [hi])]
      exact h i

theorem swap_net {env : Env} {k : PoolKey} {xToY byIn : Bool} {amount limit : Nat} {r : Inv × CalculateSwapResult}
    (hw : StoreWF s) (h : swap env s k xToY amount byIn limit = .ok r) (i : Int) :
    Option.Rel (fun t u : Tick => netLiq u = netLiq t) (s.ticks.get (k, i)) (r.1.ticks.get (k, i)) := by
  obtain ⟨ticks, _, _, h1, h2, _, _, h3⟩ := swap_ok h
  obtain ⟨pool, st, _, _, _, _, hl, _, hr⟩ := calculateSwap_ok h1
  rw [h3]
  refine updateTicks_net _ ?_ ?_ h2 i
  · rw [hr]
    exact ticks_stored hw (by simp) hl
  · intro i
    cases s.ticks.get (k, i) with
    | none => exact .none
    | some t => exact .some rfl

/-! ## Exact output -/

/-- the runs are at the same place, the one with the lower fee has paid no more -/
structure Even (A B : SwapState) : Prop where
  pool : PoolM A.pool B.pool
  out : B.totalOut = A.totalOut
  rem : B.remaining = A.remaining
  inp : B.totalIn ≤ A.totalIn
  fee : B.fee ≤ A.fee

theorem iter_even (h : Low s a s' b) (hout : a.byIn = false) (hl : Even A B)
    (hA : swapIter s a A = .ok A') (hB : swapIter s' b B = .ok B') : Even A' B' := by
  obtain ⟨target, info, ra, remA, pA, tick, uA, hA⟩ := swapIter_ok hA
  obtain ⟨target', info', rb, remB, pB, tick', uB, hB⟩ := swapIter_ok hB
  obtain ⟨rfl, rfl, hpick, hpool⟩ := round h hl.pool hA hB
  have hout' : b.byIn = false := by rw [h.byIn, hout]
  have s1 := hA.step
  have s2 := hB.step
  rw [hout] at s1
  rw [hout', hl.pool.1, hl.pool.2.2, hl.rem] at s2
  obtain ⟨e1, e2, e3, e4⟩ := step_low_out h.fee s1 s2
  have r1 := hA.rem
  have r2 := hB.rem
  rw [hout] at r1
  rw [hout', e3, hl.rem] at r2
  simp only [Bool.false_eq_true, if_false] at r1 r2
  have hrem : remB = remA := by omega
  subst hrem
  have resA := hA.res
  have resB := hB.res
  have hinp := hl.inp
  have hfee := hl.fee
  have ho := hl.out
  have hx := h.xToY
  have uA0 : uA.total = 0 := by cases hA.upd <;> simp_all
  have uB0 : uB.total = 0 := by cases hB.upd <;> simp_all
  have main : PoolM uA.pool uB.pool ∧ uB.remaining = uA.remaining := by
    have key : ∀ {x : Nat} {L : Nat} {e e' : Bool},
        isEnoughAmountToChangePrice x ra.nextSqrtPrice L a.key.feeTier.fee a.byIn a.xToY = .ok e →
        isEnoughAmountToChangePrice x rb.nextSqrtPrice L b.key.feeTier.fee b.byIn b.xToY = .ok e' → e' = e := by
      intro x L e e' h1 h2
      rw [hout] at h1
      rw [hout', e1, hx, enough_out (fee := a.key.feeTier.fee), h1] at h2
      injection h2 with h2
      exact h2.symm
    have hA' := hA.upd
    have hB' := hB.upd
    have hL := hpool.2.2
    have hT := hpool.2.1
    have hsp := h.spacing
    clear r1 r2 s1 s2 hA hB resA resB uA0 uB0
    cases hpick with
    | noTick =>
      cases hA' with
      | inside _ hi =>
        cases hB' with
        | inside _ hi' =>
          rw [e1, hsp, hi] at hi'
          injection hi' with hi'
          exact ⟨⟨e1, hi'.symm, hL⟩, rfl⟩
        | cross ht => cases ht
        | dust ht => cases ht
        | drop ht => cases ht
        | done ht => cases ht
        | uninit ht => cases ht
      | cross ht => cases ht
      | dust ht => cases ht
      | drop ht => cases ht
      | done ht => cases ht
      | uninit ht => cases ht
    | uninitialized i =>
      cases hA' with
      | inside hc hi =>
        cases hB' with
        | inside _ hi' =>
          rw [e1, hsp, hi] at hi'
          injection hi' with hi'
          exact ⟨⟨e1, hi'.symm, hL⟩, rfl⟩
        | cross ht => cases ht
        | dust ht => cases ht
        | drop ht => cases ht
        | done ht => cases ht
        | uninit ht hp => rw [e1] at hp; simp [hp] at hc
      | cross ht => cases ht
      | dust ht => cases ht
      | drop ht => cases ht
      | done ht => cases ht
      | uninit ht hp he =>
        cases hB' with
        | inside hc _ => rw [e1] at hc; simp [hp] at hc
        | cross ht => cases ht
        | dust ht => cases ht
        | drop ht => cases ht
        | done ht => cases ht
        | uninit ht' hp' he' =>
          cases ht
          cases ht'
          dsimp only at he he'
          rw [hL] at he'
          have := key he he'
          refine ⟨⟨e1, ?_, hL⟩, rfl⟩
          dsimp only
          rw [this, hx, hsp]
    | @initialized t u htu =>
      cases hA' with
      | inside hc hi =>
        cases hB' with
        | inside _ hi' =>
          rw [e1, hsp, hi] at hi'
          injection hi' with hi'
          exact ⟨⟨e1, hi'.symm, hL⟩, rfl⟩
        | cross ht hp => rw [e1] at hp; simp [hp] at hc
        | dust ht hp => rw [e1] at hp; simp [hp] at hc
        | drop ht hp => rw [e1] at hp; simp [hp] at hc
        | done ht hp => rw [e1] at hp; simp [hp] at hc
        | uninit ht hp => cases ht
      | uninit ht => cases ht
      | dust _ _ _ _ _ hb => rw [hout] at hb; cases hb
      | cross ht hp he hc hcr =>
        cases ht
        cases hB' with
        | inside hc _ => rw [e1] at hc; simp [hp] at hc
        | uninit ht => cases ht
        | dust _ _ _ _ _ hb => rw [hout'] at hb; cases hb
        | cross ht' hp' he' hc' hcr' =>
          cases ht'
          dsimp only at he he'
          rw [hL] at he'
          have := key he he'
          obtain ⟨g1, g2⟩ := cross_same (p := { pA with sqrtPrice := ra.nextSqrtPrice })
            (q := { pB with sqrtPrice := rb.nextSqrtPrice }) ⟨e1, hT, hL⟩ htu hcr hcr'
          refine ⟨⟨g1, ?_, g2⟩, rfl⟩
          dsimp only
          rw [this, hx, hsp, htu.1]
        | drop ht' hp' he' hd =>
          dsimp only at he he'
          rw [hL] at he'
          have := key he he'
          rw [hx] at hd
          simp [hd, ← this] at hc
        | done ht' hp' he' hd =>
          dsimp only at he he'
          rw [hL] at he'
          have := key he he'
          rw [hx] at hd
          simp [hd, ← this] at hc
      | drop ht hp he hd hr =>
        cases ht
        cases hB' with
        | inside hc _ => rw [e1] at hc; simp [hp] at hc
        | uninit ht => cases ht
        | dust _ _ _ _ _ hb => rw [hout'] at hb; cases hb
        | cross ht' hp' he' hc' =>
          dsimp only at he he'
          rw [hL] at he'
          have := key he he'
          simp [hx, hd, this] at hc'
        | drop ht' => cases ht'; exact ⟨⟨e1, htu.1, hL⟩, rfl⟩
        | done ht' => cases ht'; exact ⟨⟨e1, htu.1, hL⟩, rfl⟩
      | done ht hp he hd hr =>
        cases ht
        cases hB' with
        | inside hc _ => rw [e1] at hc; simp [hp] at hc
        | uninit ht => cases ht
        | dust _ _ _ _ _ hb => rw [hout'] at hb; cases hb
        | cross ht' hp' he' hc' =>
          dsimp only at he he'
          rw [hL] at he'
          have := key he he'
          simp [hx, hd, this] at hc'
        | drop ht' => cases ht'; exact ⟨⟨e1, htu.1, hL⟩, rfl⟩
        | done ht' => cases ht'; exact ⟨⟨e1, htu.1, hL⟩, rfl⟩
  rw [resA, resB]
  exact ⟨main.1, by dsimp only; omega, main.2, by dsimp only; omega, by dsimp only; omega⟩

theorem loop_even (h : Low s a s' b) (hout : a.byIn = false) : ∀ n m A B A' B', Even A B →
    swapLoop s a n A = some (.ok A') → swapLoop s' b m B = some (.ok B') → Even A' B' := by
  intro n
  induction n with
  | zero => intro m A B A' B' _ h; simp [swapLoop] at h
  | succ n ih =>
    intro m A B A' B' hl hA hB
    cases m with
    | zero => simp [swapLoop] at hB
    | succ m =>
      rw [swapLoop] at hA hB
      rw [hl.rem] at hB
      split at hA
      · next h0 =>
        rw [if_pos h0] at hB
        cases hA; cases hB
        exact hl
      · next h0 =>
        rw [if_neg h0] at hB
        cases hA1 : swapIter s a A with
        | error e => rw [hA1] at hA; simp at hA
        | ok A1 =>
          cases hB1 : swapIter s' b B with
          | error e => rw [hB1] at hB; simp at hB
          | ok B1 =>
            rw [hA1] at hA
            rw [hB1] at hB
            exact ih m _ _ _ _ (iter_even h hout hl hA1 hB1) hA hB

/-! ## Exact input -/

/-- the directions and limits in which exact inputs can be compared -/
def LowMode (a : SwapArgs) : Prop :=
  a.byIn = true ∧ (a.xToY = true ∧ 10 ^ 24 < a.limit ∨ a.xToY = false)

/-- the run with more is ahead -/
structure Fore (a : SwapArgs) (A B : SwapState) : Prop where
  price : if a.xToY then B.pool.sqrtPrice ≤ A.pool.sqrtPrice else A.pool.sqrtPrice ≤ B.pool.sqrtPrice
  out : a.xToY = true → A.totalOut ≤ B.totalOut
  outX : a.xToY = false → (A.totalOut : ℚ) ≤ (1 + relX) * (B.totalOut + 1)

/-- both runs are at the same place -/
structure Same (A B : SwapState) : Prop where
  pool : PoolM A.pool B.pool
  out : A.totalOut = B.totalOut
  rem : A.remaining ≤ B.remaining

/-- the smaller run stays at the end of its search range, with too little to change the price -/
structure Behind (s : Inv) (a : SwapArgs) (A B : SwapState) : Prop where
  mode : a.byIn = true ∧ a.xToY = true ∧ 10 ^ 24 < a.limit
  pool : B.pool.sqrtPrice = A.pool.sqrtPrice ∧ B.pool.liquidity = A.pool.liquidity
  tick : B.pool.currentTickIndex < A.pool.currentTickIndex
  out : A.totalOut = B.totalOut
  rem : A.remaining ≤ B.remaining
  pos : A.remaining ≠ 0
  few : isEnoughAmountToChangePrice A.remaining A.pool.sqrtPrice A.pool.liquidity a.key.feeTier.fee true true =
    .ok false
  price : A.pool.sqrtPrice = priceOf A.pool.currentTickIndex
  empty : (s.ticks.get (a.key, A.pool.currentTickIndex)).isSome = false

theorem Same.fore (h : Same A B) : Fore a A B where
  price := by rw [h.pool.1]; split <;> exact le_rfl
  out _ := h.out.le
  outX _ := by
    have h0 : (0 : ℚ) ≤ B.totalOut := Nat.cast_nonneg _
    rw [h.out]
    nlinarith [relX_pos]

theorem Fore.trans {C : SwapState} (hx : b.xToY = a.xToY) (h : Fore a A B) (g : Onward b B C) : Fore a A C where
  price := by
    have h1 := h.price
    have h2 := g.price
    rw [hx] at h2
    split at h1 <;> simp_all <;> omega
  out x := (h.out x).trans g.out
  outX x := (h.outX x).trans (by
    have : (B.totalOut : ℚ) ≤ C.totalOut := by exact_mod_cast g.out
    have := relX_pos
    gcongr)

theorem step_low (h : Low s a s' b) (hm : LowMode a) {x y target : Nat} {info : Option (Int × Bool)}
    {ra rb : SwapResult} {pool : Pool} (hxy : x ≤ y) (hp : PriceOK pool.sqrtPrice)
    (ht : IterTarget s a pool target info)
    (ha : computeSwapStep pool.sqrtPrice target pool.liquidity x a.byIn a.key.feeTier.fee = .ok ra)
    (hb : computeSwapStep pool.sqrtPrice target pool.liquidity y b.byIn b.key.feeTier.fee = .ok rb) :
    StepLow a.xToY x target ra rb := by
  have hside := ht.side
  rw [h.byIn] at hb
  obtain ⟨e1, ⟨e2, hl⟩ | e2⟩ := hm <;> rw [e1] at ha hb <;> rw [e2] at hside ⊢
  · rw [if_pos rfl] at hside
    exact step_low_x h.fee hxy hp.1 hside.2 (by omega) ha hb
  · rw [if_neg (by decide)] at hside
    exact step_low_y h.fee hxy hp.1 hside.1 ha hb

/-- what the results of a round owe to its step -/
theorem iter_fore {target target' remA remB : Nat} {info info' : Option (Int × Bool)} {ra rb : SwapResult}
    {pA pB : Pool} {tick tick' : UpdatePoolTick} {uA uB : UpdateTickResult} (hout : A.totalOut = B.totalOut)
    (hA : SwapIterOk s a A A' target info ra remA pA tick uA)
    (hB : SwapIterOk s' b B B' target' info' rb remB pB tick' uB)
    (ho : StepLow a.xToY A.remaining target ra rb) : Fore a A' B' where
  price := by
    rw [iterOk_price hA, iterOk_price hB]
    exact ho.price
  out hx := by
    rw [hA.res, hB.res]
    dsimp only
    have := ho.out hx
    omega
  outX hx := by
    rw [hA.res, hB.res]
    dsimp only
    have h1 := ho.outX hx
    rw [hout]
    push_cast
    have h0 : (0 : ℚ) ≤ B.totalOut := Nat.cast_nonneg _
    nlinarith [relX_pos]

theorem iter_low (h : Low s a s' b) (hw : StoreWF s) (hs : Spacing a.key.feeTier.tickSpacing) (hm : LowMode a)
    (hi : SwapSide a start A) (h0 : A.remaining ≠ 0) (hl : Same A B)
    (hA : swapIter s a A = .ok A') (hB : swapIter s' b B = .ok B') :
    Fore a A' B' ∧ (A'.remaining = 0 ∨ Same A' B' ∨ Behind s a A' B') := by
  obtain ⟨target, info, ra, remA, pA, tick, uA, hA⟩ := swapIter_ok hA
  obtain ⟨target', info', rb, remB, pB, tick', uB, hB⟩ := swapIter_ok hB
  obtain ⟨rfl, rfl, hpick, hpool⟩ := round h hl.pool hA hB
  have ht := iter_target hw hs hi.agree (side_limit hi h0) hA.limit
  have hsb := hB.step
  rw [hl.pool.1, hl.pool.2.2] at hsb
  have ho := step_low h hm hl.rem hi.agree.price ht hA.step hsb
  refine ⟨iter_fore hl.out hA hB ho, ?_⟩
  by_cases hz : remA = 0
  · exact .inl (rem_zero hA hz)
  have hbi := hm.1
  have hbi' : b.byIn = true := by rw [h.byIn, hbi]
  have r1 := hA.rem
  have r2 := hB.rem
  rw [hbi, if_pos rfl] at r1
  rw [hbi', if_pos rfl] at r2
  rcases ho.which with ⟨hreach, e1, e2, e3, e4⟩ | hdone
  swap
  · omega
  have hrem : remA ≤ remB := by
    have := hl.rem
    omega
  have hp12 : 10 ^ 12 ≤ ra.nextSqrtPrice := by
    rw [hreach]
    exact le_trans (by norm_num [MIN_SQRT_PRICE]) ht.price.1
  have hnext : rb.nextSqrtPrice = ra.nextSqrtPrice := by rw [hreach, e1]
  have hx := h.xToY
  -- the larger rest is enough where the smaller one is
  have mono : ∀ {L : Nat} {e e' : Bool}, a.xToY = true →
      isEnoughAmountToChangePrice remA ra.nextSqrtPrice L a.key.feeTier.fee a.byIn a.xToY = .ok e →
      isEnoughAmountToChangePrice remB rb.nextSqrtPrice L b.key.feeTier.fee b.byIn b.xToY = .ok e' →
      e = true → e' = true := by
    intro L e e' hxy h1 h2 h3
    rw [hbi, hxy] at h1
    rw [hbi', hx, hxy, hnext] at h2
    cases e'
    · have := enough_low h.fee hrem hp12 h2 h1
      rw [h3] at this
      cases this
    · rfl
  have hno : ¬ (tick = .noTick ∨ target' ≠ ra.nextSqrtPrice) := by
    rintro (h | h)
    · have hk := hA.htick
      have : info' = none := by
        match info' with
        | none => rfl
        | some (i, false) => simp [limitingTick, h] at hk
        | some (i, true) =>
          simp only [limitingTick, bind_ok_iff, pure_ok_iff, h] at hk
          obtain ⟨_, _, e⟩ := hk
          cases e
      exact hA.notLimit ⟨by rw [hreach]; exact ht.none this, hz⟩
    · exact h hreach.symm
  have hno' : ¬ (tick' = .noTick ∨ target' ≠ rb.nextSqrtPrice) := by
    rw [hnext]
    intro hc
    refine hno (hc.imp_left fun e => ?_)
    subst e
    cases hpick
    rfl
  have resA := hA.res
  have resB := hB.res
  have tout := hl.out
  have hL := hpool.2.2
  have hT := hpool.2.1
  have hsp := h.spacing
  cases hA.upd with
  | inside hc => exact (hno hc).elim
  | dust => left; rw [resA]
  | drop => left; rw [resA]
  | done => left; rw [resA]
  | cross htk hp he hc hcr =>
    subst htk
    right; left
    cases hpick with
    | @initialized _ u htu =>
      cases hB.upd with
      | inside hc => exact (hno' hc).elim
      | cross htk' hp' he' hc' hcr' =>
        cases htk'
        rw [resA, resB]
        obtain ⟨g1, g2⟩ := cross_same (p := { pA with sqrtPrice := ra.nextSqrtPrice })
          (q := { pB with sqrtPrice := rb.nextSqrtPrice }) ⟨hnext, hT, hL⟩ htu hcr hcr'
        refine ⟨⟨g1, ?_, g2⟩, by dsimp only; omega, hrem⟩
        dsimp only
        cases hxy : a.xToY
        · simp [hx, hxy, htu.1]
        · have c1 := hc.resolve_left (by simp [hxy])
          have c2 := hc'.resolve_left (by simp [hx, hxy])
          simp [c1, c2, hx, hxy, htu.1, hsp]
      | dust htk' hp' he' hd =>
        rw [hx] at hd
        dsimp only at he he'
        rw [hL] at he'
        have := mono hd he he' (hc.resolve_left (by simp [hd]))
        cases this
      | drop htk' hp' he' hd =>
        rw [hx] at hd
        dsimp only at he he'
        rw [hL] at he'
        have := mono hd he he' (hc.resolve_left (by simp [hd]))
        cases this
      | done htk' hp' he' hd =>
        rw [hx] at hd
        dsimp only at he he'
        rw [hL] at he'
        have := mono hd he he' (hc.resolve_left (by simp [hd]))
        cases this
      | uninit htk' => cases htk'
  | uninit htk hp he =>
    rename_i i enough
    subst htk
    have hin := limiting_uninit hA.htick
    obtain ⟨hpr, hgrid, hem, -⟩ := ht.tick i false hin
    cases hpick
    cases hB.upd with
    | inside hc => exact (hno' hc).elim
    | cross htk' => cases htk'
    | dust htk' => cases htk'
    | drop htk' => cases htk'
    | done htk' => cases htk'
    | uninit htk' hp' he' =>
      rename_i i' enough'
      cases htk'
      dsimp only at he he'
      rw [hL] at he'
      by_cases hsame : (a.xToY && enough) = (a.xToY && enough')
      · right; left
        rw [resA, resB]
        refine ⟨⟨hnext, ?_, hL⟩, by dsimp only; omega, hrem⟩
        dsimp only
        rw [hx, hsame, hsp]
      · right; right
        have hxy : a.xToY = true := by
          cases h : a.xToY
          · simp [h] at hsame
          · rfl
        have hen : enough = false := by
          cases h : enough
          · rfl
          · subst h
            have := mono hxy he he' rfl
            simp [this] at hsame
        have hen' : enough' = true := by
          cases h : enough'
          · simp [hen, h] at hsame
          · rfl
        subst hen hen'
        rw [resA, resB]
        refine ⟨?_, ⟨hnext, hL⟩, ?_, ?_, hrem, hz, ?_, ?_, ?_⟩
        · refine ⟨hbi, hxy, ?_⟩
          rcases hm.2 with h | h
          · exact h.2
          · simp [hxy] at h
        · have := hs.1
          simp [hxy, hx, hsp]
          omega
        · dsimp only; omega
        · dsimp only
          rw [hbi, hxy] at he
          exact he
        · simp [hxy, hreach, hpr]
        · simp [hxy, hem]

theorem behind_low (h : Low s a s' b) (hw : StoreWF s) (hw' : StoreWF s') (hs : Spacing a.key.feeTier.tickSpacing)
    (hi : SwapSide a start A) (hj : SwapSide b start' B) (hl : Behind s a A B) (hA : swapIter s a A = .ok A')
    (hB : swapIter s' b B = .ok B') :
    (A'.remaining = 0 ∧ (Fore a A' B ∨ Fore a A' B')) ∨ Behind s a A' B := by
  obtain ⟨hb, hx, hlimit⟩ := hl.mode
  obtain ⟨target, info, r, rem, p, tick, u, hA⟩ := swapIter_ok hA
  have ht := iter_target hw hs hi.agree (side_limit hi hl.pos) hA.limit
  have hside := ht.side
  rw [hx, if_pos rfl] at hside
  obtain ⟨hL, hfew⟩ := enough_false hl.few
  have hstep := hA.step
  rw [hb] at hstep
  have F := computeSwapStep_ok hL hstep
  have hd : decide (A.pool.sqrtPrice ≥ target) = true := by simpa using hside.2
  obtain ⟨hpB, hLB⟩ := hl.pool
  have hmode : LowMode a := ⟨hb, .inl ⟨hx, hlimit⟩⟩
  have hrem := hA.rem
  rw [hb, if_pos rfl] at hrem
  have out := F.outEq
  rw [if_pos rfl, hd, outAmt, if_pos rfl] at out
  -- the round ends where it began
  have still : r.nextSqrtPrice = A.pool.sqrtPrice → Fore a A' B := by
    intro h1
    rw [h1, dyDown_self] at out
    refine ⟨?_, fun _ => ?_, by simp [hx]⟩
    · rw [hx, if_pos rfl, iterOk_price hA, h1, hpB]
    · rw [hA.res]
      dsimp only
      have := hl.out
      omega
  by_cases hcur : target = A.pool.sqrtPrice
  · -- the target is the price itself
    have hnext : r.nextSqrtPrice = target := by
      rcases (F.nextIn rfl).2 with ⟨-, h⟩ | ⟨h, -⟩
      · exact h
      · rw [hd, inAmt, if_pos rfl, hcur, dxUp_self] at h
        omega
    have hin : r.amountIn = 0 := by
      rw [F.inEq, hd, inAmt, if_pos rfl, hnext, hcur, dxUp_self]
    have hfee : r.feeAmount = 0 := by
      have := F.feeEq
      rw [if_neg (by simp [hnext]), hin, Nat.zero_mul, cdiv_zero] at this
      exact this
    have hrem' : rem = A.remaining := by omega
    right
    have hpool : p = A.pool := by
      have := hA.fee
      rw [hfee, addFee_zero] at this
      cases this
      rfl
    have hsq : { p with sqrtPrice := r.nextSqrtPrice } = A.pool := by
      rw [hpool, hnext, hcur]
    rw [hnext, hcur, dyDown_self] at out
    match info, hA.htick, ht with
    | none, _, ht =>
      exact (hA.notLimit ⟨by rw [hnext]; exact ht.none rfl, by rw [hrem']; exact hl.pos⟩).elim
    | some (i, true), hk, ht =>
      obtain ⟨h1, h2, h3, h4⟩ := ht.tick i true rfl
      rw [hx, if_pos rfl] at h4
      have : i = A.pool.currentTickIndex := by
        by_contra hne
        have := priceOf_lt h2.min hi.agree.grid.max (by omega : i < A.pool.currentTickIndex)
        have := hl.price
        omega
      rw [this, hl.empty] at h3
      cases h3
    | some (i, false), hk, ht =>
      obtain ⟨h1, h2, h3, h4⟩ := ht.tick i false rfl
      rw [hx, if_pos rfl] at h4
      have hii : i = A.pool.currentTickIndex := by
        by_contra hne
        have := priceOf_lt h2.min hi.agree.grid.max (by omega : i < A.pool.currentTickIndex)
        have := hl.price
        omega
      simp only [limitingTick] at hk
      cases hk
      have hres := hA.res
      have hu := hA.upd
      rw [hsq] at hu
      cases hu with
      | inside hc =>
        rcases hc with h | h
        · cases h
        · exact absurd hnext.symm h
      | cross h => cases h
      | dust h => cases h
      | drop h => cases h
      | done h => cases h
      | uninit h hp he =>
        rename_i i' enough
        cases h
        rw [hb, hx, hrem', hnext, hcur, hl.few] at he
        cases he
        rw [hres]
        subst hii
        exact
          { mode := hl.mode
            pool := ⟨hpB, hLB⟩
            tick := by simpa [hx] using hl.tick
            out := by dsimp only; have := hl.out; omega
            rem := by dsimp only; have := hl.rem; omega
            pos := by dsimp only; have := hl.pos; omega
            few := by
              dsimp only
              rw [hrem']
              exact hl.few
            price := by simpa [hx] using hl.price
            empty := by simpa [hx] using hl.empty }
  left
  rcases (F.nextIn rfl).2 with ⟨h1, h2⟩ | ⟨h1, h2⟩
  · -- the target is reached: it must be the limit, close to the price
    have hclose : ¬ target + 10 ^ 12 ≤ A.pool.sqrtPrice := by
      intro hc
      rw [hd, inAmt, if_pos rfl] at h1
      have := nextX_lt (Nat.pos_of_ne_zero hL) hc (F.dTarget rfl hside.2) h1
      omega
    have hinfo : info = none := by
      match info, ht with
      | none, _ => rfl
      | some (i, b), ht =>
        exfalso
        obtain ⟨g1, g2, -, g4⟩ := ht.tick i b rfl
        rw [hx, if_pos rfl] at g4
        have hp := hl.price
        have hlt : i < A.pool.currentTickIndex := by
          by_contra hne
          have : i = A.pool.currentTickIndex := by omega
          rw [this] at g1
          exact hcur (by rw [g1, hp])
        have := priceOf_step g2.min hi.agree.grid.max hlt
        rw [← g1, ← hp] at this
        exact hclose this
    have htl := ht.none hinfo
    have hz : rem = 0 := by
      by_contra hne
      exact hA.notLimit ⟨by rw [h2, htl], hne⟩
    refine ⟨rem_zero hA hz, .inr ?_⟩
    obtain ⟨target', info', rb, remB, pB, tick', uB, hB⟩ := swapIter_ok hB
    have hposB : B.remaining ≠ 0 := by have := hl.rem; have := hl.pos; omega
    have ht' := iter_target hw' (by rw [h.spacing]; exact hs) hj.agree (side_limit hj hposB) hB.limit
    have hside' := ht'.side
    rw [h.xToY, hx, if_pos rfl, h.limit] at hside'
    have hinfo' : info' = none := by
      match info', ht' with
      | none, _ => rfl
      | some (i, b), ht' =>
        exfalso
        obtain ⟨g1, g2, -, g4⟩ := ht'.tick i b rfl
        rw [h.xToY, hx, if_pos rfl] at g4
        have := priceOf_step g2.min hi.agree.grid.max (lt_of_le_of_lt g4 hl.tick)
        rw [← g1, ← hl.price] at this
        exact hclose (by omega)
    have htl' := ht'.none hinfo'
    rw [h.limit] at htl'
    have e : target' = target := by rw [htl, htl']
    subst e
    have hsb := hB.step
    rw [hpB, hLB] at hsb
    have ho := step_low h hmode hl.rem hi.agree.price ht hA.step hsb
    exact iter_fore hl.out hA hB ho
  · rw [hd] at h2
    unfold getNextSqrtPriceFromInput at h2
    rw [if_pos rfl] at h2
    have h3 := (getNextSqrtPriceXUp_add_ok h2).1
    rw [hfew] at h3
    have hne : r.nextSqrtPrice ≠ target := by rw [h3]; exact fun e => hcur e.symm
    have := step_done_in hL hstep hne
    exact ⟨rem_zero hA (by omega), .inl (still h3)⟩

/-- the loop with more to spend ends ahead -/
theorem loop_low (h : Low s a s' b) (hw : StoreWF s) (hw' : StoreWF s') (hs : Spacing a.key.feeTier.tickSpacing)
    (hm : LowMode a) :
    ∀ n m A B A' B', SwapSide a start A → SwapSide b start' B → (Same A B ∨ Behind s a A B) →
      swapLoop s a n A = some (.ok A') → swapLoop s' b m B = some (.ok B') → Fore a A' B' := by
  have hs' : Spacing b.key.feeTier.tickSpacing := by rw [h.spacing]; exact hs
  intro n
  induction n with
  | zero => intro m A B A' B' _ _ _ h; simp [swapLoop] at h
  | succ n ih =>
    intro m A B A' B' hi hj hrel hA hB
    by_cases h0 : A.remaining = 0
    · rw [swapLoop, if_pos h0] at hA
      cases hA
      rcases hrel with g | g
      · exact g.fore.trans h.xToY (loop_onward hw' hs' hj hB)
      · exact absurd h0 g.pos
    have hB0 : B.remaining ≠ 0 := by
      rcases hrel with h | h
      · have := h.rem; omega
      · have := h.rem; omega
    cases m with
    | zero => simp [swapLoop] at hB
    | succ m =>
      have hB' := hB
      rw [swapLoop, if_neg h0] at hA
      rw [swapLoop, if_neg hB0] at hB
      cases hA1 : swapIter s a A with
      | error e => rw [hA1] at hA; simp at hA
      | ok A1 =>
        cases hB1 : swapIter s' b B with
        | error e => rw [hB1] at hB; simp at hB
        | ok B1 =>
          rw [hA1] at hA
          rw [hB1] at hB
          dsimp only at hA hB
          have sA := iter_side hw hs hi h0 hA1
          have sB := iter_side hw' hs' hj hB0 hB1
          have fin : A1.remaining = 0 → A1 = A' := by
            intro hz
            cases n with
            | zero => simp [swapLoop] at hA
            | succ n => rw [swapLoop, if_pos hz] at hA; cases hA; rfl
          rcases hrel with g | g
          · obtain ⟨h1, h2 | h2 | h2⟩ := iter_low h hw hs hm hi h0 g hA1 hB1
            · rw [← fin h2]
              exact h1.trans h.xToY (loop_onward hw' hs' sB hB)
            · exact ih m _ _ _ _ sA sB (.inl h2) hA hB
            · exact ih m _ _ _ _ sA sB (.inr h2) hA hB
          · rcases behind_low h hw hw' hs hi hj g hA1 hB1 with ⟨h1, h2 | h2⟩ | h1
            · rw [← fin h1]
              exact h2.trans h.xToY (loop_onward hw' hs' hj hB')
            · rw [← fin h1]
              exact h2.trans h.xToY (loop_onward hw' hs' sB hB)
            · exact ih (m + 1) _ _ _ _ sA hj (.inr h1) hA hB'

/-! ## Swaps -/

section swaps
variable {k k' : PoolKey} {xToY byIn : Bool} {amount amount' limit n m : Nat} {r r' : CalculateSwapResult}

theorem low_of (hr : Reach s) (hr' : Reach s') (h : LowerFee s k s' k') (hp : (s.pools.get k).isSome) :
    Low s ⟨k, xToY, byIn, limit, n⟩ s' ⟨k', xToY, byIn, limit, m⟩ := by
  have hw := reach_wf s hr
  have hw' := reach_wf s' hr'
  refine ⟨rfl, rfl, rfl, h.spacing, h.fee, ?_, ?_⟩
  · intro i
    have := h.ticks i
    cases ha : s.ticks.get (k, i) with
    | none =>
      rw [ha] at this
      cases hb : s'.ticks.get (k', i) with
      | none => exact .none
      | some u => rw [hb] at this; cases this
    | some t =>
      rw [ha] at this
      cases hb : s'.ticks.get (k', i) with
      | none => rw [hb] at this; cases this
      | some u =>
        rw [hb] at this
        cases this with
        | some e => exact .some ⟨by rw [hw.indexed _ _ _ ha, hw'.indexed _ _ _ hb], e⟩
  · refine word_eq hw hw' h.spacing ((reach_tiers hr).pools k hp).1.1 ?_
    intro i
    have := h.ticks i
    revert this
    generalize s.ticks.get (k, i) = a
    generalize s'.ticks.get (k', i) = b
    intro this
    cases this <;> rfl

theorem pools_same (h : LowerFee s k s' k') {p q : Pool} (h1 : s.pools.get k = some p)
    (h2 : s'.pools.get k' = some q) : PoolM p q := by
  have := h.pool
  rw [h1, h2] at this
  cases this with
  | some h => exact h

theorem calculate_out (hr : Reach s) (hr' : Reach s') (h : LowerFee s k s' k')
    (h1 : calculateSwap s n k xToY amount false limit = .ok r)
    (h2 : calculateSwap s' m k' xToY amount false limit = .ok r') :
    r'.amountIn ≤ r.amountIn ∧ r'.amountOut = r.amountOut ∧ r'.fee ≤ r.fee ∧
      r'.targetSqrtPrice = r.targetSqrtPrice ∧ PoolM r.pool r'.pool := by
  obtain ⟨p, st, hp, _, _, _, hl, _, rfl⟩ := calculateSwap_ok h1
  obtain ⟨q, st', hq, _, _, _, hl', _, rfl⟩ := calculateSwap_ok h2
  have e := loop_even (low_of hr hr' h (by rw [hp]; rfl)) rfl _ _
    { pool := p, ticks := [], remaining := amount, totalIn := 0, totalOut := 0, fee := 0 }
    ({ pool := q, ticks := [], remaining := amount, totalIn := 0, totalOut := 0, fee := 0 }) _ _
    ⟨pools_same h hp hq, rfl, rfl, le_rfl, le_rfl⟩ hl hl'
  exact ⟨e.inp, e.out, e.fee, e.pool.1, e.pool⟩

theorem calculate_in (hr : Reach s) (hr' : Reach s') (h : LowerFee s k s' k')
    (hm : xToY = true ∧ 10 ^ 24 < limit ∨ xToY = false) (hle : amount ≤ amount')
    (h1 : calculateSwap s n k xToY amount true limit = .ok r)
    (h2 : calculateSwap s' m k' xToY amount' true limit = .ok r') :
    (if xToY then r'.targetSqrtPrice ≤ r.targetSqrtPrice else r.targetSqrtPrice ≤ r'.targetSqrtPrice) ∧
    (xToY = true → r.amountOut ≤ r'.amountOut) ∧
    (xToY = false → (r.amountOut : ℚ) ≤ (1 + relX) * (r'.amountOut + 1)) := by
  obtain ⟨p, st, hp, _, l1, l2, hl, _, rfl⟩ := calculateSwap_ok h1
  obtain ⟨q, st', hq, _, l3, l4, hl', _, rfl⟩ := calculateSwap_ok h2
  have ht := ((reach_tiers hr).pools k (by rw [hp]; rfl)).1
  have hs : Spacing k.feeTier.tickSpacing := ⟨ht.1, ht.2.1⟩
  have side : ∀ {s : Inv} {k : PoolKey} {p : Pool} {n x : Nat}, Reach s → s.pools.get k = some p →
      (xToY = true → limit < p.sqrtPrice ∧ limit ≤ MAX_SQRT_PRICE) →
      (xToY = false → p.sqrtPrice < limit ∧ MIN_SQRT_PRICE ≤ limit) →
      SwapSide ⟨k, xToY, true, limit, n⟩ p.sqrtPrice
      { pool := p, ticks := [], remaining := x, totalIn := 0, totalOut := 0, fee := 0 } := by
    intro s k p n x hr hp l1 l2
    refine ⟨reach_agree s hr k p hp, ?_, ?_⟩
    · cases xToY <;> simp
    · cases hx : xToY
      · simpa using (l2 hx).1.le
      · simpa using .inl (l1 hx).1.le
  have := loop_low (low_of hr hr' h (by rw [hp]; rfl)) (reach_wf s hr) (reach_wf s' hr') hs ⟨rfl, hm⟩ _ _ _ _ _ _
    (side hr hp l1 l2) (side hr' hq l3 l4) (.inl ⟨pools_same h hp hq, rfl, hle⟩) hl hl'
  exact ⟨this.price, this.out, this.outX⟩

end swaps

end Cheap
end Verif
