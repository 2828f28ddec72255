import Verif.Spec.Till
import Verif.Proofs.Alike
import Verif.Proofs.CallFrame

/-! # Two runs of the program on states that differ in protocol fees to be collected -/

namespace Verif
open Service Spec

namespace Till

section follows
variable {α β γ δ : Type} {R : α → β → Prop} {S : γ → δ → Prop} {O : β → Prop} {O' : δ → Prop}

theorem bind {x : M α} {y : M β} {f : α → M γ} {g : β → M δ} (h : Follows R O x y)
    (k : ∀ a b, R a b → Follows S O' (f a) (g b)) (ho : ∀ b c, O b → g b = .ok c → O' c) :
    Follows S O' (x >>= f) (y >>= g) := by
  cases h with
  | same h =>
    cases h with
    | ok h => exact k _ _ h
    | error => exact .same .error
  | full h =>
    refine .full fun c hc => ?_
    obtain ⟨b, hb, hc⟩ := bind_ok_iff.1 hc
    exact ho b c (h b hb) hc

theorem same {x : M α} {f : α → M γ} {g : α → M δ} (k : ∀ a, Follows S O' (f a) (g a)) :
    Follows S O' (x >>= f) (x >>= g) := by
  cases x with
  | ok a => exact k a
  | error => exact .same .error

theorem after {x : M α} {y : M β} {f : α → M γ} {g : β → M δ} (h : SameOutcome R x y)
    (k : ∀ a b, R a b → Follows S O' (f a) (g b)) : Follows S O' (x >>= f) (y >>= g) :=
  bind (O := fun _ => False) (.same h) k fun _ _ h _ => h.elim

theorem pure {a : γ} {b : δ} (h : S a b) : Follows S O' (Pure.pure a : M γ) (Pure.pure b : M δ) := .same (.pure h)

theorem unwrap {x : M α} {y : M β} (h : Follows R O x y) : Follows R O (Verif.unwrap x) (Verif.unwrap y) := by
  cases h with
  | same h => exact .same h.unwrap
  | full h => exact .full fun b hb => h b (unwrap_ok_iff.1 hb)

theorem mono {R' : α → β → Prop} {P : β → Prop} {x : M α} {y : M β} (h : Follows R O x y) (hR : ∀ a b, R a b → R' a b)
    (hO : ∀ b, y = .ok b → O b → P b) : Follows R' P x y := by
  cases h with
  | same h => exact .same (h.mono hR)
  | full h => exact .full fun b hb => hO b hb (h b hb)

end follows

variable {d : Nat × Nat} {p q : Pool}

theorem over_grow (h : Over d p) (hg : PoolGrows p q) : Over d q :=
  ⟨h.1, h.2.imp (fun h => h.trans (Nat.add_le_add_right hg.protoX _)) fun h => h.trans (Nat.add_le_add_right hg.protoY _)⟩

theorem fill_zero : fill (0, 0) p = p := rfl

theorem addFee_fill {amount rate : Nat} {inX : Bool} :
    Follows (fun a b => a = fill d b) (Over d) ((fill d p).addFee amount inX rate) (p.addFee amount inX rate) := by
  by_cases hd : d = (0, 0)
  · subst hd
    rw [fill_zero]
    exact .same (SameOutcome.refl.mono fun a b h => h)
  unfold Pool.addFee
  refine same fun pf => same fun fee => ?_
  have hl : (fill d p).liquidity = p.liquidity := rfl
  rw [hl]
  split
  · exact pure rfl
  · refine same fun g => ?_
    split
    · by_cases ho : p.feeProtocolTokenX + d.1 + pf < 2 ^ 256
      · have e1 : addC 256 .panic (fill d p).feeProtocolTokenX pf = .ok (p.feeProtocolTokenX + d.1 + pf) :=
          addC_ok_iff.2 ⟨ho, rfl⟩
        have e2 : addC 256 .panic p.feeProtocolTokenX pf = .ok (p.feeProtocolTokenX + pf) :=
          addC_ok_iff.2 ⟨by omega, rfl⟩
        rw [e1, e2]
        refine pure ?_
        unfold fill
        dsimp only
        rw [Nat.add_right_comm]
      · have e1 : addC 256 .panic (fill d p).feeProtocolTokenX pf = .error .panic := by
          unfold addC; exact if_neg ho
        rw [e1]
        refine .full fun b hb => ⟨hd, .inl ?_⟩
        simp only [bind_ok_iff, addC_ok_iff, pure_ok_iff] at hb
        obtain ⟨x, ⟨-, rfl⟩, rfl⟩ := hb
        dsimp only
        omega
    · by_cases ho : p.feeProtocolTokenY + d.2 + pf < 2 ^ 256
      · have e1 : addC 256 .panic (fill d p).feeProtocolTokenY pf = .ok (p.feeProtocolTokenY + d.2 + pf) :=
          addC_ok_iff.2 ⟨ho, rfl⟩
        have e2 : addC 256 .panic p.feeProtocolTokenY pf = .ok (p.feeProtocolTokenY + pf) :=
          addC_ok_iff.2 ⟨by omega, rfl⟩
        rw [e1, e2]
        refine pure ?_
        unfold fill
        dsimp only
        rw [Nat.add_right_comm]
      · have e1 : addC 256 .panic (fill d p).feeProtocolTokenY pf = .error .panic := by
          unfold addC; exact if_neg ho
        rw [e1]
        refine .full fun b hb => ⟨hd, .inr ?_⟩
        simp only [bind_ok_iff, addC_ok_iff, pure_ok_iff] at hb
        obtain ⟨x, ⟨-, rfl⟩, rfl⟩ := hb
        dsimp only
        omega

/-! ## Swaps -/

theorem cross_fill {t : Tick} {now : Nat} :
    SameOutcome (fun a b => a = (b.1, fill d b.2)) (t.cross (fill d p) now) (t.cross p now) := by
  unfold Tick.cross
  exact .same fun x => .same fun l => .pure rfl

theorem updateTick_grows {r : SwapResult} {limit remaining rate now : Nat} {tick : UpdatePoolTick} {byIn xToY : Bool}
    {tier : FeeTier} {u : UpdateTickResult} (h : p.updateTick r limit tick remaining byIn xToY now rate tier = .ok u) :
    PoolGrows p u.pool := by
  cases updateTick_ok h with
  | inside => exact ⟨rfl, rfl, le_rfl, le_rfl⟩
  | cross _ _ _ _ hx =>
    dsimp only
    rw [(cross_full hx).2.1]
    exact ⟨rfl, rfl, le_rfl, le_rfl⟩
  | dust _ _ _ _ _ _ hf =>
    obtain ⟨a, b, c, d⟩ := poolGrows_addFee hf
    exact ⟨a, b, c, d⟩
  | drop => exact ⟨rfl, rfl, le_rfl, le_rfl⟩
  | done => exact ⟨rfl, rfl, le_rfl, le_rfl⟩
  | uninit => exact ⟨rfl, rfl, le_rfl, le_rfl⟩

theorem updateTick_fill {r : SwapResult} {limit remaining rate now : Nat} {tick : UpdatePoolTick} {byIn xToY : Bool}
    {tier : FeeTier} :
    Follows (fun a b => a = { b with pool := fill d b.pool }) (fun b => Over d b.pool)
      ((fill d p).updateTick r limit tick remaining byIn xToY now rate tier)
      (p.updateTick r limit tick remaining byIn xToY now rate tier) := by
  unfold Pool.updateTick
  split
  · exact same fun i => pure rfl
  · refine same fun enough => ?_
    cases tick with
    | noTick => exact .same .error
    | uninitialized i => exact pure rfl
    | initialized t =>
      dsimp only
      split
      · refine after cross_fill.unwrap fun a b hab => ?_
        subst hab
        exact pure rfl
      · split
        · split
          · refine bind (unwrap addFee_fill) (fun a b hab => ?_) fun b c hb hc => ?_
            · subst hab
              exact pure rfl
            · cases pure_ok_iff.1 hc
              exact hb
          · exact pure rfl
        · exact pure rfl

variable {t : Inv} {P : Map PoolKey Pool} {B : Balances}

theorem iter_fill {a : SwapArgs} {st : SwapState} :
    Follows (fun a b => a = { b with pool := fill d b.pool }) (fun b => Over d b.pool)
      (swapIter { t with pools := P, balances := B } a { st with pool := fill d st.pool }) (swapIter t a st) := by
  unfold swapIter
  refine same fun lim => same fun r => same fun inFee => same fun remaining =>
    bind (unwrap addFee_fill) (fun x y hxy => ?_) fun b c hb hc => ?_
  · subst hxy
    refine same fun fee => same fun tin => same fun tout => same fun _ => ?_
    refine after (R := Eq) ?_ fun u v huv => ?_
    · exact .refl
    subst huv
    refine bind (updateTick_fill (p := { y with sqrtPrice := r.nextSqrtPrice })) (fun x y hxy => ?_) fun b c hb hc => ?_
    · subst hxy
      exact same fun total => same fun _ => pure rfl
    · simp only [bind_ok_iff, pure_ok_iff] at hc
      obtain ⟨_, _, _, _, rfl⟩ := hc
      exact hb
  · simp only [bind_ok_iff, pure_ok_iff] at hc
    obtain ⟨_, _, _, _, _, _, _, _, _, _, _, hu, _, _, _, _, rfl⟩ := hc
    have := updateTick_grows hu
    exact over_grow hb ⟨this.1, this.2, this.3, this.4⟩

theorem loop_fill {a : SwapArgs} : ∀ (fuel : Nat) {st : SwapState},
    Follows (fun a b => a = { b with pool := fill d b.pool }) (fun b => Over d b.pool)
      ((swapLoop { t with pools := P, balances := B } a fuel { st with pool := fill d st.pool }).getD (.error .panic))
      ((swapLoop t a fuel st).getD (.error .panic))
  | 0, st => .same .error
  | n + 1, st => by
    unfold swapLoop
    dsimp only
    split
    · exact .same (.ok rfl)
    · have hi := iter_fill (d := d) (t := t) (P := P) (B := B) (a := a) (st := st)
      revert hi
      generalize swapIter { t with pools := P, balances := B } a { st with pool := fill d st.pool } = x
      generalize hy : swapIter t a st = y
      intro hi
      cases hi with
      | same h =>
        cases h with
        | error => exact .same .error
        | @ok u v h => subst h; exact loop_fill n
      | full h =>
        refine .full fun b hb => ?_
        cases y with
        | error e => cases hb
        | ok v =>
          refine over_grow (h v rfl) ?_
          dsimp only at hb
          cases hl : swapLoop t a n v with
          | none => rw [hl] at hb; cases hb
          | some w =>
            rw [hl] at hb
            dsimp only [Option.getD] at hb
            subst hb
            exact loop_grows n hl
where
  loop_grows {a : SwapArgs} : ∀ (fuel : Nat) {v b : SwapState}, swapLoop t a fuel v = some (.ok b) → PoolGrows v.pool b.pool
  | 0, _, _, h => by cases h
  | n + 1, v, b, h => by
    unfold swapLoop at h
    split at h
    · cases h; exact PoolGrows.refl _
    · cases hi : swapIter t a v with
      | error e => rw [hi] at h; cases h
      | ok u => rw [hi] at h; exact (poolGrows_iter hi).trans (loop_grows n h)

/-- the states of the two runs: the pools of `P` have more by `D` -/
def PoolsFull (D : PoolKey → Nat × Nat) (P T : Map PoolKey Pool) : Prop := ∀ k, P.get k = (T.get k).map (fill (D k))

variable {D : PoolKey → Nat × Nat} {T : Map PoolKey Pool}

theorem poolsGet_fill (h : PoolsFull D P T) (k : PoolKey) :
    SameOutcome (fun a b => a = fill (D k) b) (poolsGet P k) (poolsGet T k) := by
  unfold poolsGet
  rw [h k]
  cases T.get k with
  | none => exact .error
  | some q => exact .ok rfl

theorem insert_fill (h : PoolsFull D P T) (k : PoolKey) (q : Pool) :
    PoolsFull D (P.insert k (fill (D k) q)) (T.insert k q) := by
  intro j
  by_cases hj : j = k
  · subst hj; rw [Map.get_insert_self, Map.get_insert_self]; rfl
  · rw [Map.get_insert_ne _ _ hj, Map.get_insert_ne _ _ hj]; exact h j

theorem poolsUpdate_fill (h : PoolsFull D P T) (k : PoolKey) (q : Pool) :
    SameOutcome (fun a b => PoolsFull D a b ∧ b = T.insert k q) (poolsUpdate P k (fill (D k) q)) (poolsUpdate T k q) := by
  unfold poolsUpdate
  exact (poolsGet_fill h k).bind fun a b _ => .pure ⟨insert_fill h k q, rfl⟩

theorem calculateSwap_fill (h : PoolsFull D P t.pools) {now : Nat} {key : PoolKey} {xToY byIn : Bool} {amount limit : Nat} :
    Follows (fun a b => a = { b with pool := fill (D key) b.pool }) (fun b => Over (D key) b.pool)
      (calculateSwap { t with pools := P, balances := B } now key xToY amount byIn limit)
      (calculateSwap t now key xToY amount byIn limit) := by
  unfold calculateSwap
  refine after (R := fun a b => a = fill (D key) b) ?_ fun p q hp => ?_
  · unfold swapStart
    refine .same fun _ => (poolsGet_fill h key).bind fun p q hp => ?_
    subst hp
    exact .same fun _ => .same fun _ => .pure rfl
  · subst hp
    refine bind (loop_fill swapFuel
      (st := { pool := q, ticks := [], remaining := amount, totalIn := 0, totalOut := 0, fee := 0 }))
      (fun a b hab => ?_) fun b c hb hc => ?_
    · subst hab
      exact same fun _ => pure rfl
    · simp only [bind_ok_iff, pure_ok_iff] at hc
      obtain ⟨_, _, rfl⟩ := hc
      exact hb

/-! ## Positions -/

theorem updateLiquidity_fill {delta : Nat} {sign : Bool} {up lo : Int} :
    SameOutcome (fun a b => a = (fill d b.1, b.2)) ((fill d p).updateLiquidity delta sign up lo)
      (p.updateLiquidity delta sign up lo) := by
  unfold Pool.updateLiquidity
  refine .same fun r => ?_
  split
  · exact .pure rfl
  · split
    · exact .same fun x => .pure rfl
    · exact .same fun x => .pure rfl

/-- the results differ in the pool -/
abbrev ModFill (d : Nat × Nat) (a b : ModifyResult) : Prop := a = { b with pool := fill d b.pool }

theorem modify_fill {a : Position} {u l : Tick} {delta now spacing : Nat} {add : Bool} :
    SameOutcome (ModFill d) (a.modify (fill d p) u l delta add now spacing) (a.modify p u l delta add now spacing) := by
  unfold Position.modify
  refine .same fun l => .same fun u => .same fun a =>
    (updateLiquidity_fill (d := d) (p := { p with lastTimestamp := now })).bind fun x y hxy => ?_
  subst hxy
  exact .pure rfl

theorem posClaim_fill {a : Position} {u l : Tick} {now : Nat} :
    SameOutcome (ModFill d) (a.claimFee (fill d p) u l now) (a.claimFee p u l now) := by
  unfold Position.claimFee
  refine modify_fill.unwrap.bind fun x y hxy => ?_
  subst hxy
  exact .pure rfl

theorem posCreate_fill {key : PoolKey} {u l : Tick} {now delta a b k spacing : Nat} :
    SameOutcome (ModFill d) (Position.create (fill d p) key l u now delta a b k spacing)
      (Position.create p key l u now delta a b k spacing) := by
  unfold Position.create
  exact .same fun _ => modify_fill.unwrap

theorem posRemove_fill {a : Position} {u l : Tick} {now spacing : Nat} :
    SameOutcome (ModFill d) (a.remove (fill d p) now l u spacing) (a.remove p now l u spacing) := by
  unfold Position.remove
  refine modify_fill.unwrap.bind fun x y hxy => ?_
  subst hxy
  exact .same fun _ => .same fun _ => .pure rfl

/-! ## States -/

/-- balances that agree for all but one account -/
abbrev BalLike (who : ActorId) (B B' : Balances) : Prop :=
  Twin.MapLike (fun z : ActorId × ActorId => z.1 ≠ who) (Prod.map id id) Eq B B'

variable {who : ActorId} {s : Inv}

theorem balLike_iff {B B' : Balances} :
    BalLike who B B' ↔ ∀ a, a ≠ who → ∀ x, B.get (a, x) = B'.get (a, x) := by
  constructor
  · intro h a ha x
    exact (Twin.bal_eq (A := (· ≠ who)) (σ := id) h ha x).symm
  · rintro h ⟨a, x⟩ ha
    show Option.Rel Eq (B.get (a, x)) (B'.get (a, x))
    rw [h a ha x]
    cases B'.get (a, x) with
    | none => exact .none
    | some _ => exact .some rfl

theorem fuller_mk (hP : PoolsFull D P t.pools) (he : ∀ k, t.pools.get k = none → D k = (0, 0))
    (hB : BalLike who B t.balances) : Fuller D who { t with pools := P, balances := B } t :=
  ⟨rfl, hP, he, balLike_iff.1 hB⟩

theorem exist_insert (he : ∀ k, T.get k = none → D k = (0, 0)) {k : PoolKey} {q : Pool} :
    ∀ j, (T.insert k q).get j = none → D j = (0, 0) := by
  intro j hj
  by_cases h : j = k
  · subst h; rw [Map.get_insert_self] at hj; cases hj
  · rw [Map.get_insert_ne _ _ h] at hj; exact he j hj

theorem putTick_fill {k : PoolKey} {u : Tick} {new : Bool} :
    SameOutcome (fun a b => a = { b with pools := P, balances := B } ∧ b.pools = t.pools ∧ b.balances = t.balances)
      (putTick { t with pools := P, balances := B } k u new) (putTick t k u new) := by
  unfold putTick
  split
  · unfold addTick
    exact .same fun _ => .same fun _ => .pure ⟨rfl, rfl, rfl⟩
  · exact .same fun _ => .pure ⟨rfl, rfl, rfl⟩

theorem dropTick_fill {k : PoolKey} {i : Int} {u : Tick} :
    SameOutcome (fun a b => a = { b with pools := P, balances := B } ∧ b.pools = t.pools ∧ b.balances = t.balances)
      (dropTick { t with pools := P, balances := B } k i u) (dropTick t k i u) := by
  unfold dropTick
  split
  · unfold removeTick
    exact .same fun _ => .same fun _ => .same fun _ => .pure ⟨rfl, rfl, rfl⟩
  · exact .same fun _ => .pure ⟨rfl, rfl, rfl⟩

theorem getOrCreateTick_fill (h : PoolsFull D P t.pools) {now : Nat} {k : PoolKey} {i : Int} :
    getOrCreateTick { t with pools := P, balances := B } now k i = getOrCreateTick t now k i := by
  unfold getOrCreateTick
  dsimp only
  cases t.ticks.get (k, i) with
  | some x => rfl
  | none =>
    dsimp only
    unfold createTick poolsGet
    dsimp only
    rw [h k]
    cases t.pools.get k <;> rfl

/-! ## Calls -/

variable {e : Env}

theorem inc (ha : e.caller ≠ who) {B B' : Balances} (h : BalLike who B B') {k : ActorId} {v : Nat} :
    SameOutcome (BalLike who) (increaseTokenBalance B k e.caller v) (increaseTokenBalance B' k e.caller v) :=
  Twin.increase_sim (A := (· ≠ who)) (σ := id) Function.injective_id h ha

theorem dec (ha : e.caller ≠ who) {B B' : Balances} (h : BalLike who B B') {k : ActorId} {v : Option Nat} :
    SameOutcome (fun a b => BalLike who a.1 b.1 ∧ b.2 = a.2) (decreaseTokenBalance B k e.caller v)
      (decreaseTokenBalance B' k e.caller v) :=
  Twin.decrease_sim (A := (· ≠ who)) (σ := id) Function.injective_id h ha

theorem swap_fill (h : Fuller D who s t) (ha : e.caller ≠ who) {key : PoolKey} {xToY byIn : Bool} {amount limit : Nat} :
    Follows (fun a b => Fuller D who a.1 b.1 ∧ a.2 = { b.2 with pool := fill (D key) b.2.pool }) (fun b => Full D b.1)
      (swap e s key xToY amount byIn limit) (swap e t key xToY amount byIn limit) := by
  obtain ⟨hr, hP, he, hB⟩ := h
  rw [hr]
  generalize s.pools = P at *
  generalize s.balances = B at *
  rw [← balLike_iff] at hB
  unfold swap
  refine bind (calculateSwap_fill hP) (fun a b hab => ?_) fun b c hb hc => ?_
  · subst hab
    refine same fun tk => after (poolsUpdate_fill hP key b.pool) fun ps ps' hps => after (dec ha hB) fun b1 b1' h1 =>
      after (inc ha h1.1) fun b2 b2' h2 => pure ⟨?_, rfl⟩
    exact fuller_mk (t := { t with ticks := tk, pools := ps', balances := b2' }) hps.1
      (by dsimp only; rw [hps.2]; exact exist_insert he) h2
  · simp only [bind_ok_iff, pure_ok_iff] at hc
    obtain ⟨_, _, ps, hps, _, _, _, _, rfl⟩ := hc
    unfold poolsUpdate at hps
    simp only [bind_ok_iff, pure_ok_iff] at hps
    obtain ⟨_, _, rfl⟩ := hps
    exact ⟨key, b.pool, Map.get_insert_self .., hb⟩

theorem full_grow {t' : Inv} (hm : PoolsMono t t') (h : Full D t) : Full D t' := by
  obtain ⟨k, p, hk, ho⟩ := h
  obtain ⟨q, hq, hg⟩ := hm k p hk
  exact ⟨k, q, hq, over_grow ho hg⟩

theorem swap_mono {key : PoolKey} {xToY byIn : Bool} {amount limit : Nat} {r : Inv × CalculateSwapResult}
    (h : swap e t key xToY amount byIn limit = .ok r) : PoolsMono t r.1 := by
  obtain ⟨_, _, _, h1, _, _, _, he⟩ := swap_ok h
  obtain ⟨p, hp, _⟩ := calculateSwap_pool h1
  exact poolsMono_insert hp (poolGrows_swap h1 hp) (by rw [he])

theorem routeSwap_mono : ∀ (l : List SwapHop) {t : Inv} {v : Nat} {r : Inv × Nat}, routeSwap e l t v = .ok r →
    PoolsMono t r.1
  | [], t, v, r, h => by
    cases h
    intro k p hk
    exact ⟨p, hk, PoolGrows.refl _⟩
  | x :: l, t, v, r, h => by
    unfold routeSwap at h
    obtain ⟨a, ha, hr⟩ := bind_ok_iff.1 h
    intro k p hk
    obtain ⟨q, hq, h1⟩ := swap_mono ha k p hk
    obtain ⟨w, hw, h2⟩ := routeSwap_mono l hr k q hq
    exact ⟨w, hw, h1.trans h2⟩

theorem routeSwap_fill (ha : e.caller ≠ who) : ∀ (l : List SwapHop) {s t : Inv} {v : Nat}, Fuller D who s t →
    Follows (fun a b => Fuller D who a.1 b.1 ∧ a.2 = b.2) (fun b => Full D b.1) (routeSwap e l s v) (routeSwap e l t v)
  | [], s, t, v, h => .same (.ok ⟨h, rfl⟩)
  | x :: l, s, t, v, h => by
    unfold routeSwap
    refine bind (swap_fill h ha) (fun a b hab => ?_) fun b c hb hc => full_grow (routeSwap_mono l hc) hb
    have e1 : a.2.amountOut = b.2.amountOut := by rw [hab.2]
    rw [e1]
    exact routeSwap_fill ha l hab.1

theorem swapRoute_fill (h : Fuller D who s t) (ha : e.caller ≠ who) {v w x : Nat} {l : List SwapHop} :
    Follows (fun a b => Fuller D who a.1 b.1 ∧ a.2 = b.2) (fun b => Full D b.1) (swapRoute e s v w x l)
      (swapRoute e t v w x l) := by
  unfold swapRoute
  refine bind (routeSwap_fill ha l h) (fun a b hab => ?_) fun b c hb hc => ?_
  · rw [hab.2]
    exact same fun _ => same fun _ => pure hab
  · simp only [bind_ok_iff, pure_ok_iff] at hc
    obtain ⟨_, _, _, _, rfl⟩ := hc
    exact hb

theorem createPosition_fill (h : Fuller D who s t) (ha : e.caller ≠ who) {key : PoolKey} {lo up : Int} {v a b : Nat} :
    SameOutcome (fun x y => Fuller D who x.1 y.1 ∧ x.2 = y.2) (createPosition e s key lo up v a b)
      (createPosition e t key lo up v a b) := by
  obtain ⟨hr, hP, he, hB⟩ := h
  rw [hr]
  generalize s.pools = P at *
  generalize s.balances = B at *
  rw [← balLike_iff] at hB
  unfold createPosition
  rw [getOrCreateTick_fill hP, getOrCreateTick_fill hP]
  refine .same fun _ => .same fun _ => (poolsGet_fill hP key).bind fun p q hp => ?_
  subst hp
  refine .same fun l => .same fun u => posCreate_fill.bind fun r r' hr => ?_
  subst hr
  refine (dec ha hB).bind fun b1 b1' h1 => (dec ha h1.1).bind fun b2 b2' h2 =>
    (poolsUpdate_fill hP key r'.pool).bind fun ps ps' hps => ?_
  refine (putTick_fill (t := { t with balances := b2'.1, pools := ps', positions := t.positions.add e.caller r'.position })
    (P := ps) (B := b2.1)).bind fun s2 t2 h3 => ?_
  obtain ⟨rfl, h3, h4⟩ := h3
  refine putTick_fill.bind fun s3 t3 h5 => ?_
  obtain ⟨rfl, h5, h6⟩ := h5
  dsimp only at h3 h4
  refine .pure ⟨fuller_mk ?_ ?_ ?_, rfl⟩
  · rw [h5, h3]; exact hps.1
  · rw [h5, h3, hps.2]; exact exist_insert he
  · rw [h6, h4]; exact h2.1

theorem removePosition_fill (h : Fuller D who s t) (ha : e.caller ≠ who) {i : Nat} :
    SameOutcome (fun x y => Fuller D who x.1 y.1 ∧ x.2 = y.2) (removePosition e s i) (removePosition e t i) := by
  obtain ⟨hr, hP, he, hB⟩ := h
  rw [hr]
  generalize s.pools = P at *
  generalize s.balances = B at *
  rw [← balLike_iff] at hB
  unfold removePosition
  refine .same fun x => .same fun l => .same fun u => (poolsGet_fill hP _).bind fun p q hp => ?_
  subst hp
  refine posRemove_fill.bind fun r r' hr => ?_
  subst hr
  refine (poolsUpdate_fill hP _ r'.pool).bind fun ps ps' hps => ?_
  refine (dropTick_fill (t := { t with pools := ps' }) (P := ps) (B := B)).bind fun s2 t2 h3 => ?_
  obtain ⟨rfl, h3, h4⟩ := h3
  refine dropTick_fill.bind fun s3 t3 h5 => ?_
  obtain ⟨rfl, h5, h6⟩ := h5
  dsimp only at h3 h4
  rw [← h4, ← h6] at hB
  refine .same fun pos => (inc ha hB).bind fun b1 b1' h1 => (inc ha h1).bind fun b2 b2' h2 => .pure ⟨?_, rfl⟩
  refine fuller_mk (t := { t3 with positions := pos.1, balances := b2' }) ?_ ?_ h2
  · dsimp only; rw [h5, h3]; exact hps.1
  · dsimp only; rw [h5, h3, hps.2]; exact exist_insert he

theorem claimFee_fill (h : Fuller D who s t) (ha : e.caller ≠ who) {i : Nat} :
    SameOutcome (fun x y => Fuller D who x.1 y.1 ∧ x.2 = y.2) (claimFee e s i) (claimFee e t i) := by
  obtain ⟨hr, hP, he, hB⟩ := h
  rw [hr]
  generalize s.pools = P at *
  generalize s.balances = B at *
  rw [← balLike_iff] at hB
  unfold claimFee
  refine .same fun x => .same fun l => .same fun u => (poolsGet_fill hP _).bind fun p q hp => ?_
  subst hp
  refine posClaim_fill.bind fun r r' hr => ?_
  subst hr
  refine .same fun pos => (poolsUpdate_fill hP _ r'.pool).bind fun ps ps' hps => .same fun t1 => .same fun t2 =>
    (inc ha hB).bind fun b1 b1' h1 => (inc ha h1).bind fun b2 b2' h2 => .pure ⟨?_, rfl⟩
  exact fuller_mk (t := { t with positions := pos, pools := ps', ticks := t2, balances := b2' }) hps.1
    (by dsimp only; rw [hps.2]; exact exist_insert he) h2

theorem withdrawProtocolFee_fill (h : Fuller D who s t) (ha : e.caller ≠ who) {key : PoolKey} (hk : D key = (0, 0)) :
    SameOutcome (fun x y => Fuller D who x.1 y.1 ∧ x.2 = y.2) (withdrawProtocolFee e s key) (withdrawProtocolFee e t key) := by
  obtain ⟨hr, hP, he, hB⟩ := h
  rw [hr]
  generalize s.pools = P at *
  generalize s.balances = B at *
  rw [← balLike_iff] at hB
  unfold withdrawProtocolFee
  refine (poolsGet_fill hP _).bind fun p q hp => ?_
  rw [hk, fill_zero] at hp
  subst hp
  have := poolsUpdate_fill hP key p.withdrawProtocolFee.1
  rw [hk, fill_zero] at this
  refine .same fun _ => this.bind fun ps ps' hps => (inc ha hB).bind fun b1 b1' h1 =>
    (inc ha h1).bind fun b2 b2' h2 => .pure ⟨?_, rfl⟩
  exact fuller_mk (t := { t with pools := ps', balances := b2' }) hps.1
    (by dsimp only; rw [hps.2]; exact exist_insert he) h2

theorem withdrawVara_fill (h : Fuller D who s t) (ha : e.caller ≠ who) {v : Option Nat} :
    SameOutcome (fun x y => Fuller D who x.1 y.1 ∧ x.2 = y.2) (withdrawVara e s v) (withdrawVara e t v) := by
  obtain ⟨hr, hP, he, hB⟩ := h
  rw [hr]
  generalize s.pools = P at *
  generalize s.balances = B at *
  rw [← balLike_iff] at hB
  unfold withdrawVara
  refine SameOutcome.bind (R := fun a b => BalLike who a.1 b.1 ∧ b.2 = a.2) ?_ fun a b hab => ?_
  · cases v with
    | some v => exact .same fun _ => dec ha hB
    | none =>
      have := dec ha hB (k := VARA) (v := none)
      revert this
      dsimp only
      generalize decreaseTokenBalance B VARA e.caller none = x
      generalize decreaseTokenBalance t.balances VARA e.caller none = y
      intro this
      cases this with
      | ok h => exact .ok h
      | error => exact .ok ⟨hB, rfl⟩
  · rw [hab.2]
    exact .same fun _ => .pure ⟨fuller_mk (t := { t with balances := b.1 }) hP he hab.1, rfl⟩

theorem createPool_fill (h : Fuller D who s t) {x y : ActorId} {tier : FeeTier} {v : Nat} {i : Int} :
    SameOutcome (Fuller D who) (createPool e s x y tier v i) (createPool e t x y tier v i) := by
  obtain ⟨hr, hP, he, hB⟩ := h
  rw [hr]
  generalize s.pools = P at *
  generalize s.balances = B at *
  unfold createPool
  refine .same fun _ => .same fun _ => .same fun key => .guard ?_ fun hn => .same fun p => ?_
  · dsimp only
    rw [hP key, Option.isSome_map]
  have hn : t.pools.get key = none := by
    dsimp only at hn
    rw [hP key, Option.isSome_map] at hn
    cases hg : t.pools.get key with
    | none => rfl
    | some _ => rw [hg] at hn; exact absurd rfl hn
  have hs : P.get key = none := by rw [hP key, hn]; rfl
  refine SameOutcome.bind (R := fun a b => PoolsFull D a b ∧ b = t.pools.insert key p) ?_ fun a b hab => .same fun pk =>
    .pure ⟨rfl, hab.1, by dsimp only; rw [hab.2]; exact exist_insert he, hB⟩
  unfold poolsAdd
  dsimp only
  rw [hs, hn]
  refine .ok ⟨?_, rfl⟩
  have := insert_fill hP key p
  rwa [he key hn, fill_zero] at this

theorem step_fill (h : Fuller D who s t) (ha : e.caller ≠ who) (c : Call)
    (hc : ∀ k, c = .withdrawProtocolFee k → D k = (0, 0)) :
    Follows (Fuller D who) (Full D) (step e s c) (step e t c) := by
  have hadm : s.admin = t.admin := by rw [h.rest]
  have hft : s.feeTiers = t.feeTiers := by rw [h.rest]
  have hpos : s.positions = t.positions := by rw [h.rest]
  cases c with
  | changeProtocolFee f =>
    refine .same (SameOutcome.bind (R := fun a b => Fuller D who a.1 b.1) ?_ fun a b hab => .pure hab)
    unfold changeProtocolFee
    rw [hadm]
    exact .same fun _ => .pure ⟨by rw [h.rest], h.pools, h.exist, h.balances⟩
  | addFeeTier f =>
    refine .same (SameOutcome.bind (R := fun a b => Fuller D who a.1 b.1) ?_ fun a b hab => .pure hab)
    unfold addFeeTier
    rw [hadm, hft]
    exact .same fun _ => .same fun _ => .same fun _ => .same fun _ => .pure ⟨by rw [h.rest], h.pools, h.exist, h.balances⟩
  | removeFeeTier f =>
    refine .same (SameOutcome.bind (R := fun a b => Fuller D who a.1 b.1) ?_ fun a b hab => .pure hab)
    unfold removeFeeTier
    rw [hadm, hft]
    exact .same fun _ => .same fun _ => .pure ⟨by rw [h.rest], h.pools, h.exist, h.balances⟩
  | createPool x y f v i => exact .same (createPool_fill h)
  | changeFeeReceiver k r =>
    refine .same ?_
    show SameOutcome _ (changeFeeReceiver e s k r) (changeFeeReceiver e t k r)
    unfold changeFeeReceiver
    rw [hadm]
    refine .same fun _ => (poolsGet_fill h.pools k).bind fun p q hp => ?_
    subst hp
    refine (poolsUpdate_fill h.pools k { q with feeReceiver := r }).bind fun ps ps' hps => .pure ?_
    exact ⟨by rw [h.rest], hps.1, by dsimp only; rw [hps.2]; exact exist_insert h.exist, h.balances⟩
  | createPosition k l u v a b => exact .same ((createPosition_fill h ha).bind fun a b hab => .pure hab.1)
  | removePosition i => exact .same ((removePosition_fill h ha).bind fun a b hab => .pure hab.1)
  | transferPosition i r =>
    refine .same ?_
    show SameOutcome _ (transferPosition e s i r) (transferPosition e t i r)
    unfold transferPosition
    rw [hpos]
    exact .same fun _ => .pure ⟨by rw [h.rest], h.pools, h.exist, h.balances⟩
  | swap k x a b l =>
    exact bind (swap_fill h ha) (fun a b hab => pure hab.1) fun b c hb hc => by cases pure_ok_iff.1 hc; exact hb
  | swapRoute a x sl l =>
    exact bind (swapRoute_fill h ha) (fun a b hab => pure hab.1) fun b c hb hc => by cases pure_ok_iff.1 hc; exact hb
  | claimFee i => exact .same ((claimFee_fill h ha).bind fun a b hab => .pure hab.1)
  | withdrawProtocolFee k => exact .same ((withdrawProtocolFee_fill h ha (hc k rfl)).bind fun a b hab => .pure hab.1)
  | depositVara =>
    refine .same (SameOutcome.bind (R := fun a b => Fuller D who a.1 b.1) ?_ fun a b hab => .pure hab)
    unfold depositVara
    exact (inc ha (balLike_iff.2 h.balances)).bind fun a b hab =>
      .pure ⟨by rw [h.rest], h.pools, h.exist, balLike_iff.1 hab⟩
  | withdrawVara v => exact .same ((withdrawVara_fill h ha).bind fun a b hab => .pure hab.1)

end Till

end Verif
