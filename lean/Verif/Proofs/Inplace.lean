import Verif.Model.Inplace

/-! # Writing in place and returning a new state agree -/

namespace Verif
open Service

namespace W
variable {α β : Type}

/-- what a computation does when its writes are discarded on failure -/
def toM (w : W α) (s : Inv) : M (α × Inv) :=
  match w s with
  | (.ok a, s') => .ok (a, s')
  | (.error e, _) => .error e

@[simp] theorem toM_pure (a : α) (s : Inv) : toM (pure a) s = .ok (a, s) := rfl

@[simp] theorem toM_bind (w : W α) (f : α → W β) (s : Inv) :
    toM (w >>= f) s = toM w s >>= fun p => toM (f p.1) p.2 := by
  show toM (W.bind w f) s = _
  unfold toM W.bind
  cases h : w s with
  | mk r s' =>
    cases r with
    | ok a => simp only [ok_bind]
    | error e => simp only [error_bind]

@[simp] theorem toM_lift (m : M α) (s : Inv) : toM (lift m) s = m >>= fun a => .ok (a, s) := by
  unfold toM lift
  cases m <;> rfl

@[simp] theorem toM_read (s : Inv) : toM read s = .ok (s, s) := rfl

@[simp] theorem toM_write (f : Inv → Inv) (s : Inv) : toM (write f) s = .ok ((), f s) := rfl

end W

@[simp] theorem M_bind_assoc {α β γ : Type} (x : M α) (f : α → M β) (g : β → M γ) :
    (x >>= f) >>= g = x >>= fun a => f a >>= g := by cases x <;> rfl

theorem M_map_eq {α β : Type} (f : α → β) (x : M α) : f <$> x = x >>= fun a => .ok (f a) := by
  cases x <;> rfl

theorem M_pure_eq {α : Type} (a : α) : (pure a : M α) = .ok a := rfl

theorem Map.insert_insert {K V : Type} [DecidableEq K] (m : Map K V) (k : K) (v w : V) :
    (m.insert k v).insert k w = m.insert k w := by
  unfold Map.insert
  congr 1
  simp [Map.rm]

open W Inplace

theorem toM_increase (t c : ActorId) (a : Nat) (s : Inv) :
    toM (increase t c a) s =
      increaseTokenBalance s.balances t c a >>= fun b => .ok ((), { s with balances := b }) := by
  unfold increase increaseTokenBalance
  split
  · simp
  · simp [M_pure_eq, Map.insert_insert]

theorem toM_decrease (t c : ActorId) (a : Option Nat) (s : Inv) :
    toM (decrease t c a) s =
      decreaseTokenBalance s.balances t c a >>= fun b => .ok (b.2, { s with balances := b.1 }) := by
  unfold decrease decreaseTokenBalance
  split
  · simp
  · simp only [toM_bind, toM_read, toM_lift, M_bind_assoc, ok_bind]
    cases okOr (.inv .NoBalanceForTheToken) (s.balances.get (c, t)) with
    | error e => rfl
    | ok v =>
      simp only [ok_bind]
      split <;> simp [M_pure_eq]
  · simp [M_pure_eq]

theorem toM_poolUpdate (k : PoolKey) (p : Pool) (s : Inv) :
    toM (poolUpdate k p) s = poolsUpdate s.pools k p >>= fun m => .ok ((), { s with pools := m }) := by
  simp [poolUpdate, poolsUpdate, M_pure_eq]

theorem toM_tickUpdate (k : PoolKey) (i : Int) (t : Tick) (s : Inv) :
    toM (Inplace.tickUpdate k i t) s =
      ticksUpdate s.ticks k i t >>= fun m => .ok ((), { s with ticks := m }) := by
  simp [Inplace.tickUpdate, ticksUpdate, M_pure_eq]

theorem toM_flip (v : Bool) (i : Int) (k : PoolKey) (s : Inv) :
    toM (Inplace.flip v i k) s = tickmapFlip s.tickmap v i k.feeTier.tickSpacing k >>= fun m =>
      .ok ((), { s with tickmap := m }) := by
  simp [Inplace.flip]

theorem toM_addTick (k : PoolKey) (t : Tick) (s : Inv) :
    toM (Inplace.addTick k t) s = Verif.addTick s k t >>= fun s' => .ok ((), s') := by
  simp [Inplace.addTick, Verif.addTick, toM_flip, M_pure_eq]

theorem toM_removeTick (k : PoolKey) (t : Tick) (s : Inv) :
    toM (Inplace.removeTick k t) s = Verif.removeTick s k t >>= fun s' => .ok ((), s') := by
  simp [Inplace.removeTick, Verif.removeTick, toM_flip, M_pure_eq]

theorem toM_posAdd (a : ActorId) (p : Position) (s : Inv) :
    toM (posAdd a p) s = .ok ((), { s with positions := s.positions.add a p }) := by
  simp [posAdd, Positions.add]

theorem toM_posUpdate (a : ActorId) (i : Nat) (p : Position) (s : Inv) :
    toM (posUpdate a i p) s =
      s.positions.update a i p >>= fun m => .ok ((), { s with positions := m }) := by
  unfold posUpdate Positions.update failIf
  split <;> simp_all

theorem toM_posRemoveAt (a : ActorId) (i n1 : Nat) (s : Inv) :
    toM (posRemoveAt a i n1) s =
      s.positions.removeAt a i n1 >>= fun m => .ok ((), { s with positions := m }) := by
  unfold posRemoveAt Positions.removeAt
  simp only [toM_bind, toM_read, M_bind_assoc, ok_bind]
  split <;> simp [M_pure_eq]

/-- with an arbitrary function in place of `u32Pred`, which must not be unfolded -/
theorem toM_posRemove_aux (f : Nat → Nat) (a : ActorId) (i : Nat) (s : Inv) :
    toM (do
      let s ← read
      let p ← lift (s.positions.get a i)
      posRemoveAt a i (f (s.positions.getLength a))
      pure p) s =
    (do
      let p ← s.positions.get a i
      let ps' ← s.positions.removeAt a i (f (s.positions.getLength a))
      pure (ps', p)) >>= fun m => .ok (m.2, { s with positions := m.1 }) := by
  simp only [toM_bind, toM_read, toM_lift, toM_pure, M_bind_assoc, ok_bind, toM_posRemoveAt, M_pure_eq]

theorem toM_posRemove (a : ActorId) (i : Nat) (s : Inv) :
    toM (posRemove a i) s =
      s.positions.remove a i >>= fun m => .ok (m.2, { s with positions := m.1 }) :=
  toM_posRemove_aux u32Pred a i s

theorem toM_putTick (k : PoolKey) (t : Tick) (n : Bool) (s : Inv) :
    toM (Inplace.putTick k t n) s = Service.putTick s k t n >>= fun s' => .ok ((), s') := by
  unfold Inplace.putTick Service.putTick
  split <;> simp [toM_addTick, toM_tickUpdate, M_pure_eq]

theorem toM_dropTick (k : PoolKey) (i : Int) (t : Tick) (s : Inv) :
    toM (Inplace.dropTick k i t) s = Service.dropTick s k i t >>= fun s' => .ok ((), s') := by
  unfold Inplace.dropTick Service.dropTick
  split <;> simp [toM_removeTick, toM_tickUpdate, M_pure_eq]

theorem toM_updateTicks (k : PoolKey) : ∀ (l : List Tick) (s : Inv),
    toM (Inplace.updateTicks k l) s =
      Service.updateTicks k l s.ticks >>= fun m => .ok ((), { s with ticks := m }) := by
  intro l
  induction l with
  | nil => intro s; rfl
  | cons t l ih =>
    intro s
    simp [Inplace.updateTicks, Service.updateTicks, toM_tickUpdate, ih]

theorem toM_swap (env : Env) (k : PoolKey) (d : Bool) (a : Nat) (b : Bool) (l : Nat) (s : Inv) :
    toM (Inplace.swap env k d a b l) s =
      Service.swap env s k d a b l >>= fun r => .ok (r.2, r.1) := by
  simp [Inplace.swap, Service.swap, toM_updateTicks, toM_poolUpdate, toM_decrease, toM_increase,
    M_pure_eq]

theorem toM_routeSwap (env : Env) : ∀ (h : List SwapHop) (a : Nat) (s : Inv),
    toM (Inplace.routeSwap env h a) s =
      Service.routeSwap env h s a >>= fun r => .ok (r.2, r.1) := by
  intro h
  induction h with
  | nil => intro a s; rfl
  | cons h t ih =>
    intro a s
    simp [Inplace.routeSwap, Service.routeSwap, toM_swap, ih]

/-- the two versions of every command agree -/
theorem toM_exec (env : Env) (c : Call) (s : Inv) :
    toM (exec env c) s = step env s c >>= fun s' => .ok ((), s') := by
  cases c with
  | changeProtocolFee f => simp [exec, step, Inplace.changeProtocolFee, Service.changeProtocolFee, M_pure_eq]
  | addFeeTier t => simp [exec, step, Inplace.addFeeTier, Service.addFeeTier, M_pure_eq]
  | removeFeeTier t => simp [exec, step, Inplace.removeFeeTier, Service.removeFeeTier, M_pure_eq]
  | createPool x y t p i => simp [exec, step, Inplace.createPool, Service.createPool, M_pure_eq]
  | changeFeeReceiver k r =>
    simp [exec, step, Inplace.changeFeeReceiver, Service.changeFeeReceiver, toM_poolUpdate, M_pure_eq]
  | createPosition k l u d a b =>
    simp [exec, step, Inplace.createPosition, Service.createPosition, toM_poolUpdate, toM_decrease,
      toM_posAdd, toM_putTick, M_pure_eq]
  | removePosition i =>
    simp [exec, step, Inplace.removePosition, Service.removePosition, toM_poolUpdate, toM_increase,
      toM_posRemove, toM_dropTick, M_pure_eq]
  | transferPosition i r =>
    simp [exec, step, Inplace.transferPosition, Service.transferPosition, toM_posRemove, toM_posAdd,
      Positions.transfer, M_pure_eq]
  | swap k d a b l => simp [exec, step, toM_swap, M_pure_eq]
  | swapRoute a e sl h =>
    simp [exec, step, Inplace.swapRoute, Service.swapRoute, toM_routeSwap, M_pure_eq]
  | claimFee i =>
    simp [exec, step, Inplace.claimFee, Service.claimFee, toM_poolUpdate, toM_increase,
      toM_posUpdate, toM_tickUpdate, M_pure_eq]
  | withdrawProtocolFee k =>
    simp [exec, step, Inplace.withdrawProtocolFee, Service.withdrawProtocolFee, toM_poolUpdate,
      toM_increase, M_pure_eq]
  | depositVara =>
    simp [exec, step, Inplace.depositVara, Service.depositVara, toM_increase, M_pure_eq]
  | withdrawVara v =>
    cases v with
    | some v =>
      simp [exec, step, Inplace.withdrawVara, Service.withdrawVara, toM_decrease, M_pure_eq]
    | none =>
      have e : toM (Inplace.orElse (decrease VARA env.caller none) 0) s =
          (match decreaseTokenBalance s.balances VARA env.caller none with
            | .ok r => (.ok r : M (Balances × Nat))
            | .error _ => .ok (s.balances, 0)) >>= fun b =>
          .ok (b.2, { s with balances := b.1 }) := by
        unfold Inplace.orElse decrease decreaseTokenBalance toM
        cases h : s.balances.get (env.caller, VARA) with
        | none => simp [bind, W.bind, W.read, W.lift, okOr, Except.bind, h]
        | some v =>
          simp [bind, pure, Except.pure, W.bind, W.pure, W.read, W.lift, W.write, okOr, Except.bind, h]
      simp [exec, step, Inplace.withdrawVara, Service.withdrawVara, M_pure_eq, e]
      cases decreaseTokenBalance s.balances VARA env.caller none <;> rfl

end Verif
