import Verif.Proofs.Till
import Verif.Proofs.Exit
import Verif.Spec.Demo

/-!
# Property C121: it does not matter when the protocol's fees are collected

The protocol's part of every fee is kept in the pool, until the receiver of fees collects it. Nobody else notices whether
it has been collected: no other message reads these two amounts, except to add to them, which can only fail if they
outgrow 256 bits. Collecting now and later pays exactly what collecting once later pays.
-/

namespace Verif
open Service Spec

variable {e e' : Env} {s t : Inv} {k : PoolKey} {x y : Nat} {who : ActorId} {D : PoolKey → Nat × Nat}

/-- C121, a message: on states that differ in the protocol fees to be collected (and the balances of `who`), a message of
anybody else has the same outcome, failures included, and leaves such states. The only exception is a panic where more is
to be collected, and then the pool has no room for it. -/
theorem C121_message (h : Fuller D who s t) (hw : e.caller ≠ who) (c : Call)
    (hc : ∀ k, c = .withdrawProtocolFee k → D k = (0, 0)) : Follows (Fuller D who) (Full D) (step e s c) (step e t c) :=
  Till.step_fill h hw c hc

/-- C121, the replies: the same amounts, prices and positions. -/
theorem C121_replies (h : Fuller D who s t) (hw : e.caller ≠ who) :
    (∀ k d v b l, Follows (fun x y => SameTrade x.2 y.2) (fun y => Full D y.1) (swap e s k d v b l) (swap e t k d v b l)) ∧
    (∀ v w x l, Follows (fun x y => x.2 = y.2) (fun y => Full D y.1) (swapRoute e s v w x l) (swapRoute e t v w x l)) ∧
    (∀ k l u d a b, SameOutcome (fun x y => x.2 = y.2) (createPosition e s k l u d a b) (createPosition e t k l u d a b)) ∧
    (∀ i, SameOutcome (fun x y => x.2 = y.2) (removePosition e s i) (removePosition e t i)) ∧
    (∀ i, SameOutcome (fun x y => x.2 = y.2) (claimFee e s i) (claimFee e t i)) ∧
    (∀ k, D k = (0, 0) → SameOutcome (fun x y => x.2 = y.2) (withdrawProtocolFee e s k) (withdrawProtocolFee e t k)) := by
  refine ⟨fun k d v b l => Till.mono (Till.swap_fill h hw) (fun x y hxy => ?_) fun _ _ h => h,
    fun v w x l => Till.mono (Till.swapRoute_fill h hw) (fun x y hxy => hxy.2) fun _ _ h => h,
    fun k l u d a b => (Till.createPosition_fill h hw).mono fun x y hxy => hxy.2,
    fun i => (Till.removePosition_fill h hw).mono fun x y hxy => hxy.2,
    fun i => (Till.claimFee_fill h hw).mono fun x y hxy => hxy.2,
    fun k hk => (Till.withdrawProtocolFee_fill h hw hk).mono fun x y hxy => hxy.2⟩
  rw [hxy.2]
  exact ⟨rfl, rfl, rfl, rfl, rfl⟩

/-- C121, collecting: the state before has more to be collected, by the amounts paid; nothing else differs but the balances
of the receiver. -/
theorem C121_collect (h : withdrawProtocolFee e s k = .ok (t, x, y)) : Fuller (onlyAt k (x, y)) e.caller s t := by
  obtain ⟨p, b1, b2, hp, hr, h1, h2, he⟩ := withdrawProtocolFee_ok h
  simp only [Prod.mk.injEq] at he
  obtain ⟨rfl, rfl, rfl⟩ := he
  refine ⟨rfl, fun j => ?_, fun j hj => ?_, fun a ha z => ?_⟩
  · dsimp only
    by_cases hj : j = k
    · subst hj
      rw [Map.get_insert_self, hp]
      unfold fill onlyAt
      simp
    · rw [Map.get_insert_ne _ _ hj]
      unfold onlyAt
      rw [if_neg hj]
      cases s.pools.get j <;> rfl
  · unfold onlyAt
    rw [if_neg]
    rintro rfl
    rw [Map.get_insert_self] at hj
    cases hj
  · dsimp only
    rw [increase_other h2 (by intro h; cases h; exact ha rfl), increase_other h1 (by intro h; cases h; exact ha rfl)]

private theorem run_full (h : Full D t) {c : Call} (hc : ∀ k, c = .withdrawProtocolFee k → D k = (0, 0)) :
    Full D (run e t c) := by
  unfold run
  cases hs : step e t c with
  | error _ => exact h
  | ok t' =>
    dsimp only
    by_cases h1 : ∃ k r, c = .changeFeeReceiver k r
    · obtain ⟨k, r, rfl⟩ := h1
      have hs' : changeFeeReceiver e t k r = .ok t' := hs
      simp only [changeFeeReceiver, bind_ok_iff, failIf_ok_iff, poolsGet_ok, poolsUpdate_ok, pure_ok_iff] at hs'
      obtain ⟨_, _, p, hp, _, ⟨_, rfl⟩, rfl⟩ := hs'
      obtain ⟨j, q, hq, ho⟩ := h
      by_cases hj : j = k
      · subst hj
        rw [hp] at hq
        cases hq
        exact ⟨j, _, Map.get_insert_self .., ho⟩
      · exact ⟨j, q, by dsimp only; rw [Map.get_insert_ne _ _ hj, hq], ho⟩
    by_cases h2 : ∃ k, c = .withdrawProtocolFee k
    · obtain ⟨k, rfl⟩ := h2
      have hs' := hs
      simp only [step, bind_ok_iff, pure_ok_iff] at hs'
      obtain ⟨r, hs', rfl⟩ := hs'
      obtain ⟨p, _, _, _, _, _, _, rfl⟩ := withdrawProtocolFee_ok hs'
      obtain ⟨j, q, hq, ho⟩ := h
      refine ⟨j, q, ?_, ho⟩
      dsimp only
      rw [Map.get_insert_ne, hq]
      rintro rfl
      exact ho.1 (hc j rfl)
    · push Not at h1 h2
      exact Till.full_grow (step_poolsMono h1 h2 hs) h

private theorem runAll_full : ∀ {l : List (Env × Call)} {t : Inv},
    (∀ m ∈ l, ∀ k, m.2 = .withdrawProtocolFee k → D k = (0, 0)) → Full D t → Full D (runAll t l)
  | [], _, _, h => h
  | m :: l, _, hl, h => runAll_full (l := l) (fun x hx => hl x (List.mem_cons_of_mem _ hx))
      (run_full (e := m.1) (c := m.2) h (hl m List.mem_cons_self))

private theorem history : ∀ {l : List (Env × Call)} {s t : Inv}, Fuller D who s t →
    (∀ m ∈ l, m.1.caller ≠ who ∧ ∀ k, m.2 = .withdrawProtocolFee k → D k = (0, 0)) → ¬ Full D (runAll t l) →
      Fuller D who (runAll s l) (runAll t l)
  | [], _, _, h, _, _ => h
  | m :: l, s, t, h, hl, hn => by
    have h0 := hl m List.mem_cons_self
    have hl' : ∀ m ∈ l, m.1.caller ≠ who ∧ ∀ k, m.2 = .withdrawProtocolFee k → D k = (0, 0) :=
      fun x hx => hl x (List.mem_cons_of_mem _ hx)
    refine history (l := l) (s := run m.1 s m.2) (t := run m.1 t m.2) ?_ hl' hn
    have hn' : ¬ Full D (run m.1 t m.2) := fun hf => hn (runAll_full (l := l) (fun x hx => (hl' x hx).2) hf)
    have hs := C121_message h h0.1 m.2 h0.2
    unfold run at hn' ⊢
    revert hs hn'
    generalize step m.1 s m.2 = a
    generalize step m.1 t m.2 = b
    intro hn' hs
    cases hs with
    | same hs =>
      cases hs with
      | ok hs => exact hs
      | error => exact h
    | full hf =>
      cases b with
      | error _ => exact h
      | ok b => exact absurd (hf b rfl) hn'

/-- C121, any history: whatever the others do after the receiver has collected, the states are the same as if the receiver
had not, but for what is to be collected from the pool and the balances of the receiver. -/
theorem C121_history {l : List (Env × Call)} (h : withdrawProtocolFee e s k = .ok (t, x, y))
    (ho : ∀ m ∈ l, m.1.caller ≠ e.caller ∧ m.2 ≠ .withdrawProtocolFee k) (hn : ¬ Full (onlyAt k (x, y)) (runAll t l)) :
    Fuller (onlyAt k (x, y)) e.caller (runAll s l) (runAll t l) := by
  refine history (C121_collect h) (fun m hm => ⟨(ho m hm).1, fun j hj => ?_⟩) hn
  unfold onlyAt
  rw [if_neg]
  rintro rfl
  exact (ho m hm).2 hj

/-! ### the amounts -/

private theorem bal_balOf (b : Balances) (w t : ActorId) : bal b w t = balOf b w t := by
  unfold bal balOf
  cases b.get (w, t) <;> rfl

private theorem bal_small {b : Balances} (h : BalWF b) (w z : ActorId) : bal b w z < 2 ^ 256 := by
  unfold bal
  cases hg : b.get (w, z) with
  | none => exact Nat.two_pow_pos _
  | some v => exact (h _ _ hg).2

private theorem pay_iff {b : Balances} (hb : BalWF b) {r : ActorId} :
    (∃ c, (increaseTokenBalance b k.tokenX r x >>= fun b1 => increaseTokenBalance b1 k.tokenY r y) = .ok c) ↔
      ∀ z, bal b r z + paid k x y z < 2 ^ 256 := by
  constructor
  · rintro ⟨c, hc⟩ z
    obtain ⟨b1, h1, h2⟩ := bind_ok_iff.1 hc
    have := bal_small (balWF_inc (balWF_inc hb h1) h2) r z
    rw [bal_balOf, increase_bal h2, increase_bal h1] at this
    rw [bal_balOf]
    unfold paid
    simp only [true_and] at this
    omega
  · intro h
    have hx := h k.tokenX
    have hy := h k.tokenY
    rw [bal_balOf] at hx hy
    unfold paid at hx hy
    rw [if_pos rfl] at hx
    obtain ⟨b1, h1⟩ := increase_succeeds (b := b) (t := k.tokenX) (who := r) (n := x) (by omega)
    have e1 := increase_bal h1 r k.tokenY
    rw [if_pos (rfl : k.tokenY = k.tokenY) (t := y)] at hy
    obtain ⟨b2, h2⟩ := increase_succeeds (b := b1) (t := k.tokenY) (who := r) (n := y) (by
      rw [e1]
      simp only [true_and]
      omega)
    exact ⟨b2, bind_ok_iff.2 ⟨b1, h1, h2⟩⟩

private theorem pay_bal {b c : Balances} {r : ActorId}
    (h : (increaseTokenBalance b k.tokenX r x >>= fun b1 => increaseTokenBalance b1 k.tokenY r y) = .ok c) (w z : ActorId) :
    bal c w z = bal b w z + if w = r then paid k x y z else 0 := by
  obtain ⟨b1, h1, h2⟩ := bind_ok_iff.1 h
  rw [bal_balOf, bal_balOf, increase_bal h2, increase_bal h1]
  unfold paid
  by_cases hw : w = r <;> by_cases hx : z = k.tokenX <;> by_cases hy : z = k.tokenY <;> simp [hw, hx, hy] <;> omega

private theorem inc_error {b : Balances} {r z : ActorId} {n : Nat} {v : Err}
    (h : increaseTokenBalance b z r n = .error v) : v = .inv .FailedToChangeTokenBalance := by
  unfold increaseTokenBalance addC fit at h
  split at h
  · cases h
  · split at h
    · cases h
    · cases h; rfl

private theorem pay_error {b : Balances} {r : ActorId} {v : Err}
    (h : (increaseTokenBalance b k.tokenX r x >>= fun b1 => increaseTokenBalance b1 k.tokenY r y) = .error v) :
    v = .inv .FailedToChangeTokenBalance := by
  cases h1 : increaseTokenBalance b k.tokenX r x with
  | error w => rw [h1] at h; cases h; exact inc_error h1
  | ok b1 => rw [h1] at h; exact inc_error h

private theorem pay_same {b b' : Balances} {r : ActorId} {u v : Nat} (hb : BalWF b) (hb' : BalWF b')
    (h : ∀ w z, bal b' w z = bal b w z + if w = r then paid k x y z else 0) :
    SameOutcome (fun c c' => ∀ w z, bal c w z = bal c' w z)
      (increaseTokenBalance b k.tokenX r (u + x) >>= fun b1 => increaseTokenBalance b1 k.tokenY r (v + y))
      (increaseTokenBalance b' k.tokenX r u >>= fun b1 => increaseTokenBalance b1 k.tokenY r v) := by
  have hp : ∀ z, paid k (u + x) (v + y) z = paid k x y z + paid k u v z := by
    intro z
    unfold paid
    split <;> split <;> omega
  have i1 := pay_iff (k := k) (x := u + x) (y := v + y) hb (r := r)
  have i2 := pay_iff (k := k) (x := u) (y := v) hb' (r := r)
  have hi : (∀ z, bal b r z + paid k (u + x) (v + y) z < 2 ^ 256) ↔ ∀ z, bal b' r z + paid k u v z < 2 ^ 256 := by
    refine forall_congr' fun z => ?_
    rw [h r z, if_pos rfl, hp, Nat.add_assoc]
  rw [hi, ← i2] at i1
  cases h1 : (increaseTokenBalance b k.tokenX r (u + x) >>= fun b1 => increaseTokenBalance b1 k.tokenY r (v + y)) with
  | ok c =>
    obtain ⟨c', h2⟩ := i1.1 ⟨c, h1⟩
    rw [h2]
    refine .ok fun w z => ?_
    rw [pay_bal h1, pay_bal h2, h w z, hp]
    split <;> omega
  | error a =>
    cases h2 : (increaseTokenBalance b' k.tokenX r u >>= fun b1 => increaseTokenBalance b1 k.tokenY r v) with
    | ok c' =>
      obtain ⟨c, hc⟩ := i1.2 ⟨c', h2⟩
      rw [h1] at hc
      cases hc
    | error a' =>
      cases pay_error h1
      cases pay_error h2
      exact .error

private theorem reach_runAll : ∀ (l : List (Env × Call)) {s : Inv}, Reach s → Reach (runAll s l)
  | [], _, h => h
  | m :: l, s, h => by
    refine reach_runAll l (s := run m.1 s m.2) ?_
    unfold run
    cases hs : step m.1 s m.2 with
    | error _ => exact h
    | ok s' => exact .call h hs

private theorem others_bal : ∀ {l : List (Env × Call)} {s : Inv}, (∀ m ∈ l, m.1.caller ≠ who) → ∀ z,
    bal (runAll s l).balances who z = bal s.balances who z
  | [], _, _, _ => rfl
  | m :: l, s, hl, z => by
    refine (others_bal (l := l) (s := run m.1 s m.2) (fun x hx => hl x (List.mem_cons_of_mem _ hx)) z).trans ?_
    unfold run
    cases h : step m.1 s m.2 with
    | error _ => rfl
    | ok s' => exact C26_balances h who z (hl m List.mem_cons_self).symm

/-- C121, the amounts: the receiver who collects now and again later gets, in all, exactly what collecting once later pays,
and ends with the same state. One succeeds exactly when the other does. -/
theorem C121_total {l : List (Env × Call)} (hr : Reach s) (h : withdrawProtocolFee e s k = .ok (t, x, y))
    (ho : ∀ m ∈ l, m.1.caller ≠ e.caller ∧ m.2 ≠ .withdrawProtocolFee k) (hn : ¬ Full (onlyAt k (x, y)) (runAll t l))
    (he : e'.caller = e.caller) :
    SameOutcome (fun a b => a.2.1 = b.2.1 + x ∧ a.2.2 = b.2.2 + y ∧ SameBooks a.1 b.1)
      (withdrawProtocolFee e' (runAll s l) k) (withdrawProtocolFee e' (runAll t l) k) := by
  have hf := C121_history h ho hn
  have ht : Reach t := Reach.call hr (env := e) (c := .withdrawProtocolFee k) (by
    show (withdrawProtocolFee e s k >>= fun r => Pure.pure r.1) = _
    rw [h]; rfl)
  have w1 := reach_balWF (reach_runAll l hr)
  have w2 := reach_balWF (reach_runAll l ht)
  have hb : ∀ w z, bal (runAll t l).balances w z =
      bal (runAll s l).balances w z + if w = e.caller then paid k x y z else 0 := by
    intro w z
    by_cases hw : w = e.caller
    · subst hw
      rw [others_bal (fun m hm => (ho m hm).1), others_bal (fun m hm => (ho m hm).1)]
      obtain ⟨p, b1, b2, hp, _, h1, h2, he⟩ := withdrawProtocolFee_ok h
      simp only [Prod.mk.injEq] at he
      obtain ⟨rfl, rfl, rfl⟩ := he
      exact pay_bal (bind_ok_iff.2 ⟨b1, h1, h2⟩) _ _
    · rw [if_neg hw]
      unfold bal
      rw [hf.balances w hw z]
      rfl
  revert hf w1 w2 hb
  generalize runAll s l = s₁
  generalize runAll t l = t₁
  intro hf w1 w2 hb
  unfold withdrawProtocolFee
  rw [he]
  refine (Till.poolsGet_fill hf.pools k).bind fun p q hp => ?_
  have hd : onlyAt k (x, y) k = (x, y) := if_pos rfl
  rw [hd] at hp
  subst hp
  refine .same fun _ => ?_
  refine SameOutcome.bind (R := fun a b => ∀ j, a.get j = b.get j) ?_ fun ps ps' hps => ?_
  · unfold poolsUpdate
    refine (Till.poolsGet_fill hf.pools k).bind fun a b _ => .pure fun j => ?_
    by_cases hj : j = k
    · subst hj; rw [Map.get_insert_self, Map.get_insert_self]; rfl
    · rw [Map.get_insert_ne _ _ hj, Map.get_insert_ne _ _ hj, hf.pools j]
      unfold onlyAt
      rw [if_neg hj]
      cases t₁.pools.get j <;> rfl
  · have := pay_same (k := k) (u := q.feeProtocolTokenX) (v := q.feeProtocolTokenY) w1 w2 hb
    rw [← bind_assoc, ← bind_assoc]
    refine this.bind fun c c' hc => .pure ⟨rfl, rfl, ?_, hps, hc⟩
    rw [hf.rest]

/-! ### examples -/

namespace TillDemo

/-- what others do in between: swaps both ways and a claim -/
def others : List (Env × Call) :=
  [(Demo.by_ 2, .swap Demo.key true (10 ^ 6) true MIN_SQRT_PRICE),
   (Demo.by_ 2, .swap Demo.key false (10 ^ 6) true MAX_SQRT_PRICE), (Demo.by_ 3, .claimFee 0)]

def collect (s : Inv) : Option (Nat × Nat) := (withdrawProtocolFee (Demo.by_ 1) s Demo.key).toOption.map (·.2)

/-- the pool has all of 256 bits to be collected -/
def brimful : Inv :=
  match Demo.traded.pools.get Demo.key with
  | some p => { Demo.traded with pools := Demo.traded.pools.insert Demo.key (fill (2 ^ 256 - 2200, 0) p) }
  | none => Demo.traded

end TillDemo

open TillDemo in
/-- 2199 now and 100 of each token later, or 2299 and 100 later. -/
example : collect Demo.traded = some (2199, 0) ∧
    collect (runAll (run (Demo.by_ 1) Demo.traded (.withdrawProtocolFee Demo.key)) others) = some (100, 100) ∧
    collect (runAll Demo.traded others) = some (2299, 100) := by
  decide +kernel

open TillDemo in
/-- The exception: with no room left in the pool a swap panics. Once the fees are collected, it goes through. -/
example : collect brimful = some (2 ^ 256 - 1, 0) ∧
    (step (Demo.by_ 2) brimful (.swap Demo.key true (10 ^ 6) true MIN_SQRT_PRICE)).toBool = false ∧
    (step (Demo.by_ 2) (run (Demo.by_ 1) brimful (.withdrawProtocolFee Demo.key))
      (.swap Demo.key true (10 ^ 6) true MIN_SQRT_PRICE)).toBool = true := by
  decide +kernel

end Verif
