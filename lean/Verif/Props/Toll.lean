import Verif.Proofs.Toll
import Verif.Proofs.Split
import Verif.Props.Market
import Verif.Spec.Demo

/-!
# C122: a higher protocol fee gives the protocol no less

The protocol's part is rounded up in every step of a swap, so the part of the whole is not the share of the whole fee.
Still, for the same orders in the same market a higher share never leaves the protocol with less, of either token.
-/

namespace Verif
open Service Spec

namespace Toll
open Market

variable {s s' s₁ s₂ : Inv} {k k' : PoolKey} {env env' : Env} {xToY byIn : Bool} {amount limit : Nat}

/-- C122, a swap: for the same order in the same market, the protocol takes no less where its fee is higher. -/
theorem C122_swap {r r' : CalculateSwapResult} (hr : Reach s) (hr' : Reach s') (h : SameMarket s k s' k')
    (hf : s.protocolFee ≤ s'.protocolFee)
    (h1 : swap env s k xToY amount byIn limit = .ok (s₁, r))
    (h2 : swap env' s' k' xToY amount byIn limit = .ok (s₂, r')) (x : Bool) :
    toll s₁ k x - toll s k x ≤ toll s₂ k' x - toll s' k' x := by
  obtain ⟨t1, _, _, a1, a2, _, _, a3⟩ := swap_ok h1
  obtain ⟨t2, _, _, b1, b2, _, _, b3⟩ := swap_ok h2
  dsimp only at a1 a2 a3 b1 b2 b3
  obtain ⟨p, _, hp, _⟩ := calculateSwap_ok a1
  obtain ⟨q, _, hq, _⟩ := calculateSwap_ok b1
  have hm := mkt_of hr hr' h (by rw [hp]; rfl)
  have hpm : PoolM p q := by
    have := hm.pool
    rw [hp, hq] at this
    cases this with
    | some this => exact this
  have hres := calculateSwap_pair (dx := (p.feeProtocolTokenX : Int) - q.feeProtocolTokenX)
    (dy := (p.feeProtocolTokenY : Int) - q.feeProtocolTokenY) hm hf
    (fun a b ha hb => by
      rw [hp] at ha; rw [hq] at hb
      cases ha; cases hb
      exact ⟨hpm, le_rfl, le_rfl⟩)
    (xToY := xToY) (byIn := byIn) (amount := amount) (limit := limit) (n := env.now) (m := env'.now)
  rw [a1, b1] at hres
  cases hres with
  | ok hres =>
    have hx := hres.x
    have hy := hres.y
    unfold toll
    rw [a3, b3, hp, hq]
    dsimp only
    rw [Map.get_insert_self, Map.get_insert_self]
    dsimp only
    cases x
    · simp only [Bool.false_eq_true, if_false]; omega
    · simp only [if_true]; omega

private theorem share_step {fee f n : Nat} (h : n = (fee * f + (10 ^ 12 - 1)) / 10 ^ 12) : fee * f ≤ 10 ^ 12 * n := by
  omega

/-- C122, the share: of the fee that is reported for a swap the protocol gets at least its share, in the token that is
paid; of the other token it gets nothing. -/
theorem C122_share {r : CalculateSwapResult} (h : swap env s k xToY amount byIn limit = .ok (s₁, r)) :
    (r.fee * s.protocolFee : Int) ≤ 10 ^ 12 * (toll s₁ k xToY - toll s k xToY) ∧
    toll s₁ k (!xToY) = toll s k (!xToY) := by
  obtain ⟨t1, _, _, a1, _, _, _, a3⟩ := swap_ok h
  dsimp only at a1 a3
  obtain ⟨pool, _, hp, _⟩ := calculateSwap_ok a1
  obtain ⟨st, h2, _, _, e⟩ := calculateSwap_ind
    (P := fun st => (if xToY then
        st.fee * s.protocolFee + 10 ^ 12 * pool.feeProtocolTokenX ≤ 10 ^ 12 * st.pool.feeProtocolTokenX ∧
        st.pool.feeProtocolTokenY = pool.feeProtocolTokenY
      else st.fee * s.protocolFee + 10 ^ 12 * pool.feeProtocolTokenY ≤ 10 ^ 12 * st.pool.feeProtocolTokenY ∧
        st.pool.feeProtocolTokenX = pool.feeProtocolTokenX)) a1 hp
    (by cases xToY <;> simp) (by
      intro st st' hP _ hi
      obtain ⟨target, info, rr, remaining, pl, tick, u, hi⟩ := swapIter_ok hi
      obtain ⟨fx, fy⟩ := addFee_toll hi.fee
      have hstep := hi.step
      dsimp only at fx fy hstep
      have hz : st.pool.liquidity = 0 → rr.feeAmount = 0 := by
        intro hl
        rw [hl, computeSwapStep_zero] at hstep
        cases hstep
        rfl
      obtain ⟨n, hn⟩ : ∃ n, n = (rr.feeAmount * s.protocolFee + (10 ^ 12 - 1)) / 10 ^ 12 := ⟨_, rfl⟩
      have hs := share_step hn
      rw [← hn] at fx fy
      rw [hi.res]
      dsimp only
      have other : pl.feeProtocolTokenX ≤ u.pool.feeProtocolTokenX ∧ pl.feeProtocolTokenY ≤ u.pool.feeProtocolTokenY ∧
          (xToY = true → u.pool.feeProtocolTokenY = pl.feeProtocolTokenY) ∧
          (xToY = false → u.pool.feeProtocolTokenX = pl.feeProtocolTokenX) := by
        cases hi.upd with
        | cross ht hp _ _ hx =>
          obtain ⟨e1, e2⟩ := cross_toll hx
          dsimp only at e1 e2 ⊢
          exact ⟨e1.ge, e2.ge, fun _ => e2, fun _ => e1⟩
        | dust ht hp _ _ _ _ hf =>
          obtain ⟨g1, g2⟩ := addFee_toll hf
          dsimp only at g1 g2 ⊢
          refine ⟨by omega, by omega, fun hx => ?_, fun hx => ?_⟩
          · rw [g2, if_pos (.inr hx)]; rfl
          · rw [g1, if_pos (.inr hx)]; rfl
        | _ => simp
      obtain ⟨o1, o2, o3, o4⟩ := other
      have hmul : (st.fee + rr.feeAmount) * s.protocolFee = st.fee * s.protocolFee + rr.feeAmount * s.protocolFee := by ring
      rw [hmul]
      cases xToY
      · have o4 := o4 rfl
        simp only [Bool.false_eq_true, if_false, or_true, if_true, or_false, Nat.add_zero] at *
        refine ⟨?_, by omega⟩
        split at fy
        · next hl => rw [hz hl, Nat.zero_mul]; omega
        · omega
      · have o3 := o3 rfl
        simp only [Bool.true_eq_false, if_false, or_true, if_true, or_false, Nat.add_zero] at *
        refine ⟨?_, by omega⟩
        split at fx
        · next hl => rw [hz hl, Nat.zero_mul]; omega
        · omega)
  unfold toll
  rw [a3, hp]
  dsimp only
  rw [Map.get_insert_self, e]
  dsimp only
  cases xToY
  · simp only [Bool.false_eq_true, if_false, Bool.not_false, if_true] at h2 ⊢
    obtain ⟨h2, h3⟩ := h2
    refine ⟨?_, by rw [h3]⟩
    zify at h2
    linarith
  · simp only [if_true, Bool.not_true, Bool.false_eq_true, if_false] at h2 ⊢
    obtain ⟨h2, h3⟩ := h2
    refine ⟨?_, by rw [h3]⟩
    zify at h2
    linarith

private theorem swap_keeps {r : CalculateSwapResult} (h : swap env s k xToY amount byIn limit = .ok (s₁, r)) :
    s₁.protocolFee = s.protocolFee := by
  obtain ⟨_, _, _, _, _, _, _, h⟩ := swap_ok h
  dsimp only at h
  rw [h]

/-- C122, histories: any number of orders. The markets are the same at the end, too. -/
theorem C122_orders {l : List Order} (h1 : Executed k s l s₁) : ∀ {s' s₂ : Inv}, Executed k' s' l s₂ → Reach s → Reach s' →
    SameMarket s k s' k' → s.protocolFee ≤ s'.protocolFee →
    SameMarket s₁ k s₂ k' ∧ ∀ x, toll s₁ k x - toll s k x ≤ toll s₂ k' x - toll s' k' x := by
  induction h1 with
  | none =>
    intro s' s₂ h2 hr hr' h hf
    cases h2
    exact ⟨h, fun x => by omega⟩
  | @next s t u env r o l h1 _ ih =>
    intro s' s₂ h2 hr hr' h hf
    cases h2 with
    | @next _ t' _ env' r' _ _ h2 h3 =>
      obtain ⟨a, b⟩ := ih h3 (Split.swap_reach hr h1) (Split.swap_reach hr' h2) (C98_swap hr hr' h h1 h2).2
        (by rw [swap_keeps h1, swap_keeps h2]; exact hf)
      refine ⟨a, fun x => ?_⟩
      have c := C122_swap hr hr' h hf h1 h2 x
      have d := b x
      omega

/-- C122, the setting: raising the fee before the orders instead of leaving it gives the protocol no less. -/
theorem C122_raise {f : Nat} {l : List Order} (hr : Reach s) (hf : s.protocolFee ≤ f)
    (h0 : step env s (.changeProtocolFee f) = .ok s') (h1 : Executed k s l s₁) (h2 : Executed k s' l s₂) (x : Bool) :
    toll s₁ k x ≤ toll s₂ k x := by
  have hr' := Reach.call hr h0
  simp only [step, changeProtocolFee, bind_ok_iff, failIf_ok_iff, pure_ok_iff] at h0
  obtain ⟨_, ⟨_, _, rfl⟩, rfl⟩ := h0
  have := (C122_orders h1 h2 hr hr' ⟨rfl, ?_, ?_⟩ hf).2 x
  · have e : toll { s with protocolFee := f } k x = toll s k x := rfl
    dsimp only at this
    omega
  · dsimp only
    cases s.pools.get k with
    | none => exact .none
    | some p => exact .some ⟨rfl, rfl, rfl⟩
  · intro i
    dsimp only
    cases s.ticks.get (k, i) with
    | none => exact .none
    | some t => exact .some rfl

/-! ### an example -/

/-- a swap that crosses a tick: the protocol takes more with 20 % than with 10 %, though not twice as much because of the
roundings, and nothing of the other token; the trader gets the same -/
example :
    (swap (Demo.by_ 2) Demo.start Demo.key true (22 * 10 ^ 6) true MIN_SQRT_PRICE).toOption.map
      (fun r => (r.2.amountOut, r.2.fee, toll r.1 Demo.key true, toll r.1 Demo.key false)) = some (21965657, 21981, 2199, 0) ∧
    (swap (Demo.by_ 2) (runAll Demo.start [(Demo.by_ 1, .changeProtocolFee (2 * 10 ^ 11))]) Demo.key true (22 * 10 ^ 6) true
        MIN_SQRT_PRICE).toOption.map
      (fun r => (r.2.amountOut, r.2.fee, toll r.1 Demo.key true, toll r.1 Demo.key false)) = some (21965657, 21981, 4397, 0) := by
  decide +kernel

end Toll
end Verif
