import Verif.Proofs.SwapAmounts
import Verif.Props.Authority
import Verif.Props.Step

/-!
# C27, C29, C30, C31: the swap calls as seen by the caller

C27: debits and credits. C29: exact amounts. C30: quotes. C31: routes.
-/

namespace Verif
open Service Spec

variable {env : Env} {s s' : Inv} {key : PoolKey} {xToY byIn : Bool} {amount limit : Nat}
  {r : CalculateSwapResult}

private theorem bal_eq (b : Balances) (w t : ActorId) : Spec.bal b w t = balOf b w t := by
  unfold Spec.bal balOf
  cases b.get (w, t) <;> rfl

/-! ### C27 -/

/-- the token given away -/
def Spec.tokenIn (key : PoolKey) (xToY : Bool) : ActorId := if xToY then key.tokenX else key.tokenY
/-- the token received -/
def Spec.tokenOut (key : PoolKey) (xToY : Bool) : ActorId := if xToY then key.tokenY else key.tokenX

/-- C27: a swap lowers the caller's balance of the input token by exactly the reported input, raises
the balance of the output token by exactly the reported output and changes no other balance. -/
theorem C27_balances (hr : Reach s) (h : swap env s key xToY amount byIn limit = .ok (s', r)) :
    bal s.balances env.caller (tokenIn key xToY) =
      bal s'.balances env.caller (tokenIn key xToY) + r.amountIn ∧
    bal s'.balances env.caller (tokenOut key xToY) =
      bal s.balances env.caller (tokenOut key xToY) + r.amountOut ∧
    ∀ a t, (a ≠ env.caller ∨ (t ≠ tokenIn key xToY ∧ t ≠ tokenOut key xToY)) →
      bal s'.balances a t = bal s.balances a t := by
  obtain ⟨_, b1, b2, h1, _, h2, h3, e⟩ := swap_ok h
  obtain ⟨p, hp, _⟩ := calculateSwap_pool h1
  have hlt : key.tokenX < key.tokenY := ((reach_tiers hr).pools key (by rw [hp]; rfl)).2
  have hxy : key.tokenX ≠ key.tokenY := Nat.ne_of_lt hlt
  have hio : tokenIn key xToY ≠ tokenOut key xToY := by
    unfold tokenIn tokenOut
    cases xToY
    · exact hxy.symm
    · exact hxy
  have hb : s'.balances = b2 := by
    have : s' = _ := e
    rw [this]
  have hi : (if xToY then key.tokenX else key.tokenY) = tokenIn key xToY := rfl
  have ho : (if xToY then key.tokenY else key.tokenX) = tokenOut key xToY := rfl
  dsimp only at h2 h3
  rw [hi] at h2
  rw [ho] at h3
  have k2 := fun w u => (decrease_bal h2 w u).1
  have k3 := fun w u => increase_bal h3 w u
  simp only [bal_eq, hb]
  refine ⟨?_, ?_, ?_⟩
  · have a1 := k2 env.caller (tokenIn key xToY)
    have a2 := k3 env.caller (tokenIn key xToY)
    rw [if_pos ⟨rfl, rfl⟩] at a1
    rw [if_neg (fun e => hio e.2)] at a2
    omega
  · have a1 := k2 env.caller (tokenOut key xToY)
    have a2 := k3 env.caller (tokenOut key xToY)
    rw [if_neg (fun e => hio e.2.symm)] at a1
    rw [if_pos ⟨rfl, rfl⟩] at a2
    omega
  · intro a t hat
    have a1 := k2 a t
    have a2 := k3 a t
    rw [if_neg (by rintro ⟨rfl, rfl⟩; rcases hat with h | h; exacts [h rfl, h.1 rfl])] at a1
    rw [if_neg (by rintro ⟨rfl, rfl⟩; rcases hat with h | h; exacts [h rfl, h.2 rfl])] at a2
    omega

/-- C27: of the pools only the named one changes, it becomes the one reported; settings, pool list,
positions, tick maps and pending transfers stay as they are; of the ticks only those of the named
pool can change. -/
theorem C27_frame (h : swap env s key xToY amount byIn limit = .ok (s', r)) :
    s'.pools.get key = some r.pool ∧ (∀ k, k ≠ key → s'.pools.get k = s.pools.get k) ∧
    s'.positions = s.positions ∧ s'.tickmap = s.tickmap ∧ s'.poolKeys = s.poolKeys ∧
    s'.admin = s.admin ∧ s'.protocolFee = s.protocolFee ∧ s'.feeTiers = s.feeTiers ∧
    s'.awaiting = s.awaiting ∧ ∀ k i, k ≠ key → s'.ticks.get (k, i) = s.ticks.get (k, i) := by
  obtain ⟨f, f1, f2, f3⟩ := swap_keyFrame h
  obtain ⟨_, _, _, _, _, _, _, e⟩ := swap_ok h
  have e : s' = _ := e
  refine ⟨?_, f.pool, f1, f2, ?_, ?_, f3, ?_, ?_, fun k i hk => f.tick k i hk⟩
  · rw [e]; dsimp only; rw [Map.get_insert, if_pos rfl]
  all_goals rw [e]

/-- the reported values of the example swap: 22000000 of token 5 in, 21965657 of token 7 out -/
example : (swap (Demo.by_ 2) Demo.start Demo.key true (22 * 10 ^ 6) true MIN_SQRT_PRICE).toOption.map
      (fun x => (x.2.amountIn, x.2.amountOut)) = some (22000000, 21965657) ∧
    bal Demo.start.balances 2 5 - bal Demo.traded.balances 2 5 = 22000000 ∧
    bal Demo.traded.balances 2 7 - bal Demo.start.balances 2 7 = 21965657 := by decide +kernel

/-! ### C29 -/

/-- C29: a successful exact-input swap takes exactly the requested amount, a successful exact-output
swap pays exactly the requested amount. -/
theorem C29_exact (h : swap env s key xToY amount byIn limit = .ok (s', r)) :
    (byIn = true → r.amountIn = amount) ∧ (byIn = false → r.amountOut = amount) := by
  obtain ⟨_, _, _, h1, _⟩ := swap_ok h
  exact swap_exact h1

/-- C29 for quotes -/
theorem C29_quote {now : Nat} {q : QuoteResult} (h : quote s now key xToY amount byIn limit = .ok q) :
    (byIn = true → q.amountIn = amount) ∧ (byIn = false → q.amountOut = amount) := by
  simp only [quote, bind_ok_iff, pure_ok_iff] at h
  obtain ⟨c, h1, rfl⟩ := h
  exact swap_exact h1

/-- C29: in terms of balances. -/
theorem C29_balances (hr : Reach s) (h : swap env s key xToY amount byIn limit = .ok (s', r)) :
    (byIn = true → bal s.balances env.caller (tokenIn key xToY) =
      bal s'.balances env.caller (tokenIn key xToY) + amount) ∧
    (byIn = false → bal s'.balances env.caller (tokenOut key xToY) =
      bal s.balances env.caller (tokenOut key xToY) + amount) := by
  obtain ⟨h1, h2, _⟩ := C27_balances hr h
  obtain ⟨e1, e2⟩ := C29_exact h
  exact ⟨fun hb => by rw [h1, e1 hb], fun hb => by rw [h2, e2 hb]⟩

/-- exact output of 10^7 costs 10012504 -/
example : (swap (Demo.by_ 2) Demo.start Demo.key false (10 ^ 7) false MAX_SQRT_PRICE).toOption.map
      (fun x => (x.2.amountIn, x.2.amountOut)) = some (10012504, 10 ^ 7) := by decide +kernel

/-! ### C30 -/

/-- C30: what a swap reports is what a quote with the same arguments in the same state and block
returns; the final price is the one stored in the pool afterwards. -/
theorem C30_quote_of_swap (h : swap env s key xToY amount byIn limit = .ok (s', r)) :
    quote s env.now key xToY amount byIn limit =
      .ok ⟨r.amountIn, r.amountOut, r.pool.sqrtPrice, r.ticks⟩ ∧
    s'.pools.get key = some r.pool ∧ r.targetSqrtPrice = r.pool.sqrtPrice := by
  obtain ⟨_, _, _, h1, _⟩ := swap_ok h
  dsimp only at h1
  refine ⟨?_, (C27_frame h).1, ?_⟩
  · simp only [quote, bind_ok_iff, pure_ok_iff]
    exact ⟨r, h1, rfl⟩
  · obtain ⟨_, _, _, _, _, _, _, _, e⟩ := calculateSwap_ok h1
    rw [e]

/-- C30: a failing quote means a failing swap, with the same error. -/
theorem C30_quote_fails {e : Err} (h : quote s env.now key xToY amount byIn limit = .error e) :
    swap env s key xToY amount byIn limit = .error e := by
  unfold quote at h
  cases hc : calculateSwap s env.now key xToY amount byIn limit with
  | ok c => rw [hc] at h; cases h
  | error e' =>
    rw [hc] at h
    cases h
    unfold swap
    rw [hc]
    rfl

/-- C30: if the quote succeeds, the swap succeeds for every caller who has the input amount and whose
balance of the output token can take the output, and it reports the quoted values. -/
theorem C30_swap_of_quote (hr : Reach s) {q : QuoteResult}
    (h : quote s env.now key xToY amount byIn limit = .ok q)
    (hin : q.amountIn ≤ bal s.balances env.caller (tokenIn key xToY))
    (hout : bal s.balances env.caller (tokenOut key xToY) + q.amountOut < 2 ^ 256) :
    ∃ s' r, swap env s key xToY amount byIn limit = .ok (s', r) ∧ r.amountIn = q.amountIn ∧
      r.amountOut = q.amountOut ∧ r.targetSqrtPrice = q.targetSqrtPrice ∧ r.ticks = q.ticks := by
  simp only [quote, bind_ok_iff, pure_ok_iff] at h
  obtain ⟨c, h1, rfl⟩ := h
  obtain ⟨pool, hp, _⟩ := calculateSwap_pool h1
  have hlt : key.tokenX < key.tokenY := ((reach_tiers hr).pools key (by rw [hp]; rfl)).2
  have hxy : key.tokenX ≠ key.tokenY := Nat.ne_of_lt hlt
  have hio : tokenIn key xToY ≠ tokenOut key xToY := by
    unfold tokenIn tokenOut
    cases xToY
    · exact hxy.symm
    · exact hxy
  have hix := (reach_wf s hr).indexed
  obtain ⟨m', hm'⟩ := updateTicks_total (key := key) c.ticks s.ticks (by
    intro t ht
    obtain ⟨i, q, h2, h3⟩ := ticks_swap h1 t ht
    refine ⟨q, ?_⟩
    rw [h3.index, hix key i q h2]
    exact h2)
  dsimp only at hin hout
  rw [bal_eq] at hin hout
  have hd : ∃ b1, decreaseTokenBalance s.balances (tokenIn key xToY) env.caller (some c.amountIn)
      = .ok b1 := by
    by_cases h0 : c.amountIn = 0
    · exact ⟨_, decrease_some_ok.2 (.inl ⟨h0, rfl⟩)⟩
    · cases hg : s.balances.get (env.caller, tokenIn key xToY) with
      | none => unfold balOf at hin; rw [hg] at hin; simp at hin; exact absurd hin h0
      | some v =>
        unfold balOf at hin; rw [hg] at hin
        exact ⟨_, decrease_some_ok.2 (.inr ⟨h0, v, hg, hin, rfl⟩)⟩
  obtain ⟨b1, hb1⟩ := hd
  have hkeep : balOf b1.1 env.caller (tokenOut key xToY) = balOf s.balances env.caller (tokenOut key xToY) := by
    have := (decrease_bal hb1 env.caller (tokenOut key xToY)).1
    rw [if_neg (fun e => hio e.2.symm)] at this
    omega
  have hi : ∃ b2, increaseTokenBalance b1.1 (tokenOut key xToY) env.caller c.amountOut = .ok b2 := by
    by_cases h0 : c.amountOut = 0
    · exact ⟨_, increase_ok.2 (.inl ⟨h0, rfl⟩)⟩
    · exact ⟨_, increase_ok.2 (.inr ⟨h0, by rw [hkeep]; exact hout, rfl⟩)⟩
  obtain ⟨b2, hb2⟩ := hi
  refine ⟨{ s with ticks := m', pools := s.pools.insert key c.pool, balances := b2 }, c,
    ?_, rfl, rfl, ?_, rfl⟩
  · simp only [swap, bind_ok_iff, pure_ok_iff, poolsUpdate_ok]
    exact ⟨c, h1, m', hm', _, ⟨⟨pool, hp⟩, rfl⟩, b1, hb1, b2, hb2, rfl⟩
  · obtain ⟨_, _, _, _, _, _, _, _, e⟩ := calculateSwap_ok h1
    rw [e]

example : (quote Demo.start 100 Demo.key true (22 * 10 ^ 6) true MIN_SQRT_PRICE).toOption.map
      (fun q => (q.amountIn, q.amountOut, q.targetSqrtPrice, q.ticks.map (·.index))) =
    some (22000000, 21965657, 999302984359663232683739, [-10]) := by decide +kernel

/-! ### C31 -/

/-- the hops one after the other, each spending exactly what the previous one paid -/
inductive Spec.Chain (env : Env) : Inv → Nat → List SwapHop → Inv → Nat → Prop
  | nil (s : Inv) (a : Nat) : Chain env s a [] s a
  | cons {s s1 s2 : Inv} {a b : Nat} {h : SwapHop} {t : List SwapHop} {r : CalculateSwapResult}
      (hs : swap env s h.key h.xToY a true (if h.xToY then MIN_SQRT_PRICE else MAX_SQRT_PRICE)
        = .ok (s1, r))
      (hin : r.amountIn = a) (ht : Chain env s1 r.amountOut t s2 b) : Chain env s a (h :: t) s2 b

private theorem routeSwap_chain {hops : List SwapHop} {a b : Nat} :
    routeSwap env hops s a = .ok (s', b) ↔ Chain env s a hops s' b := by
  induction hops generalizing s a with
  | nil =>
    simp only [routeSwap, Except.ok.injEq, Prod.mk.injEq]
    constructor
    · rintro ⟨rfl, rfl⟩; exact .nil _ _
    · rintro ⟨⟩; exact ⟨rfl, rfl⟩
  | cons h t ih =>
    simp only [routeSwap, bind_ok_iff]
    constructor
    · rintro ⟨⟨s1, r⟩, h1, h2⟩
      exact .cons h1 ((C29_exact h1).1 rfl) (ih.1 h2)
    · intro hc
      cases hc with
      | cons hs hin ht => exact ⟨(_, _), hs, ih.2 ht⟩

/-- C31: a route succeeds exactly if the hops succeed one after the other and the final amount is at
least `⌈expected · (1 - slippage)⌉`; its effect and result are theirs. -/
theorem C31_route {amountIn expected slippage out : Nat} {hops : List SwapHop}
    (he : expected < 2 ^ 256) :
    swapRoute env s amountIn expected slippage hops = .ok (s', out) ↔
      slippage ≤ 10 ^ 12 ∧ Chain env s amountIn hops s' out ∧
      ⌈(expected : ℚ) * (1 - pct slippage)⌉₊ ≤ out := by
  constructor
  · intro h
    obtain ⟨h1, m, h2, h3⟩ := swapRoute_ok h
    have hs : slippage ≤ 10 ^ 12 := by
      by_contra hc
      obtain ⟨_, h4⟩ := (C09_min_amount_out he).2 (not_le.1 hc)
      rw [h2] at h4; cases h4
    rw [(C09_min_amount_out he).1 hs] at h2
    cases h2
    exact ⟨hs, routeSwap_chain.1 h1, h3⟩
  · rintro ⟨hs, hc, hm⟩
    simp only [swapRoute, bind_ok_iff, failIf_ok_iff, pure_ok_iff]
    exact ⟨(s', out), routeSwap_chain.2 hc, _, (C09_min_amount_out he).1 hs, (), by
      dsimp only; omega, rfl⟩

/-- C31: if the route does not succeed, nothing changes. -/
theorem C31_route_fails {amountIn expected slippage : Nat} {hops : List SwapHop}
    (h : ¬ ∃ x, swapRoute env s amountIn expected slippage hops = .ok x) :
    run env s (.swapRoute amountIn expected slippage hops) = s := by
  cases hr : swapRoute env s amountIn expected slippage hops with
  | ok x => exact absurd ⟨x, hr⟩ h
  | error e =>
    unfold run step
    dsimp only
    rw [hr]
    rfl

private theorem chain_quote {hops : List SwapHop} {a b : Nat} {s0 : Inv}
    (h : Chain env s a hops s' b)
    (hsame : ∀ k ∈ hops.map (·.key), PoolSame k s0 s) (htm : s.tickmap = s0.tickmap)
    (hpf : s.protocolFee = s0.protocolFee) (hn : (hops.map (·.key)).Nodup) :
    routeQuote s0 env.now hops a = .ok b := by
  induction h with
  | nil => rfl
  | @cons s s1 s2 a b h t r hs hin ht ih =>
    simp only [List.map_cons, List.nodup_cons] at hn
    obtain ⟨_, _, _, h1, _⟩ := swap_ok hs
    have hk := hsame h.key (by simp)
    have e := calculateSwap_congr (now := env.now) (xToY := h.xToY) (byIn := true) (amount := a)
      (limit := if h.xToY then MIN_SQRT_PRICE else MAX_SQRT_PRICE) hk.pool hk.tick htm hpf
    simp only [routeQuote, bind_ok_iff]
    refine ⟨r, e ▸ h1, ?_⟩
    obtain ⟨f, _, f2, f3⟩ := swap_keyFrame hs
    refine ih ?_ (f2.trans htm) (f3.trans hpf) hn.2
    intro k hkm
    have hne : k ≠ h.key := by rintro rfl; exact hn.1 hkm
    have hk' := hsame k (by simp only [List.map_cons, List.mem_cons]; exact .inr hkm)
    exact ⟨(f.pool k hne).trans hk'.pool, fun i => (f.tick k i hne).trans (hk'.tick i),
      fun c => (f.word k c hne).trans (hk'.word c)⟩

/-- C31: if no pool occurs twice, the quote of a route returns what the route pays. -/
theorem C31_quote {amountIn expected slippage out : Nat} {hops : List SwapHop}
    (h : swapRoute env s amountIn expected slippage hops = .ok (s', out))
    (hn : (hops.map (·.key)).Nodup) : quoteRoute s env.now amountIn hops = .ok out :=
  chain_quote (routeSwap_chain.1 (swapRoute_ok h).1) (fun _ _ => ⟨rfl, fun _ => rfl, fun _ => rfl⟩)
    rfl rfl hn

/-- a route through both pools; with a repeated pool the quote differs -/
example :
    (swapRoute (Demo.by_ 2) Demo.start 1000000 980000 (10 ^ 10)
      [⟨Demo.key, true⟩, ⟨Demo.key2, false⟩]).toOption.map (·.2) = some 992971 ∧
    quoteRoute Demo.start 100 1000000 [⟨Demo.key, true⟩, ⟨Demo.key2, false⟩] = .ok 992971 ∧
    (swapRoute (Demo.by_ 2) Demo.start 1000000 0 0
      [⟨Demo.key, true⟩, ⟨Demo.key, false⟩]).toOption.map (·.2) ≠
      (quoteRoute Demo.start 100 1000000 [⟨Demo.key, true⟩, ⟨Demo.key, false⟩]).toOption := by
  decide +kernel

end Verif
