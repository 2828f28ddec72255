import Verif.Props.Reasons
import Verif.Props.SwapCall

/-!
# Property C109, routes: a refused route names its reason

A route is refused with an error of the program either because of one of its swaps, with the reason of that swap, after the
swaps before it; or with `AmountUnderMinimumAmountOut`, exactly if all its swaps are executed and the last one gives less
than the minimum.
-/

namespace Verif
open Service Spec

variable {env : Env} {s : Inv} {amountIn expected slippage : Nat} {hops : List SwapHop} {e : InvErr}

/-- the price limit of a swap of a route: none -/
def Spec.noLimit (xToY : Bool) : Nat := if xToY then MIN_SQRT_PRICE else MAX_SQRT_PRICE

/-- the first swap of the route that is refused, after the swaps before it, with its reason -/
def Spec.RefusedAt (env : Env) (s : Inv) (amountIn : Nat) (hops : List SwapHop) (e : InvErr) : Prop :=
  ∃ before hop after t a, hops = before ++ hop :: after ∧ Chain env s amountIn before t a ∧
    ((calculateSwap t env.now hop.key hop.xToY a true (noLimit hop.xToY) = .error (.inv e) ∧
        Reason t hop.key hop.xToY a true (noLimit hop.xToY) e) ∨
      ∃ r, calculateSwap t env.now hop.key hop.xToY a true (noLimit hop.xToY) = .ok r ∧
        ReasonBalance t.balances env.caller (tokenIn hop.key hop.xToY) (tokenOut hop.key hop.xToY) r.amountIn r.amountOut e)

private theorem reach_hop (hr : Reach s) {k : PoolKey} {x : Bool} {a l : Nat} {r : Inv × CalculateSwapResult}
    (h : swap env s k x a true l = .ok r) : Reach r.1 :=
  .call (c := .swap k x a true l) hr (by simp only [step, bind_ok_iff, pure_ok_iff]; exact ⟨r, h, rfl⟩)

private theorem route_refused (hr : Reach s) (h : routeSwap env hops s amountIn = .error (.inv e)) :
    RefusedAt env s amountIn hops e := by
  induction hops generalizing s amountIn with
  | nil => cases h
  | cons hop rest ih =>
    simp only [routeSwap, bind_inv_iff] at h
    rcases h with h | ⟨r, h1, h2⟩
    · exact ⟨[], hop, rest, s, amountIn, rfl, .nil _ _, C109 hr h⟩
    · obtain ⟨before, hop', after, t, a, rfl, hc, h⟩ := ih (reach_hop hr h1) h2
      exact ⟨hop :: before, hop', after, t, a, rfl, .cons (r := r.2) h1 ((C29_exact h1).1 rfl) hc, h⟩

private theorem route_chain {t : Inv} {a b : Nat} : routeSwap env hops s a = .ok (t, b) ↔ Chain env s a hops t b := by
  induction hops generalizing s a with
  | nil =>
    simp only [routeSwap, Except.ok.injEq, Prod.mk.injEq]
    constructor
    · rintro ⟨rfl, rfl⟩; exact .nil _ _
    · rintro ⟨⟩; exact ⟨rfl, rfl⟩
  | cons h rest ih =>
    simp only [routeSwap, bind_ok_iff]
    constructor
    · rintro ⟨⟨s1, r⟩, h1, h2⟩
      exact .cons h1 ((C29_exact h1).1 rfl) (ih.1 h2)
    · intro hc
      cases hc with
      | cons hs hin ht => exact ⟨(_, _), hs, ih.2 ht⟩

/-- C109, routes: the reason is that of the first swap that is refused, or the minimum is missed. -/
theorem C109_route (hr : Reach s) (he : expected < 2 ^ 256)
    (h : swapRoute env s amountIn expected slippage hops = .error (.inv e)) :
    RefusedAt env s amountIn hops e ∨
    (e = .AmountUnderMinimumAmountOut ∧ slippage ≤ 10 ^ 12 ∧
      ∃ t out, Chain env s amountIn hops t out ∧ out < ⌈(expected : ℚ) * (1 - pct slippage)⌉₊) := by
  unfold swapRoute at h
  rw [bind_inv_iff] at h
  rcases h with h | ⟨⟨t, out⟩, h1, h⟩
  · exact .inl (route_refused hr h)
  right
  by_cases hs : slippage ≤ 10 ^ 12
  · rw [(C09_min_amount_out he).1 hs] at h
    simp only [bind_inv_iff, reduceCtorEq, false_or, Except.ok.injEq, exists_eq_left', failIf_inv, pure_inv, and_false,
      exists_false, or_false, Err.inv.injEq] at h
    exact ⟨h.2.symm, hs, t, out, route_chain.1 h1, h.1⟩
  · have hp : calculateMinAmountOut expected slippage = .error .panic := by
      unfold calculateMinAmountOut subC
      rw [if_neg (by unfold pctOne; omega)]
      rfl
    rw [hp] at h
    cases h

/-- C109, routes: the minimum is named exactly if all the swaps are executed and it is missed. -/
theorem C109_route_minimum (hr : Reach s) (he : expected < 2 ^ 256) :
    swapRoute env s amountIn expected slippage hops = .error (.inv .AmountUnderMinimumAmountOut) ↔
      slippage ≤ 10 ^ 12 ∧
      ∃ t out, Chain env s amountIn hops t out ∧ out < ⌈(expected : ℚ) * (1 - pct slippage)⌉₊ := by
  constructor
  · intro h
    rcases C109_route hr he h with ⟨_, _, _, _, _, _, _, h | ⟨_, _, h⟩⟩ | h
    · exact absurd h.2 id
    · exact absurd h id
    · exact h.2
  · rintro ⟨hs, t, out, hc, ho⟩
    unfold swapRoute
    rw [route_chain.2 hc, (C09_min_amount_out he).1 hs]
    simp only [bind, Except.bind, failIf]
    rw [if_pos ho]

/-- C109, quotes of routes: the quote of the first swaps gives an amount, of which the next swap is refused for the reason
given. -/
theorem C109_route_quote (hr : Reach s) {now : Nat} (h : quoteRoute s now amountIn hops = .error (.inv e)) :
    ∃ before hop after a, hops = before ++ hop :: after ∧ quoteRoute s now amountIn before = .ok a ∧
      Reason s hop.key hop.xToY a true (noLimit hop.xToY) e := by
  unfold quoteRoute at h ⊢
  induction hops generalizing amountIn with
  | nil => cases h
  | cons hop rest ih =>
    simp only [routeQuote, bind_inv_iff] at h
    rcases h with h | ⟨r, h1, h2⟩
    · exact ⟨[], hop, rest, amountIn, rfl, rfl, C109_quote hr h⟩
    · obtain ⟨before, hop', after, a, rfl, hc, h⟩ := ih h2
      refine ⟨hop :: before, hop', after, a, rfl, ?_, h⟩
      simp only [routeQuote, bind_ok_iff]
      exact ⟨r, h1, hc⟩

/-- a minimum that is missed; a second pool that does not exist; a first swap that the caller cannot pay -/
example :
    failure (swapRoute (Demo.by_ 2) Demo.start (10 ^ 6) (10 ^ 6) 0 [⟨Demo.key, true⟩, ⟨Demo.key2, false⟩]) =
      some (.inv .AmountUnderMinimumAmountOut) ∧
    failure (swapRoute (Demo.by_ 2) Demo.start (10 ^ 6) 0 0 [⟨Demo.key, true⟩, ⟨⟨6, 7, Demo.tier⟩, false⟩]) =
      some (.inv .PoolNotFound) ∧
    failure (swapRoute (Demo.by_ 9) Demo.start (10 ^ 6) 0 0 [⟨Demo.key, true⟩, ⟨⟨6, 7, Demo.tier⟩, false⟩]) =
      some (.inv .NoBalanceForTheToken) := by decide +kernel

end Verif
