import Verif.Proofs.SwapFrame
import Verif.Proofs.Step
import Verif.Proofs.CallFrame

/-! # Amounts of a swap, dependence of a swap on the state -/

namespace Verif
open Service Spec

variable {s s' : Inv} {a : SwapArgs} {st st' : SwapState}

/-- an exact-output swap from X to Y always has enough to move on -/
theorem enough_out_x {p L fee amount : Nat} (ha : amount ≠ 0) :
    isEnoughAmountToChangePrice amount p L fee false true ≠ .ok false := by
  intro h
  unfold isEnoughAmountToChangePrice at h
  split at h
  · cases h
  · simp only [Bool.false_eq_true, if_false, bind_ok_iff, pure_ok_iff] at h
    obtain ⟨n, hn, he⟩ := h
    have he : p = n := by simpa using he
    unfold getNextSqrtPriceFromOutput at hn
    simp only [if_true] at hn
    obtain ⟨h1, h2, h3⟩ := getNextSqrtPriceYDown_sub_ok hn
    have := cdiv_pos (n := amount * 10 ^ 29) (d := L) (by positivity) h3
    omega

theorem iter_exactIn (h : swapIter s a st = .ok st') (hb : a.byIn = true) :
    st'.totalIn + st'.remaining = st.totalIn + st.remaining := by
  obtain ⟨target, info, r, remaining, pool, tick, u, h⟩ := swapIter_ok h
  have hrem := h.rem
  rw [if_pos hb] at hrem
  obtain ⟨h1, h2⟩ := hrem
  have hu : u.total + u.remaining = remaining := by
    cases h.upd with
    | inside => simp
    | cross => simp
    | dust => simp
    | drop _ _ _ _ _ hb' => rw [hb] at hb'; cases hb'
    | done _ _ _ _ hr => simp [hr]
    | uninit => simp
  rw [h.res]
  dsimp only
  omega

theorem iter_exactOut (h : swapIter s a st = .ok st') (hb : a.byIn = false) :
    st'.totalOut + st'.remaining = st.totalOut + st.remaining := by
  obtain ⟨target, info, r, remaining, pool, tick, u, h⟩ := swapIter_ok h
  have hrem := h.rem
  rw [if_neg (by rw [hb]; simp)] at hrem
  obtain ⟨h1, h2⟩ := hrem
  have hu : u.remaining = remaining := by
    cases h.upd with
    | inside => rfl
    | cross => rfl
    | dust _ _ _ _ _ hb' => rw [hb] at hb'; cases hb'
    | drop _ _ he hd hr _ =>
      rw [hb, hd] at he
      exact absurd he (enough_out_x hr)
    | done _ _ _ _ hr => exact hr.symm
    | uninit => rfl
  rw [h.res]
  dsimp only
  omega

theorem swap_exact {now : Nat} {key : PoolKey} {xToY byIn : Bool} {amount limit : Nat}
    {r : CalculateSwapResult} (h : calculateSwap s now key xToY amount byIn limit = .ok r) :
    (byIn = true → r.amountIn = amount) ∧ (byIn = false → r.amountOut = amount) := by
  obtain ⟨p, hp, _⟩ := calculateSwap_pool h
  constructor
  · rintro rfl
    obtain ⟨st, h1, h2, _, e⟩ := calculateSwap_ind
      (P := fun st => st.totalIn + st.remaining = amount) h hp (by simp)
      (fun st st' hP _ hi => (iter_exactIn hi rfl).trans hP)
    rw [e]
    dsimp only
    omega
  · rintro rfl
    obtain ⟨st, h1, h2, _, e⟩ := calculateSwap_ind
      (P := fun st => st.totalOut + st.remaining = amount) h hp (by simp)
      (fun st st' hP _ hi => (iter_exactOut hi rfl).trans hP)
    rw [e]
    dsimp only
    omega

/-! ### dependence on the state -/

/-- a swap looks only at the pool's own record, ticks and tick map, and at the protocol fee -/
theorem calculateSwap_congr {now : Nat} {key : PoolKey} {xToY byIn : Bool} {amount limit : Nat}
    (hp : s'.pools.get key = s.pools.get key) (ht : ∀ i, s'.ticks.get (key, i) = s.ticks.get (key, i))
    (hm : s'.tickmap = s.tickmap) (hf : s'.protocolFee = s.protocolFee) :
    calculateSwap s' now key xToY amount byIn limit = calculateSwap s now key xToY amount byIn limit := by
  have hlim : ∀ info, limitingTick s' key info = limitingTick s key info := by
    intro info
    unfold limitingTick
    cases info with
    | none => rfl
    | some x =>
      obtain ⟨i, b⟩ := x
      cases b <;> simp only [ticksGet, ht]
  have hiter : ∀ st, swapIter s' ⟨key, xToY, byIn, limit, now⟩ st =
      swapIter s ⟨key, xToY, byIn, limit, now⟩ st := by
    intro st
    unfold swapIter
    simp only [hm, hf, hlim]
  have hloop : ∀ n st, swapLoop s' ⟨key, xToY, byIn, limit, now⟩ n st =
      swapLoop s ⟨key, xToY, byIn, limit, now⟩ n st := by
    intro n
    induction n with
    | zero => intro st; rfl
    | succ n ih =>
      intro st
      unfold swapLoop
      rw [hiter]
      split
      · rfl
      · split
        · rfl
        · exact ih _
  have hstart : swapStart s' key xToY amount limit = swapStart s key xToY amount limit := by
    unfold swapStart poolsGet
    rw [hp]
  unfold calculateSwap
  rw [hstart]
  simp only [hloop]

/-- writing back the crossed ticks always works -/
theorem updateTicks_total {key : PoolKey} : ∀ (l : List Tick) (m : Map (PoolKey × Int) Tick),
    (∀ t ∈ l, ∃ q, m.get (key, t.index) = some q) → ∃ m', updateTicks key l m = .ok m' := by
  intro l
  induction l with
  | nil => intro m _; exact ⟨m, rfl⟩
  | cons t l ih =>
    intro m h
    obtain ⟨q, hq⟩ := h t List.mem_cons_self
    obtain ⟨m', hm'⟩ := ih (m.insert (key, t.index) t) (by
      intro u hu
      obtain ⟨q', hq'⟩ := h u (List.mem_cons_of_mem _ hu)
      rw [Map.get_insert]
      split
      · exact ⟨_, rfl⟩
      · exact ⟨q', hq'⟩)
    refine ⟨m', ?_⟩
    simp only [updateTicks, bind_ok_iff, ticksUpdate_ok]
    exact ⟨_, ⟨⟨q, hq⟩, rfl⟩, hm'⟩

end Verif
