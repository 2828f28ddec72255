import Verif.Proofs.TickInv
import Verif.Proofs.Positions
import Verif.Spec.Book

/-! # Ticks and positions: the liquidity ledger -/

namespace Verif
open Service Spec

variable {env : Env} {s s' : Inv}

/-! ### sums over positions -/

section sums
variable {R : Type} [AddCommMonoid R]

def posSum (ps : Positions) (g : Position → R) : R := ps.map.sum fun _ p => g p

theorem posSum_add {ps : Positions} {L : Lists} (h : PosRepr ps L) (a : ActorId) (p : Position)
    (g : Position → R) : posSum (ps.add a p) g = g p + posSum ps g := by
  unfold posSum Positions.add
  dsimp only
  rw [Map.sum_insert_none]
  rw [(h a).2, (h a).1]
  simp

theorem posSum_remove {ps ps' : Positions} {L : Lists} (h : PosRepr ps L) {a : ActorId} {i : Nat}
    (hl : (L a).length < 2 ^ 32) {p : Position} (hr : ps.remove a i = .ok (ps', p))
    (g : Position → R) : posSum ps g = g p + posSum ps' g := by
  have hg := posGet_ok.1 (remove_get hr)
  simp only [Positions.remove, bind_ok_iff, pure_ok_iff] at hr
  obtain ⟨q, h1, ps1, h2, e⟩ := hr
  cases e
  have hi : i < (L a).length := by
    rw [(h a).2] at hg
    by_contra hc
    rw [List.getElem?_eq_none (by omega)] at hg; cases hg
  rw [(h a).1, u32Pred_eq (Nat.lt_of_le_of_lt (Nat.zero_le i) hi) hl] at h2
  unfold Positions.removeAt at h2
  simp only [bind_ok_iff, pure_ok_iff] at h2
  obtain ⟨m, h3, rfl⟩ := h2
  unfold posSum
  dsimp only
  split at h3
  · next hlt =>
    simp only [bind_ok_iff, okOr_ok_iff, pure_ok_iff] at h3
    obtain ⟨last, h4, rfl⟩ := h3
    have hg' : (ps.map.erase (a, (L a).length - 1)).get (a, i) = some p := by
      rw [Map.get_erase, if_neg (by simp; omega)]; exact hg
    rw [Map.sum_insert, Map.sum_erase_some h4, Map.sum_erase_some hg']
    exact add_left_comm _ _ _
  · rw [pure_ok_iff] at h3
    subst h3
    exact Map.sum_erase_some hg _

theorem posSum_update {ps ps' : Positions} {a : ActorId} {i : Nat} {p q : Position}
    (hg : ps.get a i = .ok p) (hu : ps.update a i q = .ok ps') (g : Position → R) :
    posSum ps' g + g p = posSum ps g + g q := by
  have hg := posGet_ok.1 hg
  unfold Positions.update at hu
  split at hu
  · cases hu
  · cases hu
    unfold posSum
    dsimp only
    rw [Map.sum_insert, Map.sum_erase_some hg]
    abel

end sums

/-- the collection is a family of lists -/
def PosListed (s : Inv) : Prop := ∃ L, PosRepr s.positions L

theorem listed_len {ps : Positions} {L : Lists} (h : PosRepr ps L) (a : ActorId) :
    (L a).length = ps.getLength a := (h a).1.symm

/-! ### histories with few positions -/

theorem reach32_reach : ∀ s, Reach32 s → Reach s ∧ FewPositions s := by
  intro s h
  induction h with
  | init a f => exact ⟨.init a f, fun a => by simp [Inv.init, Positions.getLength]⟩
  | call _ h hf ih => exact ⟨.call ih.1 h, hf⟩
  | transfers _ hb ih => exact ⟨.transfers ih.1 hb, ih.2⟩

theorem swap_positions {key : PoolKey} {d byIn : Bool} {a l : Nat} {r : Inv × CalculateSwapResult}
    (h : swap env s key d a byIn l = .ok r) : r.1.positions = s.positions := by
  obtain ⟨ticks, b1, b2, h1, h2, h3, h4, e⟩ := swap_ok h
  rw [e]

theorem reach32_ind {I : Inv → Prop} (hinit : ∀ a f, I (Inv.init a f))
    (htr : ∀ s b aw, I s → I { s with balances := b, awaiting := aw })
    (heff : ∀ env s s', Reach s → FewPositions s → I s → Effect env s s' → I s') :
    ∀ s, Reach32 s → I s := by
  intro s h
  induction h with
  | init a f => exact hinit a f
  | transfers _ _ ih => exact htr _ _ _ ih
  | @call s s' env c hr h hf ih =>
    obtain ⟨hr, hf0⟩ := reach32_reach _ hr
    by_cases hc : ∃ a e sl hp, c = .swapRoute a e sl hp
    · obtain ⟨a, e, sl, hp, rfl⟩ := hc
      simp only [step, bind_ok_iff, pure_ok_iff] at h
      obtain ⟨r, h, rfl⟩ := h
      refine (route_induction (env := env)
        (R := fun s s' => Reach s ∧ FewPositions s ∧ I s → Reach s' ∧ FewPositions s' ∧ I s')
        (fun _ => id) (fun _ _ _ f g => g ∘ f) ?_ hp s a r (swapRoute_ok h).1 ⟨hr, hf0, ih⟩).2.2
      intro s key d a l r hsw ⟨hr, hf0, hI⟩
      refine ⟨?_, ?_, heff env s r.1 hr hf0 hI (.swap hsw trivial)⟩
      · refine .call (env := env) (c := .swap key d a true l) hr ?_
        simp only [step, bind_ok_iff, pure_ok_iff]
        exact ⟨r, hsw, rfl⟩
      · intro b
        rw [swap_positions hsw]
        exact hf0 b
    · push Not at hc
      exact heff env s s' hr hf0 ih (step_effect hc h)

theorem listed_step (hr : Reach s) (hf : FewPositions s) (hI : PosListed s)
    (he : Effect env s s') : PosListed s' := by
  obtain ⟨L, hL⟩ := hI
  have len : ∀ a, (L a).length + 1 < 2 ^ 32 := fun a => by rw [listed_len hL]; exact hf a
  cases he with
  | other => exact ⟨L, hL⟩
  | newPool => exact ⟨L, hL⟩
  | poolField => exact ⟨L, hL⟩
  | create h =>
    obtain ⟨pool, lt, ut, m, b, tm1, tm2, h, _⟩ := createPosition_full (reach_wf s hr).indexed h
    rw [h.res]
    exact ⟨_, posRepr_add hL (len _) _⟩
  | remove h =>
    obtain ⟨p, lower, upper, pool, m, ps, b, tm1, tm2, h, _⟩ :=
      removePosition_full (reach_wf s hr).indexed h
    rw [h.res]
    have hg := posGet_ok.1 h.get
    rw [(hL _).2] at hg
    obtain ⟨ps', e, hps⟩ := (posRepr_remove hL (by have := len env.caller; omega) _).1 _ hg
    rw [h.rem] at e
    cases e
    exact ⟨_, hps⟩
  | @claim i _ h =>
    obtain ⟨p, lower, upper, pool, m, ps, b, h, _⟩ := claimFee_full (reach_wf s hr).indexed h
    rw [h.res]
    have hg := posGet_ok.1 h.get
    rw [(hL _).2] at hg
    have hi : i < (L env.caller).length := by
      by_contra hc
      rw [List.getElem?_eq_none (by omega)] at hg; cases hg
    obtain ⟨ps', e, hps⟩ := (posRepr_update hL env.caller i _).1 hi
    rw [h.upd] at e
    cases e
    exact ⟨_, hps⟩
  | @transfer i dest ps p h =>
    have hg := posGet_ok.1 (remove_get h)
    rw [(hL _).2] at hg
    obtain ⟨ps', e, hps⟩ := (posRepr_remove hL (by have := len env.caller; omega) _).1 _ hg
    rw [h] at e
    cases e
    have hi : i < (L env.caller).length := by
      by_contra hc
      rw [List.getElem?_eq_none (by omega)] at hg; cases hg
    refine ⟨_, posRepr_add hps ?_ p⟩
    by_cases hd : dest = env.caller
    · subst hd
      rw [put_same]
      have := swapRemove_length (l := L env.caller) i (by rintro e; rw [e] at hi; simp at hi)
      have := len env.caller
      omega
    · rw [put_other _ _ hd]; exact len dest
  | swap h => unfold PosListed; rw [swap_positions h]; exact ⟨L, hL⟩

theorem reach32_listed : ∀ s, Reach32 s → PosListed s := by
  refine reach32_ind ?_ ?_ ?_
  · intro a f; exact ⟨_, posRepr_empty⟩
  · intro s b aw h; exact h
  · intro env s s' hr hf hI he; exact listed_step hr hf hI he

/-! ### contributions -/

/-- contribution of a position to the gross liquidity of a tick -/
def gC (key : PoolKey) (i : Int) (p : Position) : Nat :=
  if p.poolKey = key ∧ (p.lowerTickIndex = i ∨ p.upperTickIndex = i) then p.liquidity else 0

/-- contribution of a position to the net liquidity of a tick -/
def nC (key : PoolKey) (i : Int) (p : Position) : Int :=
  if p.poolKey = key then
    (if p.lowerTickIndex = i then (p.liquidity : Int) else 0) -
      (if p.upperTickIndex = i then (p.liquidity : Int) else 0)
  else 0

/-- contribution of a position to the active liquidity at a tick -/
def aC (key : PoolKey) (t : Int) (p : Position) : Nat :=
  if p.poolKey = key ∧ p.lowerTickIndex ≤ t ∧ t < p.upperTickIndex then p.liquidity else 0

theorem grossLiq_eq (s : Inv) (key : PoolKey) (i : Int) :
    grossLiq s key i = posSum s.positions (gC key i) := rfl
theorem netOf_eq (s : Inv) (key : PoolKey) (i : Int) :
    netOfPositions s key i = posSum s.positions (nC key i) := rfl
theorem activeLiq_eq (s : Inv) (key : PoolKey) (i : Int) :
    activeLiq s key i = posSum s.positions (aC key i) := rfl

/-- gross liquidity stored for a tick -/
def tG (m : Map (PoolKey × Int) Tick) (key : PoolKey) (i : Int) : Nat :=
  match m.get (key, i) with
  | some t => t.liquidityGross
  | none => 0

/-- net liquidity stored for a tick -/
def tN (m : Map (PoolKey × Int) Tick) (key : PoolKey) (i : Int) : Int :=
  match m.get (key, i) with
  | some t => t.net
  | none => 0

theorem tG_some {m : Map (PoolKey × Int) Tick} {key : PoolKey} {i : Int} {t : Tick}
    (h : m.get (key, i) = some t) : tG m key i = t.liquidityGross := by unfold tG; rw [h]
theorem tN_some {m : Map (PoolKey × Int) Tick} {key : PoolKey} {i : Int} {t : Tick}
    (h : m.get (key, i) = some t) : tN m key i = t.net := by unfold tN; rw [h]
theorem tG_none {m : Map (PoolKey × Int) Tick} {key : PoolKey} {i : Int}
    (h : m.get (key, i) = none) : tG m key i = 0 := by unfold tG; rw [h]
theorem tN_none {m : Map (PoolKey × Int) Tick} {key : PoolKey} {i : Int}
    (h : m.get (key, i) = none) : tN m key i = 0 := by unfold tN; rw [h]
theorem tG_congr {m m' : Map (PoolKey × Int) Tick} {key : PoolKey} {i : Int}
    (h : m'.get (key, i) = m.get (key, i)) : tG m' key i = tG m key i := by unfold tG; rw [h]
theorem tN_congr {m m' : Map (PoolKey × Int) Tick} {key : PoolKey} {i : Int}
    (h : m'.get (key, i) = m.get (key, i)) : tN m' key i = tN m key i := by unfold tN; rw [h]

theorem getOrCreate_tG {now : Nat} {key : PoolKey} {i : Int} {r : Tick × Bool}
    (h : getOrCreateTick s now key i = .ok r) :
    tG s.ticks key i = r.1.liquidityGross ∧ tN s.ticks key i = r.1.net := by
  rcases getOrCreateTick_ok.1 h with ⟨t, ht, rfl⟩ | ⟨ht, t, hc, rfl⟩
  · exact ⟨tG_some ht, tN_some ht⟩
  · obtain ⟨_, _, _, _, _, h1, h2, h3, _⟩ := createTick_ok hc
    refine ⟨by rw [tG_none ht]; exact h3.symm, by rw [tN_none ht]; unfold Tick.net; rw [h1, h2]; simp⟩

/-- creating a position adds its contribution to the ticks -/
theorem create_ticks {key : PoolKey} {lower upper : Int} {delta : Nat} {pool : Pool}
    {lt ut : Tick × Bool} {m : ModifyResult} {b : Balances} {tm1 tm2 : Tickmap}
    (h : CreateEff env s key lower upper delta pool lt ut m b tm1 tm2 s') (k : PoolKey) (i : Int) :
    tG s'.ticks k i = tG s.ticks k i + gC k i m.position ∧
    tN s'.ticks k i = tN s.ticks k i + nC k i m.position := by
  have hm := h.mod
  obtain ⟨l1, l2⟩ := getOrCreate_tG h.hlt
  obtain ⟨u1, u2⟩ := getOrCreate_tG h.hut
  have e := hm.pos.eq
  have e1 : m.position.lowerTickIndex = lower := by rw [e]
  have e2 : m.position.upperTickIndex = upper := by rw [e]
  have e3 : m.position.poolKey = key := by rw [e]
  have e4 : m.position.liquidity = delta := by have := (hm.pos.add rfl).1; simpa using this
  have hget : s'.ticks.get (k, i) = if k = key ∧ i = upper then some m.upper else
      if k = key ∧ i = lower then some m.lower else s.ticks.get (k, i) := by
    rw [h.res]
    dsimp only
    rw [Map.get_insert, Map.get_insert]
    simp only [Prod.mk.injEq]
  have hne := h.ne
  have g1 := (hm.lower.dep rfl).1
  have g2 := (hm.upper.dep rfl).1
  have n1 := hm.lower.net
  have n2 := hm.upper.net
  simp only [Bool.xor_false, Bool.xor_true, Bool.not_true, if_true, Bool.false_eq_true, if_false] at n1 n2
  unfold gC nC
  rw [e1, e2, e3, e4]
  by_cases hk : k = key
  · subst hk
    by_cases hi : i = upper
    · subst hi
      rw [if_pos ⟨rfl, rfl⟩] at hget
      rw [tG_some hget, tN_some hget, u1, u2, if_pos ⟨rfl, .inr rfl⟩, if_pos rfl, if_neg hne, if_pos rfl]
      constructor
      · omega
      · omega
    · rw [if_neg (fun e => hi e.2)] at hget
      by_cases hi2 : i = lower
      · subst hi2
        rw [if_pos ⟨rfl, rfl⟩] at hget
        rw [tG_some hget, tN_some hget, l1, l2, if_pos ⟨rfl, .inl rfl⟩, if_pos rfl, if_pos rfl,
          if_neg (Ne.symm hi)]
        constructor
        · omega
        · omega
      · rw [if_neg (fun e => hi2 e.2)] at hget
        rw [tG_congr hget, tN_congr hget, if_neg (by rintro ⟨_, h | h⟩ <;> [exact hi2 h.symm; exact hi h.symm]), if_pos rfl,
          if_neg (Ne.symm hi2), if_neg (Ne.symm hi)]
        simp
  · rw [if_neg (fun e => hk e.1), if_neg (fun e => hk e.1)] at hget
    rw [tG_congr hget, tN_congr hget, if_neg (fun e => hk e.1.symm), if_neg (fun e => hk e.symm)]
    simp

/-- removing a position takes its contribution away -/
theorem remove_ticks {index : Nat} {p : Position} {lower upper : Tick} {pool : Pool}
    {m : ModifyResult} {ps : Positions} {b : Balances} {tm1 tm2 : Tickmap} (hne : p.lowerTickIndex ≠ p.upperTickIndex)
    (h : RemoveEff env s index p lower upper pool m ps b tm1 tm2 s') (k : PoolKey) (i : Int) :
    tG s.ticks k i = tG s'.ticks k i + gC k i p ∧
    (s'.ticks.get (k, i) = none ∨ tN s.ticks k i = tN s'.ticks k i + nC k i p) := by
  have hm := h.mod
  have hget : s'.ticks.get (k, i) =
      if k = p.poolKey ∧ i = p.upperTickIndex then
        (if m.upper.liquidityGross = 0 then none else some m.upper)
      else if k = p.poolKey ∧ i = p.lowerTickIndex then
        (if m.lower.liquidityGross = 0 then none else some m.lower)
      else s.ticks.get (k, i) := by
    rw [h.res]
    dsimp only
    rw [get_eraseIf, get_eraseIf]
    simp only [Prod.mk.injEq]
  have g1 := hm.lower.wdr rfl
  have g2 := hm.upper.wdr rfl
  have n1 := hm.lower.net
  have n2 := hm.upper.net
  simp only [Bool.xor_false, Bool.xor_true, Bool.not_false, if_true, Bool.false_eq_true, if_false] at n1 n2
  by_cases hk : k = p.poolKey
  · subst hk
    by_cases hi : i = p.upperTickIndex
    · subst hi
      rw [if_pos ⟨rfl, rfl⟩] at hget
      have hG : tG s'.ticks p.poolKey p.upperTickIndex = m.upper.liquidityGross := by
        split at hget
        · next h0 => rw [tG_none hget, h0]
        · exact tG_some hget
      refine ⟨?_, ?_⟩
      · rw [hG, tG_some h.hut]
        unfold gC
        rw [if_pos ⟨rfl, .inr rfl⟩]
        exact g2
      · split at hget
        · next h0 =>
          exact .inl hget
        · right
          rw [tN_some hget, tN_some h.hut]
          unfold nC
          rw [if_pos rfl, if_neg hne, if_pos rfl]
          omega
    · rw [if_neg (fun e => hi e.2)] at hget
      by_cases hi2 : i = p.lowerTickIndex
      · subst hi2
        rw [if_pos ⟨rfl, rfl⟩] at hget
        have hG : tG s'.ticks p.poolKey p.lowerTickIndex = m.lower.liquidityGross := by
          split at hget
          · next h0 => rw [tG_none hget, h0]
          · exact tG_some hget
        refine ⟨?_, ?_⟩
        · rw [hG, tG_some h.hlt]
          unfold gC
          rw [if_pos ⟨rfl, .inl rfl⟩]
          exact g1
        · split at hget
          · next h0 =>
            exact .inl hget
          · right
            rw [tN_some hget, tN_some h.hlt]
            unfold nC
            rw [if_pos rfl, if_pos rfl, if_neg hne.symm]
            omega
      · rw [if_neg (fun e => hi2 e.2)] at hget
        rw [tG_congr hget, tN_congr hget]
        unfold gC nC
        rw [if_neg (by rintro ⟨_, h | h⟩ <;> [exact hi2 h.symm; exact hi h.symm]), if_pos rfl,
          if_neg (Ne.symm hi2), if_neg (Ne.symm hi)]
        simp
  · rw [if_neg (fun e => hk e.1), if_neg (fun e => hk e.1)] at hget
    rw [tG_congr hget, tN_congr hget]
    unfold gC nC
    rw [if_neg (fun e => hk e.1.symm), if_neg (fun e => hk e.symm)]
    simp

/-- collecting fees leaves the ticks' liquidities alone -/
theorem claim_ticks {index : Nat} {p : Position} {lower upper : Tick} {pool : Pool}
    {m : ModifyResult} {ps : Positions} {b : Balances}
    (h : ClaimEff env s index p lower upper pool m ps b s') (k : PoolKey) (i : Int) :
    tG s'.ticks k i = tG s.ticks k i ∧ tN s'.ticks k i = tN s.ticks k i := by
  have hm := h.mod
  have hget : s'.ticks.get (k, i) = if k = p.poolKey ∧ i = p.lowerTickIndex then some m.lower else
      if k = p.poolKey ∧ i = p.upperTickIndex then some m.upper else s.ticks.get (k, i) := by
    rw [h.res]
    dsimp only
    rw [Map.get_insert, Map.get_insert]
    simp only [Prod.mk.injEq]
  have g1 := (hm.lower.dep rfl).1
  have g2 := (hm.upper.dep rfl).1
  have n1 := hm.lower.net
  have n2 := hm.upper.net
  simp only [Bool.xor_false, Bool.xor_true, Bool.not_true, if_true, Bool.false_eq_true, if_false] at n1 n2
  split at hget
  · next e =>
    obtain ⟨rfl, rfl⟩ := e
    rw [tG_some hget, tN_some hget, tG_some h.hlt, tN_some h.hlt]
    constructor <;> omega
  · split at hget
    · next e =>
      obtain ⟨rfl, rfl⟩ := e
      rw [tG_some hget, tN_some hget, tG_some h.hut, tN_some h.hut]
      constructor <;> omega
    · exact ⟨tG_congr hget, tN_congr hget⟩

/-- swaps leave the ticks' liquidities alone -/
theorem same_ticks {m m' : Map (PoolKey × Int) Tick} (h : TicksSame m m') (k : PoolKey) (i : Int) :
    tG m' k i = tG m k i ∧ tN m' k i = tN m k i := by
  rcases h (k, i) with ⟨h1, h2⟩ | ⟨t, t', h1, h2, h3⟩
  · rw [tG_none h1, tN_none h1, tG_none h2, tN_none h2]; exact ⟨rfl, rfl⟩
  · rw [tG_some h1, tN_some h1, tG_some h2, tN_some h2]
    refine ⟨h3.gross, ?_⟩
    unfold Tick.net
    rw [h3.sign, h3.change]

/-! ### the ledger invariant -/

structure LedgerInv (s : Inv) : Prop where
  gross : ∀ key i, tG s.ticks key i = grossLiq s key i
  net : ∀ key i, tN s.ticks key i = netOfPositions s key i

theorem nC_abs (key : PoolKey) (i : Int) (p : Position) (h : p.lowerTickIndex ≠ p.upperTickIndex) :
    (nC key i p).natAbs = gC key i p := by
  unfold nC gC
  by_cases h1 : p.poolKey = key
  · by_cases h2 : p.lowerTickIndex = i
    · have : ¬ p.upperTickIndex = i := fun e => h (h2.trans e.symm)
      simp [h1, h2, this]
    · by_cases h3 : p.upperTickIndex = i <;> simp [h1, h2, h3]
  · simp [h1]

/-- without gross liquidity there is no net liquidity -/
theorem net_of_gross_zero (hw : StoreWF s) {key : PoolKey} {i : Int} (h : grossLiq s key i = 0) :
    netOfPositions s key i = 0 := by
  have : ∀ k p, s.positions.map.get k = some p → nC key i p = 0 := by
    intro k p hp
    have hne := ne_of_lt (hw.pos k p hp).1.lt
    have h1 : gC key i p ≤ posSum s.positions (gC key i) :=
      Map.le_sum (f := fun _ p => gC key i p) (fun _ _ _ => Nat.zero_le _) hp
    rw [← grossLiq_eq, h] at h1
    have h2 := nC_abs key i p hne
    omega
  rw [netOf_eq]
  unfold posSum
  rw [Map.sum_congr (g := fun _ _ => (0 : Int)) this]
  simp

theorem posSum_same {R : Type} [AddCommMonoid R] [IsRightCancelAdd R] {ps ps' : Positions} {a : ActorId}
    {i : Nat} {p q : Position} (hg : ps.get a i = .ok p) (hu : ps.update a i q = .ok ps')
    (g : Position → R) (h : g q = g p) : posSum ps' g = posSum ps g := by
  have := posSum_update hg hu g
  rw [h] at this
  exact add_right_cancel this

theorem ledger_step (hr : Reach s) (hr' : StoreWF s') (hf : FewPositions s) (hl : PosListed s)
    (hI : LedgerInv s) (he : Effect env s s') : LedgerInv s' := by
  obtain ⟨L, hL⟩ := hl
  have len : ∀ a, (L a).length < 2 ^ 32 := fun a => by
    rw [listed_len hL]; exact Nat.lt_of_succ_lt (hf a)
  have hw := reach_wf s hr
  cases he with
  | other => exact ⟨hI.1, hI.2⟩
  | newPool => exact ⟨hI.1, hI.2⟩
  | poolField => exact ⟨hI.1, hI.2⟩
  | @create _ _ _ _ _ _ r h =>
    obtain ⟨pool, lt, ut, m, b, tm1, tm2, h, _⟩ := createPosition_full hw.indexed h
    have e : r.1.positions = s.positions.add env.caller m.position := by rw [h.res]
    constructor
    · intro k i
      rw [(create_ticks h k i).1, hI.1, grossLiq_eq, grossLiq_eq, e, posSum_add hL, add_comm]
    · intro k i
      rw [(create_ticks h k i).2, hI.2, netOf_eq, netOf_eq, e, posSum_add hL, add_comm]
  | @remove _ r h =>
    obtain ⟨p, lower, upper, pool, m, ps, b, tm1, tm2, h, _⟩ := removePosition_full hw.indexed h
    have hp := hw.pos _ _ (posGet_ok.1 h.get)
    have ht := remove_ticks (ne_of_lt hp.1.lt) h
    have e : r.1.positions = ps := by rw [h.res]
    have hg : ∀ key i, tG r.1.ticks key i = grossLiq r.1 key i := by
      intro k i
      have h1 := (ht k i).1
      rw [hI.1, grossLiq_eq, posSum_remove hL (len _) h.rem, ← e, ← grossLiq_eq] at h1
      omega
    refine ⟨hg, ?_⟩
    intro k i
    rcases (ht k i).2 with h1 | h1
    · have := hg k i
      rw [tG_none h1] at this
      rw [tN_none h1, net_of_gross_zero hr' this.symm]
    · rw [hI.2, netOf_eq, posSum_remove hL (len _) h.rem, ← e, ← netOf_eq] at h1
      omega
  | @claim _ r h =>
    obtain ⟨p, lower, upper, pool, m, ps, b, h, _⟩ := claimFee_full hw.indexed h
    have ep := h.mod.pos.eq
    have e1 : m.position.lowerTickIndex = p.lowerTickIndex := by rw [ep]
    have e2 : m.position.upperTickIndex = p.upperTickIndex := by rw [ep]
    have e3 : m.position.poolKey = p.poolKey := by rw [ep]
    have e4 : m.position.liquidity = p.liquidity := (h.mod.pos.add rfl).1
    have e : r.1.positions = ps := by rw [h.res]
    constructor
    · intro k i
      rw [(claim_ticks h k i).1, hI.1, grossLiq_eq, grossLiq_eq, e, posSum_same h.get h.upd]
      unfold gC; rw [e1, e2, e3, e4]
    · intro k i
      rw [(claim_ticks h k i).2, hI.2, netOf_eq, netOf_eq, e, posSum_same h.get h.upd]
      unfold nC; rw [e1, e2, e3, e4]
  | @transfer i dest ps p h =>
    have hg := posGet_ok.1 (remove_get h)
    rw [(hL _).2] at hg
    obtain ⟨ps', e, hps⟩ := (posRepr_remove hL (len env.caller) _).1 _ hg
    rw [h] at e
    cases e
    have he : ∀ {R : Type} [AddCommMonoid R] (g : Position → R),
        posSum (ps.add dest p) g = posSum s.positions g := fun g => by
      rw [posSum_add hps, posSum_remove hL (len _) h]
    constructor
    · intro k i; rw [grossLiq_eq]; dsimp only; rw [he]; exact hI.1 k i
    · intro k i; rw [netOf_eq]; dsimp only; rw [he]; exact hI.2 k i
  | swap h =>
    have e := swap_positions h
    have ht := same_ticks (swap_ticksSame hw.indexed h)
    constructor
    · intro k i; rw [(ht k i).1, grossLiq_eq, e]; exact hI.1 k i
    · intro k i; rw [(ht k i).2, netOf_eq, e]; exact hI.2 k i

theorem reach32_ledger : ∀ s, Reach32 s → LedgerInv s := by
  intro s hs
  have H : ∀ s, Reach32 s → PosListed s ∧ LedgerInv s := by
    refine reach32_ind ?_ ?_ ?_
    · intro a f
      refine ⟨⟨_, posRepr_empty⟩, ?_, ?_⟩
      · intro key i; rfl
      · intro key i; rfl
    · intro s b aw h; exact ⟨h.1, h.2.1, h.2.2⟩
    · intro env s s' hr hf hI he
      exact ⟨listed_step hr hf hI.1 he, ledger_step hr (effect_wf hr (reach_wf _ hr) he) hf hI.1 hI.2 he⟩
  exact (H s hs).2

end Verif
