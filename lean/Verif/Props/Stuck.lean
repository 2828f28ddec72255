import Verif.Proofs.Metered
import Verif.Props.Solvent

/-!
# Property C108: no tokens get stuck: what the program holds is owed to somebody, but for the roundings

The counterpart of C37: there the program holds what it owes, here it owes what it holds. False of the code
(`C108_negation`): after a swap that ended exactly at a tick, half of what the next trader pays belongs to nobody. Here:
over histories of calm swaps (`Calm`).
-/

namespace Verif
open Service Spec

/-- C108 for histories whose swaps do not end near an initialised tick (`Near`), and in which the growth of the fees of no position turns over (full statement: for all histories; refuted by
`C108_negation`): the balances, the fees of the protocol and what the positions have make up what the program holds in
every token, up to three units a call, two units and two roundings of the fee growth a round of a swap, one unit of
the price where its output is given, and 5·10^-15 parts of what has moved between the balances and the pools. -/
theorem C108_stuck_partial {s : Inv} {held : ActorId → Nat} {lost : ActorId → ℚ} (h : Metered Calm s held lost)
    (t : ActorId) : held t ≤ claims s t + lost t := by
  rw [claims_eq (clear_reach32 _ (metered_clear h))]
  exact metered_owed h t

section
variable {ok : SwapRule} {env : Env} {s : Inv} {held : ActorId → Nat} {lost : ActorId → ℚ} {t : ActorId}

theorem moved_le_one {s' : Inv} (h : totalBal s' t ≤ totalBal s t + 2 * 10 ^ 14 ∧ totalBal s t ≤ totalBal s' t + 2 * 10 ^ 14) :
    moved s s' t ≤ 1 := by
  unfold moved
  rw [div_le_one (by positivity), abs_le]
  have h1 : (totalBal s' t : ℚ) ≤ totalBal s t + 2 * 10 ^ 14 := by exact_mod_cast h.1
  have h2 : (totalBal s t : ℚ) ≤ totalBal s' t + 2 * 10 ^ 14 := by exact_mod_cast h.2
  constructor <;> linarith

theorem metered_run (h : Metered ok s held lost) {c : Call}
    (hc : (∀ k d a b l, c ≠ .swap k d a b l) ∧ (∀ a e sl h, c ≠ .swapRoute a e sl h) ∧ NoVara c)
    (hf : (run env s c).positions.length.entries.all (fun e => decide (e.2 + 1 < 2 ^ 32)) = true)
    (hB : totalBal (run env s c) t ≤ totalBal s t + 2 * 10 ^ 14 ∧ totalBal s t ≤ totalBal (run env s c) t + 2 * 10 ^ 14) :
    ∃ lost', Metered ok (run env s c) held lost' ∧ lost' t ≤ lost t + 4 := by
  have hf := few_of_all hf
  have hm := moved_le_one hB
  unfold run at hf hm ⊢
  split
  · next s' hs =>
    rw [hs] at hf hm
    refine ⟨_, .call h hc hs hf, ?_⟩
    change lost t + 3 + moved s s' t ≤ lost t + 4
    have hm : moved s s' t ≤ 1 := hm
    linarith
  · exact ⟨_, h, by linarith⟩

theorem metered_swap (h : Metered ok s held lost) {key : PoolKey} {xToY byIn : Bool} {amount limit R : Nat} {pool : Pool}
    {r : Inv × CalculateSwapResult} (hp : s.pools.get key = some pool)
    (hs : Service.swap env s key xToY amount byIn limit = .ok r) (hok : ok s key xToY byIn limit r.2)
    (hre : Reach s) (hby : byIn = true) (hR : rounds pool r.2 key.feeTier.tickSpacing ≤ R) (hL : poolLiq s key ≤ 10 ^ 29)
    (hB : totalBal r.1 t ≤ totalBal s t + 2 * 10 ^ 14 ∧ totalBal s t ≤ totalBal r.1 t + 2 * 10 ^ 14) :
    ∃ lost', Metered ok r.1 held lost' ∧ lost' t ≤ lost t + 1 + 4 * R := by
  obtain ⟨ticks, b1, b2, h1, _⟩ := swap_ok hs
  obtain ⟨⟨hs1, hs2, _⟩, _⟩ := (reach_tiers hre).pools key (by rw [hp]; rfl)
  obtain ⟨n, hn, hle⟩ := swap_took (reach_wf _ hre) ⟨hs1, hs2⟩ h1 hp (swap_side0 hre h1 hp)
  refine ⟨_, .swap h hp hs hok hn, ?_⟩
  have hm := moved_le_one hB
  have : shaved s key pool xToY byIn n t ≤ 4 * R := by
    unfold shaved
    have hR : (n : ℚ) ≤ R := by exact_mod_cast le_trans (hle (.inl hby)) hR
    have hL : (poolLiq s key : ℚ) / 10 ^ 33 ≤ 1 := by
      rw [div_le_one (by positivity)]
      exact_mod_cast le_trans hL (by norm_num)
    rw [if_pos hby, add_zero]
    split
    · calc 2 * (n : ℚ) * (1 + (poolLiq s key : ℚ) / 10 ^ 33)
          ≤ 2 * R * 2 := mul_le_mul (by linarith) (by linarith) (by positivity) (by positivity)
        _ = 4 * R := by ring
    · positivity
  linarith

theorem reach_swap {key : PoolKey} {xToY byIn : Bool} {amount limit : Nat} {r : Inv × CalculateSwapResult}
    (hre : Reach s) (h : Service.swap env s key xToY amount byIn limit = .ok r) : Reach r.1 := by
  refine .call (env := env) (c := .swap key xToY amount byIn limit) hre ?_
  unfold step
  dsimp only
  rw [h]
  rfl

theorem metered_credited (h : Metered ok s held lost) (t a : ActorId) (n : Nat)
    (hi : (increaseTokenBalance s.balances t a n).toOption.isSome = true) :
    Metered ok (Exploit.credited s t a n) (fun u => if u = t then held u + n else held u) lost := by
  unfold Exploit.credited
  split
  · next b hb => exact .deposit (aw := s.awaiting) h hb
  · next e hb => rw [hb] at hi; cases hi

end

theorem demo_funded_metered : Metered Calm Demo.funded demoHeld (fun _ => 0) := by
  have h0 : Metered Calm (Inv.init 1 (10 ^ 11)) (fun _ => 0) (fun _ => 0) := .init _ _
  have step : ∀ {s : Inv} {held : ActorId → Nat} {b : Balances} (t a : ActorId), Metered Calm s held (fun _ => 0) →
      s.awaiting = ∅ → increaseTokenBalance s.balances t a (10 ^ 20) = .ok b →
      Metered Calm { s with balances := b, awaiting := ∅ } (fun u => if u = t then held u + 10 ^ 20 else held u)
        (fun _ => 0) :=
    fun t a h _ hi => .deposit h hi
  have h1 := step (b := (∅ : Balances).insert (2, 5) (10 ^ 20)) 5 2 h0 rfl (increase_new (by decide +kernel) (by norm_num) (by norm_num))
  have h2 := step (b := ((∅ : Balances).insert (2, 5) (10 ^ 20)).insert (2, 7) (10 ^ 20)) 7 2 h1 rfl (increase_new (by decide +kernel) (by norm_num) (by norm_num))
  have h3 := step (b := (((∅ : Balances).insert (2, 5) (10 ^ 20)).insert (2, 7) (10 ^ 20)).insert
    (3, 5) (10 ^ 20)) 5 3 h2 rfl (increase_new (by decide +kernel) (by norm_num) (by norm_num))
  have h4 := step (b := ((((∅ : Balances).insert (2, 5) (10 ^ 20)).insert (2, 7) (10 ^ 20)).insert
    (3, 5) (10 ^ 20)).insert (3, 7) (10 ^ 20)) 7 3 h3 rfl (increase_new (by decide +kernel) (by norm_num) (by norm_num))
  have h5 : Metered Calm Demo.funded _ (fun _ => 0) := h4
  refine Eq.mp (congrArg (fun f => Metered Calm Demo.funded f (fun _ => 0)) ?_) h5
  funext u
  unfold demoHeld
  by_cases h5 : u = 5
  · subst h5; simp
  · by_cases h7 : u = 7
    · subst h7; simp
    · simp [h5, h7]

theorem demo_start_metered : ∃ lost, Metered Calm Demo.start demoHeld lost ∧ lost 5 ≤ 28 := by
  obtain ⟨l1, h1, e1⟩ := metered_run (c := .addFeeTier Demo.tier) (env := Demo.by_ 1) (t := 5) demo_funded_metered
    (by simp [NoVara]) (by decide +kernel) (by decide +kernel)
  obtain ⟨l2, h2, e2⟩ := metered_run (c := .addFeeTier Demo.tier2) (env := Demo.by_ 1) (t := 5) h1
    (by simp [NoVara]) (by decide +kernel) (by decide +kernel)
  obtain ⟨l3, h3, e3⟩ := metered_run (c := .createPool 7 5 Demo.tier (10 ^ 24) 0) (env := Demo.by_ 2) (t := 5) h2
    (by simp [NoVara]) (by decide +kernel) (by decide +kernel)
  obtain ⟨l4, h4, e4⟩ := metered_run (c := .createPool 5 7 Demo.tier2 (10 ^ 24) 0) (env := Demo.by_ 2) (t := 5) h3
    (by simp [NoVara]) (by decide +kernel) (by decide +kernel)
  obtain ⟨l5, h5, e5⟩ := metered_run (c := .createPosition Demo.key (-20) 20 (10 ^ 15) (10 ^ 24) (10 ^ 24))
    (env := Demo.by_ 2) (t := 5) h4 (by simp [NoVara]) (by decide +kernel) (by decide +kernel)
  obtain ⟨l6, h6, e6⟩ := metered_run (c := .createPosition Demo.key (-10) 10 (3 * 10 ^ 15) 0 (10 ^ 25))
    (env := Demo.by_ 3) (t := 5) h5 (by simp [NoVara]) (by decide +kernel) (by decide +kernel)
  obtain ⟨l7, h7, e7⟩ := metered_run (c := .createPosition Demo.key2 (-100) 100 (10 ^ 16) 0 (10 ^ 25))
    (env := Demo.by_ 3) (t := 5) h6 (by simp [NoVara]) (by decide +kernel) (by decide +kernel)
  refine ⟨l7, ?_, by linarith⟩
  unfold Demo.start
  simp only [runAll]
  exact h7

/-- in the demo, with two tokens of which 2·10^20 each were deposited, two pools, three positions and a swap of 22·10^6 of
token 5 across an initialised tick, the program owes all of token 5 but for less than 3 units, where the roundings may
have taken 41 -/
example : ∃ r lost, Service.swap (Demo.by_ 2) Demo.start Demo.key true (22 * 10 ^ 6) true MIN_SQRT_PRICE = .ok r ∧
    Metered Calm r.1 demoHeld lost ∧ lost 5 ≤ 41 ∧ demoHeld 5 = 2 * 10 ^ 20 ∧
    2 * 10 ^ 20 - 3 < claims r.1 5 ∧ claims r.1 5 < 2 * 10 ^ 20 - 2 := by
  obtain ⟨l, h, e⟩ := demo_start_metered
  have hq : (Demo.start.pools.get Demo.key).isSome := by decide +kernel
  obtain ⟨pool, hp⟩ := Option.isSome_iff_exists.1 hq
  have hf : (Service.swap (Demo.by_ 2) Demo.start Demo.key true (22 * 10 ^ 6) true MIN_SQRT_PRICE).toOption.map
      (fun r => (decide (r.2.amountIn = 22 * 10 ^ 6 ∧
        (∀ p, Demo.start.pools.get Demo.key = some p → rounds p r.2 Demo.key.feeTier.tickSpacing ≤ 3) ∧
        totalBal r.1 5 ≤ totalBal Demo.start 5 + 2 * 10 ^ 14 ∧ totalBal Demo.start 5 ≤ totalBal r.1 5 + 2 * 10 ^ 14 ∧
        2 * 10 ^ 20 - 3 < claims r.1 5 ∧ claims r.1 5 < 2 * 10 ^ 20 - 2),
        Demo.start.ticks.entries.all fun e => !decide (r.2.targetSqrtPrice ≤ e.2.sqrtPrice ∧
          e.2.sqrtPrice ≤ r.2.targetSqrtPrice + 65536))) = some (true, true) := by
    decide +kernel
  cases hs : Service.swap (Demo.by_ 2) Demo.start Demo.key true (22 * 10 ^ 6) true MIN_SQRT_PRICE with
  | error e => rw [hs] at hf; cases hf
  | ok r =>
    rw [hs] at hf
    simp only [Except.toOption, Option.map_some, Option.some.injEq, Prod.mk.injEq] at hf
    obtain ⟨f1, f2⟩ := hf
    obtain ⟨g1, g2, g3, g4, g5, g6⟩ := of_decide_eq_true f1
    have hn : ¬ Near Demo.start Demo.key true true MIN_SQRT_PRICE r.2.targetSqrtPrice := by
      rintro ⟨i, t, ht, hc⟩
      have := List.all_eq_true.1 f2 _ ((Map.get_mem _ _ _).1 ht)
      simp only [Bool.not_eq_true', decide_eq_false_iff_not] at this
      rw [if_pos rfl] at hc
      exact this ⟨by omega, by omega⟩
    have hM : Roomy true Demo.start Demo.key pool r.2.amountIn (10 ^ 15) := by
      rw [g1]
      have e : pool = (Demo.start.pools.get Demo.key).get hq := by simp [hp]
      rw [e]
      exact roomy_of (by norm_num) (by decide +kernel) (by clear * - hq; decide +kernel +revert)
    obtain ⟨l', h', e'⟩ := metered_swap (t := 5) h hp hs ⟨hn, pool, 10 ^ 15, hp, hM⟩
      (reach32_reach _ (clear_reach32 _ (metered_clear h))).1 rfl (g2 _ hp) (by decide +kernel) ⟨g3, g4⟩
    exact ⟨r, l', rfl, h', by push_cast at e'; linarith, rfl, g5, g6⟩

theorem exploit_metered : ∃ held lost, Metered (fun _ _ _ _ _ _ => True) Exploit.s1 held lost ∧ lost 5 ≤ 12 ∧
    held 5 = 10 ^ 6 + 10 ^ 9 := by
  have h0 : Metered (fun _ _ _ _ _ _ => True) (Inv.init 1 0) (fun _ => 0) (fun _ => 0) := .init _ _
  have h1 := metered_credited h0 5 2 (10 ^ 6) (by decide +kernel)
  have h2 := metered_credited h1 7 2 (10 ^ 9) (by decide +kernel)
  have h3 := metered_credited h2 5 3 (10 ^ 9) (by decide +kernel)
  obtain ⟨l1, h4, e1⟩ := metered_run (c := .addFeeTier Exploit.tier) (env := Exploit.by_ 1) (t := 5) h3
    (by simp [NoVara]) (by decide +kernel) (by decide +kernel)
  obtain ⟨l2, h5, e2⟩ := metered_run (c := .createPool 5 7 Exploit.tier (10 ^ 24) 0) (env := Exploit.by_ 2) (t := 5) h4
    (by simp [NoVara]) (by decide +kernel) (by decide +kernel)
  obtain ⟨l3, h6, e3⟩ := metered_run (c := .createPosition Exploit.key 0 10 (10 ^ 14) 0 (10 ^ 25)) (env := Exploit.by_ 2)
    (t := 5) h5 (by simp [NoVara]) (by decide +kernel) (by decide +kernel)
  have h7 : Exploit.s1 = run (Exploit.by_ 2) (run (Exploit.by_ 2) (run (Exploit.by_ 1) Exploit.s0 (.addFeeTier Exploit.tier))
      (.createPool 5 7 Exploit.tier (10 ^ 24) 0)) (.createPosition Exploit.key 0 10 (10 ^ 14) 0 (10 ^ 25)) := rfl
  rw [h7]
  exact ⟨_, l3, h6, by linarith, by decide⟩

/-- C108 is false: in the pool of `C34_negation` the swap that ends exactly at tick 10 leaves all in order, but of the
990000 of token 5 that account 2 then pays, more than 494000 are owed to nobody; the roundings may take 34. -/
theorem C108_negation : ¬ ∀ s held lost t, Metered (fun _ _ _ _ _ _ => True) s held lost →
    (held t : ℚ) ≤ claims s t + lost t := by
  intro hall
  obtain ⟨held, l, h, e, hh⟩ := exploit_metered
  have hr1 : Reach Exploit.s1 := by
    obtain ⟨held', hb, _⟩ := s0_books
    exact books_reach (books_runAll _ (by simp [NoVara]) hb)
  have hf : (Service.swap (Exploit.by_ 2) Exploit.s1 Exploit.key false 500101 true Exploit.p10).toOption.map
      (fun r => (decide (poolLiq r.1 Exploit.key ≤ 10 ^ 29 ∧
        (∀ p, Exploit.s1.pools.get Exploit.key = some p → rounds p r.2 Exploit.key.feeTier.tickSpacing ≤ 2) ∧
        totalBal r.1 5 ≤ totalBal Exploit.s1 5 + 2 * 10 ^ 14 ∧ totalBal Exploit.s1 5 ≤ totalBal r.1 5 + 2 * 10 ^ 14),
        (Service.swap (Exploit.by_ 2) r.1 Exploit.key true 990000 true (10 ^ 24)).toOption.map
      (fun r' => decide ((∀ p, r.1.pools.get Exploit.key = some p → rounds p r'.2 Exploit.key.feeTier.tickSpacing ≤ 3) ∧
        totalBal r'.1 5 ≤ totalBal r.1 5 + 2 * 10 ^ 14 ∧ totalBal r.1 5 ≤ totalBal r'.1 5 + 2 * 10 ^ 14 ∧
        claims r'.1 5 < 10 ^ 6 + 10 ^ 9 - 494000)))) = some (true, some true) := by
    decide +kernel
  have hL : poolLiq Exploit.s1 Exploit.key ≤ 10 ^ 29 := by decide +kernel
  cases hs : Service.swap (Exploit.by_ 2) Exploit.s1 Exploit.key false 500101 true Exploit.p10 with
  | error e => rw [hs] at hf; cases hf
  | ok r =>
    rw [hs] at hf
    simp only [Except.toOption, Option.map_some, Option.some.injEq, Prod.mk.injEq] at hf
    obtain ⟨f1, f2⟩ := hf
    obtain ⟨g1, g2, g3⟩ := of_decide_eq_true f1
    have hq : (Exploit.s1.pools.get Exploit.key).isSome := by decide +kernel
    obtain ⟨pool, hp⟩ := Option.isSome_iff_exists.1 hq
    obtain ⟨l1, h1, e1⟩ := metered_swap (t := 5) h hp hs trivial hr1 rfl (g2 _ hp) hL g3
    cases hs' : Service.swap (Exploit.by_ 2) r.1 Exploit.key true 990000 true (10 ^ 24) with
    | error e => rw [hs'] at f2; cases f2
    | ok r' =>
      rw [hs'] at f2
      simp only [Option.map_some, Option.some.injEq] at f2
      obtain ⟨k1, k2, k3, k4⟩ := of_decide_eq_true f2
      obtain ⟨_, _, _, h1', _, _, _, _⟩ := swap_ok hs'
      obtain ⟨pool', hp', _⟩ := calculateSwap_pool h1'
      obtain ⟨l2, h2, e2⟩ := metered_swap (t := 5) h1 hp' hs' trivial (reach_swap hr1 hs) rfl (k1 _ hp') g1 ⟨k2, k3⟩
      have := hall _ _ _ 5 h2
      rw [hh] at this
      push_cast at this e1 e2
      linarith

end Verif
