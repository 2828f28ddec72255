import Verif.Proofs.Clock
import Verif.Props.Active
import Verif.Props.Exploit

/-!
# Property C73: the seconds outside the ticks tell how long the price was within a range

The program stores with every tick the seconds the price spent on the other side, for reward programs that read
them. `Spec/Clock` says what such a reader computes and how long the price really was within the range.
-/

namespace Verif
open Verif.Service Verif.Spec

variable {s s' : Inv} {key : PoolKey} {lo hi : Int} {t t' a d : Nat}

private theorem inside_some {now : Nat} : secondsInside s key lo hi now = some a ↔
    ∃ p l u, s.pools.get key = some p ∧ s.ticks.get (key, lo) = some l ∧ s.ticks.get (key, hi) = some u ∧
      a = secondsRead p l u now := by
  unfold secondsInside
  constructor
  · intro h
    split at h
    · next p l u h1 h2 h3 => cases h; exact ⟨p, l, u, h1, h2, h3, rfl⟩
    · cases h
  · rintro ⟨p, l, u, h1, h2, h3, rfl⟩
    rw [h1, h2, h3]

private theorem watched_reach (hr : Reach s) (h : Watched key lo hi s t s' t' d) : Reach s' := by
  induction h with
  | start => exact hr
  | wait _ _ _ ih => exact ih
  | call _ _ _ hs _ _ ih => exact .call ih hs
  | transfers _ hb ih => exact .transfers ih hb
  | @swap s' t' d env k xToY byIn amount limit r _ _ hs _ ih =>
    refine .call (env := env) (c := .swap k xToY amount byIn limit) ih ?_
    simp only [step, bind_ok_iff, pure_ok_iff]
    exact ⟨_, hs, rfl⟩

private theorem read_congr {p p' : Pool} {l l' u u' : Tick} {now : Nat}
    (h1 : belowSec p' u' now % 2 ^ 64 = belowSec p u now % 2 ^ 64)
    (h2 : belowSec p' l' now % 2 ^ 64 = belowSec p l now % 2 ^ 64) :
    secondsRead p' l' u' now = secondsRead p l u now := by
  rw [read_eq, read_eq, Int.sub_emod, h1, h2, ← Int.sub_emod]

private theorem read_wait {p : Pool} {l u : Tick} {t t' : Nat} (hlt : l.index < u.index) (h : t ≤ t') :
    secondsRead p l u t' = (secondsRead p l u t +
      if l.index ≤ p.currentTickIndex ∧ p.currentTickIndex < u.index then t' - t else 0) % 2 ^ 64 := by
  rw [read_eq, read_eq]
  have e : belowSec p u t' - belowSec p l t' = (belowSec p u t - belowSec p l t) +
      ((if l.index ≤ p.currentTickIndex ∧ p.currentTickIndex < u.index then t' - t else 0 : Nat) : Int) := by
    unfold belowSec
    by_cases h1 : l.index ≤ p.currentTickIndex <;> by_cases h2 : u.index ≤ p.currentTickIndex
    · rw [if_pos h1, if_pos h2, if_pos h1, if_pos h2, if_neg (by omega)]; simp
    · rw [if_pos h1, if_neg h2, if_pos h1, if_neg h2, if_pos (by omega)]; push_cast [h]; ring
    · omega
    · rw [if_neg h1, if_neg h2, if_neg h1, if_neg h2, if_neg (by omega)]; push_cast; ring
  rw [e]
  generalize belowSec p u t - belowSec p l t = x
  generalize (if l.index ≤ p.currentTickIndex ∧ p.currentTickIndex < u.index then t' - t else 0) = n
  omega

/-- C73, as long as no swap of the pool ends near an initialised tick: what the two ticks tell grows
exactly by the time the tick of the pool is within the range (full statement: for all swaps; see
`C73_negation`). -/
theorem C73_watch_partial (hr : Reach s) (hlt : lo < hi) (h0 : secondsInside s key lo hi t = some a)
    (h : Watched key lo hi s t s' t' d) : secondsInside s' key lo hi t' = some ((a + d) % 2 ^ 64) := by
  induction h with
  | start =>
    rw [h0]
    obtain ⟨p, l, u, _, _, _, rfl⟩ := inside_some.1 h0
    have : secondsRead p l u t < 2 ^ 64 := by
      unfold secondsRead
      dsimp only
      omega
    rw [Nat.add_zero, Nat.mod_eq_of_lt this]
  | @wait s' t' t'' d p hw hle hp ih =>
    obtain ⟨p', l, u, h1, h2, h3, e⟩ := inside_some.1 ih
    rw [hp] at h1
    cases h1
    have hx := (reach_wf _ (watched_reach hr hw)).indexed
    have il := hx _ _ _ h2
    have iu := hx _ _ _ h3
    refine inside_some.2 ⟨p, l, u, hp, h2, h3, ?_⟩
    rw [read_wait (by omega) hle, ← e, il, iu]
    omega
  | @call s' s'' t' d env c hw hn hc hs hl hu ih =>
    obtain ⟨p, l, u, h1, h2, h3, e⟩ := inside_some.1 ih
    have hr' := watched_reach hr hw
    have he : EffectIf False env s' s'' := by
      have := step_effectIf hc.2 hs
      rwa [eq_false (p := ∃ k d a b l, c = .swap k d a b l)] at this
      rintro ⟨k, d, a, b, l, e⟩
      exact hc.1 k d a b l e
    have hx := (reach_wf _ hr').indexed
    have hw'' := reach_wf _ (Reach.call hr' hs)
    obtain ⟨l', hl⟩ := Option.isSome_iff_exists.1 hl
    obtain ⟨u', hu⟩ := Option.isSome_iff_exists.1 hu
    obtain ⟨p', hp'⟩ := Option.isSome_iff_exists.1 (hw''.tick _ _ _ hl).2
    obtain ⟨a1, a2, a3⟩ := effect_clock hr' he h1 hp' h2 hl
    obtain ⟨b1, _, _⟩ := effect_clock hr' he h1 hp' h3 hu
    refine inside_some.2 ⟨p', l', u', hp', hl, hu, ?_⟩
    rw [e]
    refine (read_congr ?_ ?_).symm
    · unfold belowSec
      rw [b1, a2, a3, hw''.indexed _ _ _ hu, hx _ _ _ h3]
    · unfold belowSec
      rw [a1, a2, a3, hw''.indexed _ _ _ hl, hx _ _ _ h2]
  | transfers _ _ ih => exact ih
  | @swap s' t' d env k xToY byIn amount limit r hw hn hs hfar ih =>
    obtain ⟨p, l, u, h1, h2, h3, e⟩ := inside_some.1 ih
    have hr' := watched_reach hr hw
    obtain ⟨ticks, b1, b2, c1, c2, c3, c4, er⟩ := swap_ok hs
    rw [inside_some, er]
    by_cases hk : k = key
    · subst hk
      have hsp : Spacing k.feeTier.tickSpacing := by
        have := ((reach_tiers hr').pools k (by rw [h1]; rfl)).1
        exact ⟨this.1, this.2.1⟩
      obtain ⟨l', g1, _, g3⟩ := swap_clock hr' hsp c1 h1 (hfar rfl) c2 h2
      obtain ⟨u', k1, _, k3⟩ := swap_clock hr' hsp c1 h1 (hfar rfl) c2 h3
      refine ⟨r.2.pool, l', u', Map.get_insert_self .., g1, k1, ?_⟩
      rw [e]
      rw [hn] at g3 k3
      exact (read_congr k3 g3).symm
    · refine ⟨p, l, u, ?_, ?_, ?_, e⟩
      · dsimp only
        rw [Map.get_insert_ne _ _ (fun h => hk h.symm)]
        exact h1
      · rw [updateTicks_other _ _ _ c2 _ (fun h => hk h.symm)]; exact h2
      · rw [updateTicks_other _ _ _ c2 _ (fun h => hk h.symm)]; exact h3

private theorem fresh_zero {n st : Nat} (h : st ≤ n) :
    (((n : Int) - st - (0 : Nat) - (((n + 2 ^ 64 - st) % 2 ^ 64 : Nat) : Int)) % 2 ^ 64).toNat = 0 := by
  omega

/-- C73, when a deposit makes both ticks: from then on they tell the time within the range since the deposit. -/
theorem C73_fresh_partial {env : Env} {delta ll lu : Nat} {r : Inv × Position} {pool : Pool} (hr : Reach s)
    (hlt : lo < hi) (hp : s.pools.get key = some pool) (ht : pool.startTimestamp ≤ env.now)
    (h1 : s.ticks.get (key, lo) = none) (h2 : s.ticks.get (key, hi) = none)
    (hc : createPosition env s key lo hi delta ll lu = .ok r) (hd : d < 2 ^ 64)
    (h : Watched key lo hi r.1 env.now s' t' d) : secondsInside s' key lo hi t' = some d := by
  have hr1 : Reach r.1 := by
    refine .call (env := env) (c := .createPosition key lo hi delta ll lu) hr ?_
    simp only [step, bind_ok_iff, pure_ok_iff]
    exact ⟨_, hc, rfl⟩
  have h0 : secondsInside r.1 key lo hi env.now = some 0 := by
    obtain ⟨p, lt, ut, m, b, tm1, tm2, he, _⟩ := createPosition_full (reach_wf s hr).indexed hc
    obtain ⟨m1, m2, m3, m4⟩ := modify_sec he.mod
    have hpp := he.hpool
    rw [hp] at hpp
    cases hpp
    have made : ∀ {i : Int} {x : Tick × Bool}, s.ticks.get (key, i) = none →
        getOrCreateTick s env.now key i = .ok x → x.1.secondsOutside =
          if i ≤ pool.currentTickIndex then (env.now + 2 ^ 64 - pool.startTimestamp) % 2 ^ 64 else 0 := by
      intro i x hn hx
      rcases getOrCreateTick_ok.1 hx with ⟨q, hq, rfl⟩ | ⟨_, q, hq, rfl⟩
      · rw [hn] at hq; cases hq
      · obtain ⟨_, p', hp', hcr, _⟩ := createTick_ok hq
        rw [hp] at hp'
        cases hp'
        simp only [Tick.create, bind_ok_iff, unwrap_ok_iff, pure_ok_iff] at hcr
        obtain ⟨sp, h4, rfl⟩ := hcr
        dsimp only
        by_cases h : i ≤ pool.currentTickIndex
        · simp only [h, decide_true, if_true]
        · simp only [h, decide_false, Bool.false_eq_true, if_false]
    have sl := made h1 he.hlt
    have su := made h2 he.hut
    refine inside_some.2 ⟨m.pool, m.lower, m.upper, ?_, ?_, ?_, ?_⟩
    · rw [he.res]; exact Map.get_insert_self ..
    · rw [he.res]
      dsimp only
      rw [Map.get_insert_ne _ _ (by intro e; have := (Prod.mk.inj e).2; omega)]
      exact Map.get_insert_self ..
    · rw [he.res]; exact Map.get_insert_self ..
    · rw [read_eq]
      unfold belowSec
      rw [m1, m2, m3, m4, he.mod.upper.index, he.mod.lower.index, he.lidx, he.uidx, sl, su]
      by_cases a1 : lo ≤ pool.currentTickIndex
      · by_cases a2 : hi ≤ pool.currentTickIndex
        · rw [if_pos a1, if_pos a2, if_pos a1, if_pos a2, sub_self]; rfl
        · rw [if_pos a1, if_neg a2, if_pos a1, if_neg a2]
          exact (fresh_zero ht).symm
      · have a2 : ¬ hi ≤ pool.currentTickIndex := fun h => a1 (le_trans (le_of_lt hlt) h)
        rw [if_neg a1, if_neg a2, if_neg a1, if_neg a2, sub_self]; rfl
  have := C73_watch_partial hr1 hlt h0 h
  rwa [Nat.zero_add, Nat.mod_eq_of_lt hd] at this

/-- C73 is false for all swaps: the ticks 0 and 10 tell 100 seconds before a swap and none after it, at the same
time. -/
theorem C73_negation : ¬ ∀ (s : Inv) (env : Env) (key : PoolKey) (lo hi : Int) (xToY byIn : Bool)
    (amount limit : Nat) (r : Inv × CalculateSwapResult), Reach s → lo < hi →
    Service.swap env s key xToY amount byIn limit = .ok r →
    secondsInside r.1 key lo hi env.now = secondsInside s key lo hi env.now := by
  intro h
  obtain ⟨held, hb, _⟩ := s0_books
  have hr : Reach Exploit.s1 := books_reach (books_runAll _ (by simp [NoVara]) hb)
  have h1 : (Service.swap ⟨2, 1100, 6, 0⟩ Exploit.s1 Exploit.key false 500101 true Exploit.p10).toOption.map
      (fun r => (secondsInside Exploit.s1 Exploit.key 0 10 1100, secondsInside r.1 Exploit.key 0 10 1100)) =
      some (some 100, some 0) := by decide +kernel
  cases hs : Service.swap ⟨2, 1100, 6, 0⟩ Exploit.s1 Exploit.key false 500101 true Exploit.p10 with
  | error e => rw [hs] at h1; cases h1
  | ok r =>
    rw [hs] at h1
    simp only [Except.toOption, Option.map_some, Option.some.injEq, Prod.mk.injEq] at h1
    have := h _ _ _ 0 10 _ _ _ _ r hr (by decide) hs
    dsimp only at this
    rw [h1.1, h1.2] at this
    cases this

/-- The demo pool is made at time 100 with the ticks -20, -10, 10 and 20. A swap at time 160 moves the price from
tick 0 to tick -20 (below -10), another one at time 200 back above -10, and 7 seconds pass: the ticks -10 and 10 tell
67 seconds, the ticks -20 and -10 tell 40, the ticks -20 and 20 all 107. -/
example :
    (((Service.swap ⟨2, 160, 6, 0⟩ Demo.start Demo.key true (22 * 10 ^ 6) true MIN_SQRT_PRICE) >>= fun r =>
      Service.swap ⟨2, 200, 9, 0⟩ r.1 Demo.key false (22 * 10 ^ 6) true MAX_SQRT_PRICE).toOption.map (fun r =>
        (r.2.pool.currentTickIndex, secondsInside r.1 Demo.key (-10) 10 207,
          secondsInside r.1 Demo.key (-20) (-10) 207, secondsInside r.1 Demo.key (-20) 20 207))) =
      some (0, some 67, some 40, some 107) := by
  decide +kernel

end Verif
