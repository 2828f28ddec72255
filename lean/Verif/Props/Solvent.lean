import Verif.Proofs.Solvent
import Verif.Props.Active
import Verif.Props.Exploit
import Verif.Spec.Demo

/-!
# Property C37: the program holds what it owes

False of the code (`C37_negation`). Here: it holds in all histories in which no swap ends at, or just
below, an initialised tick. The proof bounds the exact worth of all positions; rounding goes against the
program only in token X, by less than 2·10^-9 units per call, hence the bound on the number of calls.
-/

namespace Verif
open Service Spec

variable {env : Env} {s s' : Inv}

/-- C37 for histories of at most 5·10^8 calls in which no swap ends near an initialised tick (`Near`) (full statement:
for all histories; refuted by `C37_negation`): for every token, the balances of all accounts, the uncollected protocol
fees and what removing every position would pay together are at most what the program holds. -/
theorem C37_clear_partial {held : ActorId → Nat} {n : Nat} (h : ClearBooks s held n)
    (hn : n ≤ 5 * 10 ^ 8) (env : Env) (t : ActorId) :
    totalBal s t + totalProto s t + totalDue env s t ≤ held t := by
  have h1 := clearBooks_owed h hn t
  have h2 := totalDue_le (env := env) (clear_reach32 _ (clearBooks_clear h)) t
  have h3 := slack_small hn
  unfold owed at h1
  have h4 : ((totalBal s t + totalProto s t + totalDue env s t : Nat) : ℚ) < ((held t + 1 : Nat) : ℚ) := by
    push_cast
    linarith
  exact Nat.lt_succ_iff.1 (by exact_mod_cast h4)

/-! ### the demo history -/

theorem clearBooks_run {held : ActorId → Nat} {n : Nat} (h : ClearBooks s held n) {c : Call}
    (hc : (∀ k d a b l, c ≠ .swap k d a b l) ∧ (∀ a e sl h, c ≠ .swapRoute a e sl h) ∧ NoVara c)
    (hf : (run env s c).positions.length.entries.all (fun e => decide (e.2 + 1 < 2 ^ 32)) = true) :
    ∃ m ≤ n + 1, ClearBooks (run env s c) held m := by
  have hf := few_of_all hf
  unfold run at hf ⊢
  split
  · next s' hs => rw [hs] at hf; exact ⟨n + 1, le_rfl, .call h hc hs hf⟩
  · exact ⟨n, Nat.le_succ n, h⟩

/-- what the program holds in the demo: two deposits of 10^20 of each token -/
def demoHeld (t : ActorId) : Nat := if t = 5 ∨ t = 7 then 2 * 10 ^ 20 else 0

theorem increase_new {b : Balances} {t a : ActorId} {n : Nat} (h : b.get (a, t) = none) (h0 : n ≠ 0)
    (hn : n < 2 ^ 256) : increaseTokenBalance b t a n = .ok (b.insert (a, t) n) := by
  have e : balOf b a t = 0 := by unfold balOf; rw [h]; rfl
  refine increase_ok.2 (.inr ⟨h0, ?_, ?_⟩)
  · rw [e, Nat.zero_add]; exact hn
  · rw [e, Nat.zero_add]

theorem demo_funded_books : ClearBooks Demo.funded demoHeld 0 := by
  have h0 : ClearBooks (Inv.init 1 (10 ^ 11)) (fun _ => 0) 0 := .init _ _
  have step : ∀ {s : Inv} {held : ActorId → Nat} {b : Balances} (t a : ActorId), ClearBooks s held 0 →
      s.awaiting = ∅ → increaseTokenBalance s.balances t a (10 ^ 20) = .ok b →
      ClearBooks { s with balances := b, awaiting := ∅ } (fun u => if u = t then held u + 10 ^ 20 else held u) 0 :=
    fun t a h _ hi => .deposit h hi
  have h1 := step (b := (∅ : Balances).insert (2, 5) (10 ^ 20)) 5 2 h0 rfl (increase_new (by decide +kernel) (by norm_num) (by norm_num))
  have h2 := step (b := ((∅ : Balances).insert (2, 5) (10 ^ 20)).insert (2, 7) (10 ^ 20)) 7 2 h1 rfl (increase_new (by decide +kernel) (by norm_num) (by norm_num))
  have h3 := step (b := (((∅ : Balances).insert (2, 5) (10 ^ 20)).insert (2, 7) (10 ^ 20)).insert
    (3, 5) (10 ^ 20)) 5 3 h2 rfl (increase_new (by decide +kernel) (by norm_num) (by norm_num))
  have h4 := step (b := ((((∅ : Balances).insert (2, 5) (10 ^ 20)).insert (2, 7) (10 ^ 20)).insert
    (3, 5) (10 ^ 20)).insert (3, 7) (10 ^ 20)) 7 3 h3 rfl (increase_new (by decide +kernel) (by norm_num) (by norm_num))
  have e : (fun u => if u = 7 then (if u = 5 then (if u = 7 then (if u = 5 then 0 + 10 ^ 20 else 0) + 10 ^ 20 else
      if u = 5 then 0 + 10 ^ 20 else 0) + 10 ^ 20 else if u = 7 then (if u = 5 then 0 + 10 ^ 20 else 0) + 10 ^ 20
      else if u = 5 then 0 + 10 ^ 20 else 0) + 10 ^ 20 else if u = 5 then (if u = 7 then (if u = 5 then 0 + 10 ^ 20
      else 0) + 10 ^ 20 else if u = 5 then 0 + 10 ^ 20 else 0) + 10 ^ 20 else if u = 7 then
      (if u = 5 then 0 + 10 ^ 20 else 0) + 10 ^ 20 else if u = 5 then 0 + 10 ^ 20 else 0) = demoHeld := by
    funext u
    unfold demoHeld
    by_cases h5 : u = 5
    · subst h5; simp
    · by_cases h7 : u = 7
      · subst h7; simp
      · simp [h5, h7]
  rw [← e]
  exact h4

theorem demo_start_books : ∃ n ≤ 7, ClearBooks Demo.start demoHeld n := by
  obtain ⟨n1, l1, h1⟩ := clearBooks_run (c := .addFeeTier Demo.tier) (env := Demo.by_ 1) demo_funded_books
    (by simp [NoVara]) (by decide +kernel)
  obtain ⟨n2, l2, h2⟩ := clearBooks_run (c := .addFeeTier Demo.tier2) (env := Demo.by_ 1) h1
    (by simp [NoVara]) (by decide +kernel)
  obtain ⟨n3, l3, h3⟩ := clearBooks_run (c := .createPool 7 5 Demo.tier (10 ^ 24) 0) (env := Demo.by_ 2) h2
    (by simp [NoVara]) (by decide +kernel)
  obtain ⟨n4, l4, h4⟩ := clearBooks_run (c := .createPool 5 7 Demo.tier2 (10 ^ 24) 0) (env := Demo.by_ 2) h3
    (by simp [NoVara]) (by decide +kernel)
  obtain ⟨n5, l5, h5⟩ := clearBooks_run (c := .createPosition Demo.key (-20) 20 (10 ^ 15) (10 ^ 24) (10 ^ 24))
    (env := Demo.by_ 2) h4 (by simp [NoVara]) (by decide +kernel)
  obtain ⟨n6, l6, h6⟩ := clearBooks_run (c := .createPosition Demo.key (-10) 10 (3 * 10 ^ 15) 0 (10 ^ 25))
    (env := Demo.by_ 3) h5 (by simp [NoVara]) (by decide +kernel)
  obtain ⟨n7, l7, h7⟩ := clearBooks_run (c := .createPosition Demo.key2 (-100) 100 (10 ^ 16) 0 (10 ^ 25))
    (env := Demo.by_ 3) h6 (by simp [NoVara]) (by decide +kernel)
  refine ⟨n7, by omega, ?_⟩
  unfold Demo.start
  simp only [runAll]
  exact h7

theorem demo_traded_books : ∃ n ≤ 8, ClearBooks Demo.traded demoHeld n := by
  obtain ⟨n, hn, h⟩ := demo_start_books
  unfold Demo.traded
  simp only [runAll]
  unfold run
  split
  · next s' hs =>
    simp only [step, bind_ok_iff, pure_ok_iff] at hs
    obtain ⟨r, hr, rfl⟩ := hs
    refine ⟨n + 1, by omega, .swap h hr ?_⟩
    have h1 : (Service.swap (Demo.by_ 2) Demo.start Demo.key true (22 * 10 ^ 6) true MIN_SQRT_PRICE).toOption.map
        (fun r => Demo.start.ticks.entries.all (fun e => decide (e.1.1 = Demo.key →
          ¬ (r.2.targetSqrtPrice ≤ e.2.sqrtPrice ∧ e.2.sqrtPrice ≤ r.2.targetSqrtPrice + 65536)))) =
        some true := by decide +kernel
    rw [hr] at h1
    simp only [Except.toOption, Option.map_some, Option.some.injEq] at h1
    exact not_near_of_all h1
  · exact ⟨n, by omega, h⟩

/-- after the swap that crosses a tick: everything owed in each token is at most the 2·10^20 deposited
of it, and by rounding a few units less -/
example : (totalBal Demo.traded 5 + totalProto Demo.traded 5 + totalDue (Demo.by_ 2) Demo.traded 5 ≤ 2 * 10 ^ 20) ∧
    2 * 10 ^ 20 ≤ totalBal Demo.traded 5 + totalProto Demo.traded 5 + totalDue (Demo.by_ 2) Demo.traded 5 + 10 ∧
    0 < totalDue (Demo.by_ 2) Demo.traded 5 ∧ 0 < totalProto Demo.traded 5 := by
  obtain ⟨n, hn, h⟩ := demo_traded_books
  exact ⟨C37_clear_partial h (by omega) (Demo.by_ 2) 5, by decide +kernel⟩

end Verif
