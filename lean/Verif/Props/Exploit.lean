import Verif.Props.PositionCalls

/-!
# Negations of C34 and C37

Concrete histories in which the pool's liquidity counter disagrees with the positions and in which
the program owes more tokens than it holds. All calls are made by ordinary users.
-/

namespace Verif
open Verif.Service Verif.Spec

namespace Exploit

def tier : FeeTier := ⟨0, 1⟩
def key : PoolKey := ⟨5, 7, tier⟩
def by_ (a : ActorId) : Env := ⟨a, 1000, 5, 0⟩

def credited (s : Inv) (t a : ActorId) (n : Nat) : Inv :=
  match increaseTokenBalance s.balances t a n with
  | .ok b => { s with balances := b }
  | .error _ => s

/-- user 2 deposits a million of token 5 and a billion of token 7, user 3 a billion of token 5 -/
def s0 : Inv := credited (credited (credited (Inv.init 1 0) 5 2 (10 ^ 6)) 7 2 (10 ^ 9)) 5 3 (10 ^ 9)

/-- the price of tick 10 -/
def p10 : Nat := 1000500100010000000000000

/-- a pool at tick 0, in which user 2 has the only position, with the range 0..10 -/
def s1 : Inv := runAll s0 [(by_ 1, .addFeeTier tier), (by_ 2, .createPool 5 7 tier (10 ^ 24) 0),
  (by_ 2, .createPosition key 0 10 (10 ^ 14) 0 (10 ^ 25))]

/-- user 2 buys exactly up to tick 10, with the limit at the price of that tick -/
def s2 : Inv := run (by_ 2) s1 (.swap key false 500101 true p10)

/-- user 2 buys more, where no position offers anything, and removes the position -/
def s3 : Inv := runAll s2 [(by_ 2, .swap key false (10 ^ 8) true (2 * 10 ^ 24)), (by_ 2, .removePosition 0)]

end Exploit
open Exploit

theorem books_run {s : Inv} {h : ActorId → Nat} (hb : Books s h) (env : Env) (c : Call)
    (hc : NoVara c) : Books (run env s c) h := by
  unfold run
  split
  · rename_i s' hs
    exact .call hb hc hs
  · exact hb

theorem books_runAll {h : ActorId → Nat} (l : List (Env × Call)) (hl : ∀ x ∈ l, NoVara x.2) :
    ∀ {s : Inv}, Books s h → Books (runAll s l) h := by
  induction l with
  | nil => exact fun hb => hb
  | cons x l ih =>
    exact fun hb => ih (fun y hy => hl y (List.mem_cons_of_mem _ hy))
      (books_run hb x.1 x.2 (hl x List.mem_cons_self))

theorem books_reach {s : Inv} {h : ActorId → Nat} (hb : Books s h) : Reach s := by
  induction hb with
  | init a f => exact .init a f
  | call _ _ hs ih => exact .call ih hs
  | @deposit s held t a n b _ hi ih =>
    exact .transfers (aw := s.awaiting) ih (balWF_inc (reach_balWF ih) hi)
  | @withdraw s held t a n r _ hd ih =>
    exact .transfers (aw := s.awaiting) ih (balWF_dec (reach_balWF ih) hd)

theorem books_credited {s : Inv} {h : ActorId → Nat} (hb : Books s h) (t a : ActorId) (n : Nat) :
    ∃ h', Books (credited s t a n) h' ∧ ∀ u, h' u ≤ h u + if u = t then n else 0 := by
  unfold credited
  split
  · rename_i b hi
    refine ⟨_, .deposit hb hi, fun u => ?_⟩
    split <;> omega
  · exact ⟨h, hb, fun u => by omega⟩

theorem s0_books : ∃ held, Books s0 held ∧ held 5 ≤ 10 ^ 6 + 10 ^ 9 := by
  obtain ⟨h1, b1, e1⟩ := books_credited (.init 1 0) 5 2 (10 ^ 6)
  obtain ⟨h2, b2, e2⟩ := books_credited b1 7 2 (10 ^ 9)
  obtain ⟨h3, b3, e3⟩ := books_credited b2 5 3 (10 ^ 9)
  refine ⟨h3, b3, ?_⟩
  have e1 := e1 5
  have e2 := e2 5
  have e3 := e3 5
  simp only [if_true] at e1 e3
  rw [if_neg (by decide)] at e2
  omega

/-- C34 is false: user 2's only position ends at tick 10, the current tick is 10, and yet its liquidity
is still counted as active. -/
theorem C34_negation : ¬ ∀ s held, Books s held → ∀ k p, s.pools.get k = some p →
    p.liquidity = activeLiq s k p.currentTickIndex := by
  intro h
  obtain ⟨held, hb, _⟩ := s0_books
  have h1 := h s2 held (books_run (books_runAll _ (by simp [NoVara]) hb) _ _ (by simp [NoVara]))
  have h2 : (s2.pools.get key).map (fun p => (p.liquidity, activeLiq s2 key p.currentTickIndex)) =
      some (10 ^ 14, 0) := by decide +kernel
  cases hp : s2.pools.get key with
  | none => rw [hp] at h2; cases h2
  | some p =>
    rw [hp] at h2
    have := h1 key p hp
    simp only [Option.map_some, Option.some.injEq, Prod.mk.injEq] at h2
    omega

/-- C37 is false: the internal balances alone exceed the tokens held. -/
theorem C37_negation : ¬ ∀ s held, Books s held → ∀ t, totalBal s t ≤ held t := by
  intro h
  obtain ⟨held, hb, h3⟩ := s0_books
  have h1 := h s3 held (books_runAll _ (by simp [NoVara]) (books_run (books_runAll _ (by simp [NoVara]) hb) _ _ (by simp [NoVara]))) 5
  have h2 : totalBal s3 5 = 1091822352 := by decide +kernel
  omega

/-- what the attacker ends up with: 91822352 of token 5 instead of 1000000 -/
example : bal s3.balances 2 5 = 91822352 ∧ bal s0.balances 2 5 = 1000000 ∧
    (s3.positions.map.get (2, 0)).isNone := by decide +kernel

end Verif
