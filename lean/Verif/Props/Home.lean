import Verif.Proofs.Home
import Verif.Props.Exit
import Verif.Props.Whole

/-!
# Property C112: whoever has tokens in the program can bring them home

From a position to tokens outside the program, through all the layers: the position is removed, both balances are
withdrawn, and the token contracts pay. False of the code where swaps may end exactly at an initialised tick
(`C112_negation`).
-/

set_option exponentiation.threshold 1000

namespace Verif
open Service Spec Async

variable {x : Coins} {n : Nat} {t u : ActorId} {env : Env} {gas : Nat}

private theorem bal_le_total (b : Balances) (a t : ActorId) : bal b a t ≤ total b t := by
  unfold bal
  cases hg : b.get (a, t) with
  | none => exact Nat.zero_le _
  | some v =>
    have h := Map.le_sum (m := b) (f := fun k v => if k.2 = t then v else 0) (fun _ _ _ => Nat.zero_le _) hg
    simp only [if_true] at h
    exact h

/-- C112, after anything that can have happened: an account with no more of a token than the token contract holds for
the program can take all of it out. The request is sent, the token contract pays (it holds enough), and afterwards
the account has nothing left, the holdings are smaller by exactly its balance, and everything else is as before. -/
theorem C112_token (h : Hist x.world) (ht : t ≠ 0) (hg : gasPerTransfer ≤ gas) (hp : env.caller ≠ x.world.program)
    (hb : bal x.world.inv.balances env.caller t ≤ x.world.held t) :
    Home x (x.steps (takeHome x env gas t)) env t := by
  by_cases h0 : bal x.world.inv.balances env.caller t = 0
  · exact home_none h h0
  · unfold bal at h0 hb
    cases hget : x.world.inv.balances.get (env.caller, t) with
    | none => rw [hget] at h0; exact absurd rfl h0
    | some b =>
      rw [hget] at h0 hb
      exact home_some h hget h0 ht hg hp hb

/-- C112: nothing in this is dishonest, whichever token contract one looks at, so the histories of C102 go on. -/
theorem C112_fair (h : Whole (Fair u) x n) (ht : t ≠ 0) (hg : gasPerTransfer ≤ gas)
    (hp : env.caller ≠ x.world.program) (hb : bal x.world.inv.balances env.caller t ≤ x.world.held t) :
    Whole (Fair u) (x.steps (takeHome x env gas t)) n := by
  have hh : Hist x.world := honest_hist (Whole.honestHist (fun _ _ h => h.1) h)
  obtain ⟨hm, -, -⟩ := fresh_ids hh
  have h1 : Whole (Fair u) _ n := .step (.world (.start env gas true true (.withdrawSingle t none))) h ⟨trivial, trivial⟩
  refine .step (n := n) (.world (.resume _ _)) (.step (n := n) (.world (.deliver _ _))
    (.step (n := n) (.world (.answer _ _ _)) h1 ⟨?_, trivial⟩) ⟨trivial, trivial⟩) ⟨trivial, trivial⟩
  intro l hl hlt
  rw [if_pos positive_response]
  have hbal : ∀ b, x.world.inv.balances.get (env.caller, t) = some b → bal x.world.inv.balances env.caller t = b := by
    intro b e; unfold bal; rw [e]
  cases hget : x.world.inv.balances.get (env.caller, t) with
  | none =>
    simp only [Coins.step, start_none hget, World.step, addMsgs, hm] at hl
    cases hl
  | some b =>
    by_cases h0 : b = 0
    · subst h0
      simp only [Coins.step, start_zero hget, World.step, addMsgs, hm] at hl
      cases hl
    · have hs := start_all (r := ⟨x.world.program, gas, x.world.next, true, true⟩) (s := x.world.inv) hget h0 ht hg hp
        rfl
      simp only [Coins.step, hs, World.step, addMsgs, Map.get_insert_self, Option.some.injEq, Msg.mk.injEq,
        and_true] at hl
      subst hl
      simp only at hlt
      subst hlt
      simp only [Coins.step, hs, World.step]
      rw [hbal b hget] at hb ⊢
      omega

/-- C112 for balances, for histories of at most 5·10^8 calls in which no swap ends near an initialised tick (`Near`)
(full statement: for all histories; refuted by `C112_negation`): with an honest token contract every account can take
out all it has at any time. -/
theorem C112_balance_partial (h : Whole (Fair t) x n) (hn : n ≤ 5 * 10 ^ 8) (ht : t ≠ 0) (hg : gasPerTransfer ≤ gas)
    (hp : env.caller ≠ x.world.program) :
    Home x (x.steps (takeHome x env gas t)) env t ∧ Whole (Fair t) (x.steps (takeHome x env gas t)) n := by
  have h1 := C102_tokens_partial h hn ht env
  have h2 := bal_le_total x.world.inv.balances env.caller t
  have h3 : total x.world.inv.balances t = totalBal x.world.inv t := rfl
  have hb : bal x.world.inv.balances env.caller t ≤ x.world.held t := by omega
  exact ⟨C112_token (honest_hist (Whole.honestHist (fun _ _ h => h.1) h)) ht hg hp hb, C112_fair h ht hg hp hb⟩

private theorem worth_unique {s : Inv} {p : Position} {pool : Pool} {wx wy wx' wy' : ℚ} {fx fy fx' fy' : Nat}
    (h : Worth s p pool wx wy fx fy) (h' : Worth s p pool wx' wy' fx' fy') :
    wx = wx' ∧ wy = wy' ∧ fx = fx' ∧ fy = fy' := by
  obtain ⟨pl, pu, ix, iy, a1, a2, a3, a4, rfl, rfl, rfl, rfl⟩ := h
  obtain ⟨pl', pu', ix', iy', b1, b2, b3, b4, rfl, rfl, rfl, rfl⟩ := h'
  rw [a1] at b1; rw [a2] at b2; rw [a3] at b3; rw [a4] at b4
  cases b1; cases b2; cases b3; cases b4
  exact ⟨rfl, rfl, rfl, rfl⟩

/-- removing a position, in the whole system -/
private theorem removal {index a b : Nat} {s' : Inv} (hrem : removePosition env x.world.inv index = .ok (s', a, b)) :
    (x.step (.world (.call env (.removePosition index)))).world.inv = s' ∧
    (x.step (.world (.call env (.removePosition index)))).world.held = x.world.held ∧
    (x.step (.world (.call env (.removePosition index)))).world.program = x.world.program := by
  have e : Verif.step env x.world.inv (.removePosition index) = .ok s' := by
    simp only [Verif.step, hrem]; rfl
  have e0 : sentBack env x.world.inv (.removePosition index) = 0 := rfl
  simp only [Coins.step, e, e0, World.step, Nat.not_lt_zero, if_false, run]
  exact ⟨trivial, trivial, trivial⟩

/-- C112 for providers (same histories, of both tokens of the pool, neither of them the native coin; the amounts must
fit): the owner of a position removes it, takes both tokens home, and has been paid outside the program the two
balances they had, the worth of the position on the curve, for Y rounded down and for X up to one unit and a
relative error of 1/(2.3·10^14), and all accrued fees. Nobody else's balance changes, and no other holdings. -/
theorem C112_provider_partial {index : Nat} {p : Position} {pool : Pool} {wx wy : ℚ} {fx fy : Nat}
    (hX : Whole (Fair p.poolKey.tokenX) x n) (hY : Whole (Fair p.poolKey.tokenY) x n) (hn : n + 1 ≤ 5 * 10 ^ 8)
    (h0 : p.poolKey.tokenX ≠ 0) (h0' : p.poolKey.tokenY ≠ 0) (hg : gasPerTransfer ≤ gas)
    (hp : env.caller ≠ x.world.program) (hpos : x.world.inv.positions.get env.caller index = .ok p)
    (hpl : x.world.inv.pools.get p.poolKey = some pool) (hW : Worth x.world.inv p pool wx wy fx fy)
    (hx : wx + fx + bal x.world.inv.balances env.caller p.poolKey.tokenX < 2 ^ 255)
    (hy : wy + fy + bal x.world.inv.balances env.caller p.poolKey.tokenY < 2 ^ 256) :
    ∃ a : Nat, (a : ℚ) ≤ wx ∧ wx < a + 1 + (wx + 1) / (23 * 10 ^ 13) ∧
      ∀ e, e = leave x env gas index p.poolKey →
        bal e.world.inv.balances env.caller p.poolKey.tokenX = 0 ∧
        bal e.world.inv.balances env.caller p.poolKey.tokenY = 0 ∧
        e.world.held p.poolKey.tokenX + (bal x.world.inv.balances env.caller p.poolKey.tokenX + a + fx) =
          x.world.held p.poolKey.tokenX ∧
        e.world.held p.poolKey.tokenY + (bal x.world.inv.balances env.caller p.poolKey.tokenY + ⌊wy⌋₊ + fy) =
          x.world.held p.poolKey.tokenY ∧
        (∀ c v, c ≠ env.caller → bal e.world.inv.balances c v = bal x.world.inv.balances c v) ∧
        (∀ v, v ≠ p.poolKey.tokenX → v ≠ p.poolKey.tokenY → e.world.held v = x.world.held v) ∧
        ∃ L, x.world.inv.positions.getAll env.caller = .ok L ∧ L[index]? = some p ∧
          e.world.inv.positions.getAll env.caller = .ok (swapRemove L index) := by
  obtain ⟨g, m, -, hgh⟩ := Whole.ghost (fun _ _ h => h.2) hX (by omega)
  have hc : Clear x.world.inv := clearBooks_clear hgh.books
  have h32 := clear_reach32 _ hc
  obtain ⟨s', ax, ay, hrem⟩ := C36_clear_partial hc hpos hpl hW hx hy
  obtain ⟨p', pool', wx', wy', fx', fy', a, L, q1, q2, q3, q4, q5, q6, q7, q8, q9, q10, q11, q12, q13, q14⟩ :=
    C36_pays h32 hrem
  rw [hpos] at q1; cases q1
  rw [hpl] at q2; cases q2
  obtain ⟨rfl, rfl, rfl, rfl⟩ := worth_unique hW q3
  obtain ⟨r1, r2, r3⟩ := removal (x := x) hrem
  have hclear : ClearCall env x.world.inv (.removePosition index) := by
    intro s'' hs
    have e : Verif.step env x.world.inv (.removePosition index) = .ok s' := by
      simp only [Verif.step, hrem]; rfl
    rw [e] at hs; cases hs
    exact few_remove h32 hrem
  have yX : Whole (Fair p.poolKey.tokenX) _ (n + 1) :=
    .step (.world (.call env (.removePosition index))) hX ⟨trivial, hclear⟩
  have yY : Whole (Fair p.poolKey.tokenY) _ (n + 1) :=
    .step (.world (.call env (.removePosition index))) hY ⟨trivial, hclear⟩
  generalize hyd : x.step (.world (.call env (.removePosition index))) = y at *
  have hpy : env.caller ≠ y.world.program := by rw [r3]; exact hp
  have hne : p.poolKey.tokenX ≠ p.poolKey.tokenY := poolKey_ne (reach32_reach _ h32).1 hpl
  obtain ⟨zX, -⟩ := C112_balance_partial yX hn h0 hg hpy
  have hbX : bal y.world.inv.balances env.caller p.poolKey.tokenX ≤ y.world.held p.poolKey.tokenX := by
    have := zX.paid; omega
  have zY := C112_fair yY h0 hg hpy hbX
  generalize hzd : y.steps (takeHome y env gas p.poolKey.tokenX) = z at *
  have hpz : env.caller ≠ z.world.program := by rw [zX.program]; exact hpy
  obtain ⟨eY, -⟩ := C112_balance_partial zY hn h0' hg hpz
  refine ⟨a, q5, q6, ?_⟩
  intro e he
  have he' : e = z.steps (takeHome z env gas p.poolKey.tokenY) := by
    rw [he, ← hzd, ← hyd]; rfl
  rw [← he'] at eY
  have k1 : (env.caller, p.poolKey.tokenX) ≠ (env.caller, p.poolKey.tokenY) := fun h => hne (Prod.mk.inj h).2
  have k2 : (env.caller, p.poolKey.tokenY) ≠ (env.caller, p.poolKey.tokenX) := fun h => hne (Prod.mk.inj h).2.symm
  have pz := zX.paid
  have pe := eY.paid
  have hhX := eY.held _ hne
  have hhY := zX.held _ hne.symm
  have b1 := zX.balances _ _ k2
  have posz : z.world.inv.positions = y.world.inv.positions := by
    have h := congrArg Inv.positions zX.rest
    exact h
  have pose : e.world.inv.positions = z.world.inv.positions := by
    have h := congrArg Inv.positions eY.rest
    exact h
  rw [r1] at pz b1
  rw [r2] at pz hhY
  refine ⟨?_, eY.gone, ?_, ?_, fun c v hcv => ?_, fun v h1 h2 => ?_, L, q11, q12, ?_⟩
  · rw [eY.balances _ _ k1]; exact zX.gone
  · omega
  · omega
  · have c1 : ∀ w, (c, v) ≠ (env.caller, w) := fun w h => hcv (Prod.mk.inj h).1
    rw [eY.balances _ _ (c1 _), zX.balances _ _ (c1 _), r1]
    exact q10 _ _ (.inl hcv)
  · rw [eY.held _ h2, zX.held _ h1, r2]
  · rw [pose, posz, r1]; exact q13

/-- C112 for providers of a pool of the native coin (same histories): the owner of a position removes it, withdraws the
coins and takes the other token home, and is paid as in `C112_provider_partial`, in coins and in tokens. -/
theorem C112_coin_partial {index : Nat} {p : Position} {pool : Pool} {wx wy : ℚ} {fx fy : Nat}
    (hY : Whole (Fair p.poolKey.tokenY) x n) (hn : n + 2 ≤ 5 * 10 ^ 8) (h0 : p.poolKey.tokenX = 0)
    (hg : gasPerTransfer ≤ gas) (hp : env.caller ≠ x.world.program) (hv : env.value = 0) (hm : x.held < 2 ^ 128)
    (hpos : x.world.inv.positions.get env.caller index = .ok p)
    (hpl : x.world.inv.pools.get p.poolKey = some pool) (hW : Worth x.world.inv p pool wx wy fx fy)
    (hx : wx + fx + bal x.world.inv.balances env.caller 0 < 2 ^ 255)
    (hy : wy + fy + bal x.world.inv.balances env.caller p.poolKey.tokenY < 2 ^ 256) :
    ∃ a : Nat, (a : ℚ) ≤ wx ∧ wx < a + 1 + (wx + 1) / (23 * 10 ^ 13) ∧
      ∀ e, e = leaveCoin x env gas index p.poolKey →
        bal e.world.inv.balances env.caller 0 = 0 ∧
        bal e.world.inv.balances env.caller p.poolKey.tokenY = 0 ∧
        e.held + (bal x.world.inv.balances env.caller 0 + a + fx) = x.held ∧
        e.world.held p.poolKey.tokenY + (bal x.world.inv.balances env.caller p.poolKey.tokenY + ⌊wy⌋₊ + fy) =
          x.world.held p.poolKey.tokenY ∧
        (∀ c v, c ≠ env.caller → bal e.world.inv.balances c v = bal x.world.inv.balances c v) ∧
        (∀ v, v ≠ p.poolKey.tokenY → e.world.held v = x.world.held v) ∧
        ∃ L, x.world.inv.positions.getAll env.caller = .ok L ∧ L[index]? = some p ∧
          e.world.inv.positions.getAll env.caller = .ok (swapRemove L index) := by
  obtain ⟨g, m, -, hgh⟩ := Whole.ghost (fun _ _ h => h.2) hY (by omega)
  have hc : Clear x.world.inv := clearBooks_clear hgh.books
  have h32 := clear_reach32 _ hc
  have hne : p.poolKey.tokenX ≠ p.poolKey.tokenY := poolKey_ne (reach32_reach _ h32).1 hpl
  have h0' : p.poolKey.tokenY ≠ 0 := fun h => hne (h0.trans h.symm)
  obtain ⟨s', ax, ay, hrem⟩ := C36_clear_partial hc hpos hpl hW (by rw [h0]; exact hx) hy
  obtain ⟨p', pool', wx', wy', fx', fy', a, L, q1, q2, q3, q4, q5, q6, q7, q8, q9, q10, q11, q12, q13, q14⟩ :=
    C36_pays h32 hrem
  rw [hpos] at q1; cases q1
  rw [hpl] at q2; cases q2
  obtain ⟨rfl, rfl, rfl, rfl⟩ := worth_unique hW q3
  rw [h0] at q8
  obtain ⟨r1, r2, r3⟩ := removal (x := x) hrem
  have r4 : (x.step (.world (.call env (.removePosition index)))).held = x.held := by
    have e : Verif.step env x.world.inv (.removePosition index) = .ok s' := by
      simp only [Verif.step, hrem]; rfl
    have e0 : sentBack env x.world.inv (.removePosition index) = 0 := rfl
    simp only [Coins.step, e, e0, hv, Nat.not_lt_zero, if_false]
    rfl
  have few := few_remove h32 hrem
  have hclear : ClearCall env x.world.inv (.removePosition index) := by
    intro s'' hs
    have e : Verif.step env x.world.inv (.removePosition index) = .ok s' := by
      simp only [Verif.step, hrem]; rfl
    rw [e] at hs; cases hs
    exact few
  have yY : Whole (Fair p.poolKey.tokenY) _ (n + 1) :=
    .step (.world (.call env (.removePosition index))) hY ⟨trivial, hclear⟩
  generalize hyd : x.step (.world (.call env (.removePosition index))) = y at *
  have hclear' : ClearCall env y.world.inv (.withdrawVara none) := by
    intro s'' hs
    simp only [Verif.step, withdrawVara, bind_ok_iff, fit_ok_iff, pure_ok_iff] at hs
    obtain ⟨_, ⟨r, hr, v, _, rfl⟩, rfl⟩ := hs
    have : FewPositions y.world.inv := by rw [r1]; exact few
    exact this
  have zY : Whole (Fair p.poolKey.tokenY) _ (n + 1 + 1) :=
    .step (.world (.call env (.withdrawVara none))) yY ⟨trivial, hclear'⟩
  obtain ⟨t1, t2⟩ := C102_withdraw_partial (Whole.mono (fun _ _ h => h.2) yY) (by omega) (by rw [r4]; exact hm) hv
  obtain ⟨b, u1, u2, u3, u4⟩ := takes_one y env
  generalize hzd : y.step (.world (.call env (.withdrawVara none))) = z at *
  have hpz : env.caller ≠ z.world.program := by rw [u4, r3]; exact hp
  obtain ⟨eY, -⟩ := C112_balance_partial zY hn h0' hg hpz
  refine ⟨a, q5, q6, ?_⟩
  intro e he
  have he' : e = z.steps (takeHome z env gas p.poolKey.tokenY) := by
    rw [he, ← hzd, ← hyd]; rfl
  rw [← he'] at eY
  have k1 : (env.caller, 0) ≠ (env.caller, p.poolKey.tokenY) := fun h => h0' (Prod.mk.inj h).2.symm
  have k2 : (env.caller, p.poolKey.tokenY) ≠ (env.caller, VARA) := fun h => h0' (Prod.mk.inj h).2
  have pe := eY.paid
  have ce := eY.coin
  have b1 := u2 _ _ k2
  have pose : e.world.inv.positions = z.world.inv.positions := by
    have h := congrArg Inv.positions eY.rest
    exact h
  rw [u1, u3, r2] at pe
  simp only [r1] at t2 b1
  rw [r4] at t2
  refine ⟨?_, eY.gone, ?_, ?_, fun c v hcv => ?_, fun v h1 => ?_, L, q11, q12, ?_⟩
  · rw [eY.balances _ _ k1]; exact t1
  · omega
  · simp only at pe
    omega
  · have c1 : ∀ w, (c, v) ≠ (env.caller, w) := fun w h => hcv (Prod.mk.inj h).1
    rw [eY.balances _ _ (c1 _), u1]
    show bal b c v = _
    rw [u2 _ _ (c1 _), r1]
    exact q10 _ _ (.inl hcv)
  · rw [eY.held _ h1, u3, r2]
  · rw [pose, u1]
    show y.world.inv.positions.getAll env.caller = _
    rw [r1]; exact q13

namespace HomeDemo

def tier : FeeTier := ⟨0, 1⟩
def key : PoolKey := ⟨6, 7, tier⟩
def by_ (a : ActorId) : Env := ⟨a, 1000, 5, 0⟩

/-- a deposit that goes well -/
def deposit (a t n id h : Nat) : List CoinEvent :=
  [.world (.start (by_ a) (10 ^ 12) true true (.depositSingle t n)), .world (.answer id yes h),
   .world (.deliver id true), .world (.resume id [some true])]

/-- accounts 2 and 3 deposit; account 2 makes a pool and a position in the ticks 0 to 10 -/
def begin_ : List CoinEvent :=
  deposit 2 6 (10 ^ 6) 0 (10 ^ 6) ++ deposit 2 7 (10 ^ 9) 2 (10 ^ 9) ++ deposit 3 6 (10 ^ 9) 4 (10 ^ 9 + 10 ^ 6) ++
  [.world (.call (by_ 1) (.addFeeTier tier)), .world (.call (by_ 2) (.createPool 6 7 tier (10 ^ 24) 0)),
   .world (.call (by_ 2) (.createPosition key 0 10 (10 ^ 14) 0 (10 ^ 25)))]

/-- a swap within the range -/
def well : List CoinEvent := begin_ ++ [.world (.call (by_ 2) (.swap key false 250000 true Exploit.p10))]

/-- the swaps of `Exploit`; account 2 removes the position and takes home all it has of token 6 -/
def badly : List CoinEvent := begin_ ++
  [.world (.call (by_ 2) (.swap key false 500101 true Exploit.p10)),
   .world (.call (by_ 2) (.swap key false (10 ^ 8) true (2 * 10 ^ 24))),
   .world (.call (by_ 2) (.removePosition 0)),
   .world (.start (by_ 2) (10 ^ 12) true true (.withdrawSingle 6 none)), .world (.answer 6 yes 909177648),
   .world (.deliver 6 true), .world (.resume 6 [some true])]

def fresh : Coins := ⟨World.init 9 1 0 (fun _ => 0), 0, 0⟩

theorem well_hist (t : ActorId) (ht : t = 6 ∨ t = 7) : Whole (Fair t) (fresh.steps well) 4 := by
  have e : 0 + (well.map calls).sum = 4 := by decide +kernel
  obtain ⟨m, h1, h2⟩ := WholeDemo.hist (ok := Fair t) (f := fun x e => WholeDemo.honestB' t x e && WholeDemo.clearB x e)
    (fun x e h => by
      simp only [Bool.and_eq_true] at h
      exact ⟨WholeDemo.honest_of' h.1, WholeDemo.clear_of h.2⟩) well (x := fresh) (n := 0)
    (.init 9 1 0 (fun _ => 0) 0) (by rcases ht with rfl | rfl <;> decide +kernel)
  rw [h1, e] at h2
  exact h2

theorem well_bal : bal (fresh.steps well).world.inv.balances 3 6 = 10 ^ 9 ∧
    (fresh.steps well).world.held 6 = 1001000000 ∧ (fresh.steps well).world.program = 9 := by decide +kernel

end HomeDemo

/-- Account 3 takes its billion of token 6 home, and the million of the position is still there. -/
example : Home (HomeDemo.fresh.steps HomeDemo.well) ((HomeDemo.fresh.steps HomeDemo.well).steps
      (takeHome (HomeDemo.fresh.steps HomeDemo.well) (HomeDemo.by_ 3) (10 ^ 12) 6)) (HomeDemo.by_ 3) 6 ∧
    ((HomeDemo.fresh.steps HomeDemo.well).steps
      (takeHome (HomeDemo.fresh.steps HomeDemo.well) (HomeDemo.by_ 3) (10 ^ 12) 6)).world.held 6 = 10 ^ 6 := by
  have h1 := HomeDemo.well_hist 6 (.inl rfl)
  obtain ⟨h2, h3, h4⟩ := HomeDemo.well_bal
  generalize HomeDemo.fresh.steps HomeDemo.well = x at *
  have h := (C112_balance_partial (env := HomeDemo.by_ 3) (gas := 10 ^ 12) h1 (by norm_num) (by decide)
    (by norm_num [gasPerTransfer]) (by rw [h4]; decide)).1
  refine ⟨h, ?_⟩
  have := h.paid
  change _ + bal x.world.inv.balances 3 6 = _ at this
  omega

/-- Account 2 removes its position and takes home all it has. The billion of account 3 stays, and two units of token 6,
from rounding. -/
example : ∃ e, e = leave (HomeDemo.fresh.steps HomeDemo.well) (HomeDemo.by_ 2) (10 ^ 12) 0 HomeDemo.key ∧
    e.world.held 6 = 10 ^ 9 + 2 ∧ e.world.held 7 = 0 ∧ bal e.world.inv.balances 2 6 = 0 ∧
    bal e.world.inv.balances 2 7 = 0 ∧ bal e.world.inv.balances 3 6 = 10 ^ 9 := by
  refine ⟨_, rfl, ?_⟩
  decide +kernel

/-- Account 2 of `WholeDemo` leaves a pool of the native coin: all its coins and tokens are outside, and the billion coins
of account 3 are covered. -/
example : ∃ e, e = leaveCoin (WholeDemo.fresh.steps WholeDemo.begin_) (WholeDemo.by_ 2 0) (10 ^ 12) 0 WholeDemo.key ∧
    e.held = 10 ^ 9 + 1 ∧ e.world.held 7 = 0 ∧ bal e.world.inv.balances 2 0 = 0 ∧
    bal e.world.inv.balances 2 7 = 0 ∧ bal e.world.inv.balances 3 0 = 10 ^ 9 := by
  refine ⟨_, rfl, ?_⟩
  decide +kernel

/-- C112 is false of the code: the token contract is honest, but a swap ends exactly at a tick, and after a few calls and a
withdrawal by account 2 the program holds less of the token than account 3 has in its balance. When account 3 asks
for it, no honest token contract can pay. -/
theorem C112_negation : ∃ x n, Whole (HonestEvent 6) x n ∧ n ≤ 6 ∧ bal x.world.inv.balances 3 6 = 10 ^ 9 ∧
    x.world.held 6 < 10 ^ 9 ∧
    ∀ h, ¬ HonestEvent 6 (x.step (.world (.start (HomeDemo.by_ 3) (10 ^ 12) true true (.withdrawSingle 6 none))))
      (.world (.answer x.world.next (response 1) h)) := by
  obtain ⟨m, h1, h2⟩ := WholeDemo.hist (f := WholeDemo.honestB' 6) (fun x e h => WholeDemo.honest_of' h)
    HomeDemo.badly (x := HomeDemo.fresh) (n := 0) (.init 9 1 0 (fun _ => 0) 0) (by decide +kernel)
  have e : 0 + (HomeDemo.badly.map calls).sum = 6 := by decide +kernel
  have h3 : (HomeDemo.fresh.steps HomeDemo.badly).world.inv.balances.get (3, 6) = some (10 ^ 9) := by decide +kernel
  have h4 : (HomeDemo.fresh.steps HomeDemo.badly).world.held 6 < 10 ^ 9 := by decide +kernel
  have h5 : (HomeDemo.fresh.steps HomeDemo.badly).world.program = 9 := by decide +kernel
  refine ⟨_, m, h2, by omega, by unfold bal; rw [h3], h4, fun h hh => ?_⟩
  generalize HomeDemo.fresh.steps HomeDemo.badly = x at *
  have hs := start_all (env := HomeDemo.by_ 3) (t := 6) (r := ⟨x.world.program, 10 ^ 12, x.world.next, true, true⟩)
    (s := x.world.inv) h3 (by norm_num) (by decide) (by norm_num [TRANSFER_COST]) (by show (3 : Nat) ≠ x.world.program; rw [h5]; decide) rfl
  have hw : (x.step (.world (.start (HomeDemo.by_ 3) (10 ^ 12) true true (.withdrawSingle 6 none)))).world.msgs.get
      x.world.next = some ⟨⟨x.world.next, 6, x.world.program, 3, 10 ^ 9, .withdrawal⟩, none⟩ := by
    simp only [Coins.step, hs, World.step, addMsgs]
    exact Map.get_insert_self _ _ _
  have hd : (x.step (.world (.start (HomeDemo.by_ 3) (10 ^ 12) true true (.withdrawSingle 6 none)))).world.held 6 =
      x.world.held 6 := by
    simp only [Coins.step, hs, World.step]
  have := hh _ hw rfl
  rw [if_pos positive_response] at this
  simp only [hd] at this
  omega

end Verif
