import Verif.Proofs.PoolKeys
import Verif.Proofs.BalanceFrame

/-!
# C19–C23: position lists, pool identity and enumeration, fee tiers, balances
-/

namespace Verif
open Spec Service

/-! ## C19 -/

/-- the code's counterpart of an operation -/
def posApply (ps : Positions) : PosOp → M (Positions × Option Position)
  | .create a p => .ok (ps.add a p, none)
  | .replace a i p => do let ps ← ps.update a i p; pure (ps, none)
  | .remove a i => do let r ← ps.remove a i; pure (r.1, some r.2)
  | .transfer a i b => do let ps ← ps.transfer a i b; pure (ps, none)

/-- a rejected operation changes nothing -/
def posApplyAll (ps : Positions) : List PosOp → Positions
  | [] => ps
  | o :: l => posApplyAll (match posApply ps o with | .ok r => r.1 | .error _ => ps) l

private theorem apply_sim {ps : Positions} {L : Lists} (h : PosRepr ps L)
    (hb : ∀ a, (L a).length + 1 < 2 ^ 32) (o : PosOp) :
    (∃ ps' L' r, posApply ps o = .ok (ps', r) ∧ L.apply o = some (L', r) ∧ PosRepr ps' L' ∧
      ∀ a, (L' a).length ≤ (L a).length + 1) ∨
    (∃ e, posApply ps o = .error e) ∧ L.apply o = none := by
  have hput : ∀ (L : Lists) (a b : ActorId) (l : List Position), l.length ≤ (L a).length + 1 →
      (L.put a l b).length ≤ (L b).length + 1 := by
    intro L a b l hl
    by_cases hab : b = a
    · subst hab; rw [put_same]; exact hl
    · rw [put_other _ _ hab]; omega
  cases o with
  | create a p =>
    left
    exact ⟨_, _, none, rfl, rfl, posRepr_add h (hb a) p, fun b => hput L a b _ (by simp)⟩
  | replace a i p =>
    by_cases hi : i < (L a).length
    · left
      obtain ⟨ps', h1, h2⟩ := (posRepr_update h a i p).1 hi
      refine ⟨ps', _, none, by simp only [posApply, h1]; rfl, by simp [Lists.apply, hi], h2,
        fun b => hput L a b _ (by simp)⟩
    · right
      exact ⟨⟨_, by simp only [posApply, (posRepr_update h a i p).2 hi]; rfl⟩, by simp [Lists.apply, hi]⟩
  | remove a i =>
    have hlt : (L a).length < 2 ^ 32 := Nat.lt_of_succ_lt (hb a)
    cases hg : (L a)[i]? with
    | none =>
      right
      exact ⟨⟨_, by simp only [posApply, (posRepr_remove h hlt i).2 hg]; rfl⟩,
        by simp only [Lists.apply, hg]⟩
    | some p =>
      left
      obtain ⟨ps', h1, h2⟩ := (posRepr_remove h hlt i).1 p hg
      have hne : L a ≠ [] := by rintro e; rw [e] at hg; simp at hg
      have := swapRemove_length i hne
      exact ⟨ps', _, some p, by simp only [posApply, h1]; rfl, by simp only [Lists.apply, hg], h2,
        fun b => hput L a b _ (by omega)⟩
  | transfer a i b =>
    have hlt : (L a).length < 2 ^ 32 := Nat.lt_of_succ_lt (hb a)
    cases hg : (L a)[i]? with
    | none =>
      right
      exact ⟨⟨_, by simp only [posApply, Positions.transfer, (posRepr_remove h hlt i).2 hg]; rfl⟩,
        by simp only [Lists.apply, hg]⟩
    | some p =>
      left
      obtain ⟨ps', h1, h2⟩ := (posRepr_remove h hlt i).1 p hg
      have hne : L a ≠ [] := by rintro e; rw [e] at hg; simp at hg
      have hl := swapRemove_length i hne
      have hle : ∀ c, (L.put a (swapRemove (L a) i) c).length ≤ (L c).length := by
        intro c
        by_cases hc : c = a
        · subst hc; rw [put_same]; omega
        · rw [put_other _ _ hc]
      refine ⟨_, _, none, by simp only [posApply, Positions.transfer, h1]; rfl,
        by simp only [Lists.apply, hg], posRepr_add h2 ?_ p, ?_⟩
      · exact Nat.lt_of_le_of_lt (Nat.succ_le_succ (hle b)) (hb b)
      · intro c
        have h3 := hput (L.put a (swapRemove (L a) i)) b c
          (L.put a (swapRemove (L a) i) b ++ [p]) (by simp)
        have h4 := hle c
        omega

private theorem applyAll_sim {l : List PosOp} : ∀ {ps : Positions} {L : Lists} {n : Nat},
    PosRepr ps L → (∀ a, (L a).length ≤ n) → n + l.length < 2 ^ 32 →
    PosRepr (posApplyAll ps l) (L.applyAll l) ∧ ∀ a, (L.applyAll l a).length ≤ n + l.length := by
  induction l with
  | nil => intro ps L n h hn _; exact ⟨h, hn⟩
  | cons o l ih =>
    intro ps L n h hn hlen
    rw [List.length_cons] at hlen
    have hb : ∀ a, (L a).length + 1 < 2 ^ 32 := by
      intro a; have := hn a; omega
    rw [posApplyAll, Lists.applyAll, List.length_cons]
    have e : n + (l.length + 1) = n + 1 + l.length := by omega
    rcases apply_sim h hb o with ⟨ps', L', r, h1, h2, h3, h4⟩ | ⟨⟨e', h1⟩, h2⟩
    · rw [h1, h2, e]
      exact ih h3 (fun a => (h4 a).trans (by have := hn a; omega)) (by omega)
    · rw [h1, h2, e]
      exact ih h (fun a => (hn a).trans (by omega)) (by omega)

/-- C19 for fewer than 2^32 − 1 operations: the collection is exactly a list per owner. Every
further operation is accepted exactly if the specification accepts it, hands out the same position,
and all reads return the list, its elements and its slices. (Full statement: for operation sequences
of any length; refuted below.) -/
theorem C19_position_lists_partial {l : List PosOp} (hl : l.length + 1 < 2 ^ 32) :
    let ps := posApplyAll ⟨∅, ∅⟩ l
    let L : Lists := Lists.applyAll (fun _ => []) l
    (∀ a, ps.getAll a = .ok (L a)) ∧
    (∀ a i, ps.get a i = okOr (.inv .PositionNotFound) (L a)[i]?) ∧
    (∀ a off size, off + size < 2 ^ 32 → ps.getSlice a off size = .ok (((L a).drop off).take size)) ∧
    (∀ o, (∃ ps' L' r, posApply ps o = .ok (ps', r) ∧ L.apply o = some (L', r) ∧
        ∀ a, ps'.getAll a = .ok (L' a)) ∨
      (∃ e, posApply ps o = .error e) ∧ L.apply o = none) := by
  intro ps L
  obtain ⟨h, hlen⟩ := applyAll_sim (l := l) posRepr_empty (n := 0) (fun _ => Nat.le_refl _) (by omega)
  refine ⟨posRepr_getAll h, posRepr_get h, fun a off size hs => posRepr_getSlice h a hs, fun o => ?_⟩
  rcases apply_sim h (fun a => by have := hlen a; omega) o with ⟨ps', L', r, h1, h2, h3, _⟩ | h
  · exact .inl ⟨ps', L', r, h1, h2, posRepr_getAll h3⟩
  · exact .inr h

/-- the specification itself neither loses nor duplicates: the removed element together with the
remaining list is a rearrangement of the original list -/
theorem C19_swap_remove {l : List Position} {i : Nat} {p : Position} (h : l[i]? = some p) :
    (p :: swapRemove l i).Perm l ∧
    ∀ j, j + 1 < l.length → (swapRemove l i)[j]? = if j = i then l.getLast? else l[j]? := by
  have hi : i < l.length := by
    by_contra hc
    rw [List.getElem?_eq_none (by omega)] at h; cases h
  rw [List.getElem?_eq_getElem hi] at h
  cases h
  refine ⟨swapRemove_perm hi, fun j hj => ?_⟩
  rw [swapRemove_getElem? hi, if_pos (by omega), List.getLast?_eq_getElem?]

private theorem length_after_adds (a : ActorId) (p : Position) (n : Nat) :
    (posApplyAll ⟨∅, ∅⟩ (List.replicate n (.create a p))).getLength a = n % 2 ^ 32 := by
  suffices h : ∀ n (ps : Positions) (m : Nat), ps.getLength a = m % 2 ^ 32 →
      (posApplyAll ps (List.replicate n (.create a p))).getLength a = (m + n) % 2 ^ 32 by
    have := h n ⟨∅, ∅⟩ 0 rfl
    rwa [Nat.zero_add] at this
  intro n
  induction n with
  | zero => intro ps m h; exact h
  | succ n ih =>
    intro ps m h
    rw [List.replicate_succ, posApplyAll]
    have : (ps.add a p).getLength a = (m + 1) % 2 ^ 32 := by
      unfold Positions.add
      simp only
      rw [getLength_insert, if_pos rfl, h]
      unfold u32Succ
      rw [Nat.mod_add_mod]
    have := ih (ps.add a p) (m + 1) this
    rw [show m + (n + 1) = m + 1 + n by omega]
    exact this

/-- C19 without a bound is false: the 32-bit counter wraps, so after 2^32 creations by one owner the
owner's list is reported empty. -/
theorem C19_negation :
    ¬ ∀ (l : List PosOp) (a : ActorId),
      (posApplyAll ⟨∅, ∅⟩ l).getAll a = .ok (Lists.applyAll (fun _ => []) l a) := by
  intro h
  let p : Position := ⟨⟨1, 2, ⟨0, 1⟩⟩, 1, 0, 1, 0, 0, 0, 0, 0⟩
  have h1 := h (List.replicate (2 ^ 32) (.create 0 p)) 0
  have h2 : (posApplyAll ⟨∅, ∅⟩ (List.replicate (2 ^ 32) (.create 0 p))).getLength 0 = 0 := by
    rw [length_after_adds, Nat.mod_self]
  unfold Positions.getAll rangeFromTo at h1
  rw [h2] at h1
  have h3 : ∀ (n : Nat) (L : Lists), (L.applyAll (List.replicate n (.create 0 p)) 0).length =
      (L 0).length + n := by
    intro n
    induction n with
    | zero => intro L; rfl
    | succ n ih =>
      intro L
      rw [List.replicate_succ, Lists.applyAll]
      simp only [Lists.apply]
      rw [ih, put_same]
      simp
      omega
  have h4 := h3 (2 ^ 32) (fun _ => [])
  simp only [readAll, Except.ok.injEq, List.range'_zero, Nat.sub_self] at h1
  rw [← h1, List.length_nil, Nat.zero_add] at h4
  have : (2 : Nat) ^ 32 ≠ 0 := by positivity
  exact this h4.symm

section
private def pp (n : Nat) : Position := ⟨⟨1, 2, ⟨0, 1⟩⟩, n, 0, 1, 0, 0, 0, 0, 0⟩
private def ops0 : List PosOp :=
  [.create 5 (pp 1), .create 5 (pp 2), .create 5 (pp 3), .create 6 (pp 4), .transfer 5 0 6,
    .remove 5 7, .replace 6 0 (pp 9)]

/-- removal in the middle moves the last position; a refused removal has no effect -/
example : (posApplyAll ⟨∅, ∅⟩ ops0).getAll 5 = .ok [pp 3, pp 2] ∧
    (posApplyAll ⟨∅, ∅⟩ ops0).getAll 6 = .ok [pp 9, pp 1] ∧ ops0.length + 1 < 2 ^ 32 := by
  decide +kernel
end

/-! ## C20 -/

/-- C20: the key does not depend on the order of the tokens, the smaller token comes first, the
construction fails exactly for equal tokens. -/
theorem C20_key (a b : ActorId) (t : FeeTier) :
    PoolKey.new a b t = PoolKey.new b a t ∧
    (∀ k, PoolKey.new a b t = .ok k → k.tokenX < k.tokenY ∧ k.feeTier = t ∧
      ((k.tokenX = a ∧ k.tokenY = b) ∨ (k.tokenX = b ∧ k.tokenY = a))) ∧
    ((∃ k, PoolKey.new a b t = .ok k) ↔ a ≠ b) := by
  refine ⟨?_, ?_, ?_⟩
  · unfold PoolKey.new
    by_cases h : a = b
    · simp [h]
    · rw [if_neg h, if_neg (Ne.symm h)]
      rcases Nat.lt_or_gt_of_ne h with h1 | h1
      · rw [if_pos h1, if_neg (Nat.not_lt.2 (Nat.le_of_lt h1))]
      · rw [if_pos h1, if_neg (Nat.not_lt.2 (Nat.le_of_lt h1))]
  · intro k hk
    obtain ⟨hne, rfl⟩ := poolKeyNew_ok.1 hk
    refine ⟨min_lt_max.2 hne, rfl, ?_⟩
    rcases Nat.le_total a b with h | h
    · exact .inl ⟨min_eq_left h, max_eq_right h⟩
    · exact .inr ⟨min_eq_right h, max_eq_left h⟩
  · constructor
    · rintro ⟨k, hk⟩; exact (poolKeyNew_ok.1 hk).1
    · intro h; exact ⟨_, poolKeyNew_ok.2 ⟨h, rfl⟩⟩

/-- C20: a pool once created exists after every later call; creating a pool for an existing pair and
tier is refused in either token order; only pool creation makes a new pool exist. -/
theorem C20_pools {env : Env} {s : Inv} {c : Call} {s' : Inv} (h : step env s c = .ok s') (k : PoolKey) :
    ((s.pools.get k).isSome → (s'.pools.get k).isSome) ∧
    ((s'.pools.get k).isSome → (s.pools.get k).isSome ∨
      ∃ x y p i, c = .createPool x y k.feeTier p i ∧ PoolKey.new x y k.feeTier = .ok k) ∧
    ((s.pools.get k).isSome → ∀ x y p i, PoolKey.new x y k.feeTier = .ok k →
      (∃ e, createPool env s x y k.feeTier p i = .error e) ∧
      (∃ e, createPool env s y x k.feeTier p i = .error e)) := by
  refine ⟨?_, ?_, ?_⟩
  · intro hk
    by_cases hc : ∃ x y t p i, c = .createPool x y t p i
    · obtain ⟨x, y, t, p, i, rfl⟩ := hc
      obtain ⟨_, _, _, _, _, pool, _, rfl⟩ := createPool_ok h
      simp only [Map.get_insert]
      split
      · rfl
      · exact hk
    · push Not at hc
      rw [(step_poolsFrame hc h).dom]; exact hk
  · intro hk
    by_cases hc : ∃ x y t p i, c = .createPool x y t p i
    · obtain ⟨x, y, t, p, i, rfl⟩ := hc
      obtain ⟨_, _, hxy, _, _, pool, _, rfl⟩ := createPool_ok h
      simp only [Map.get_insert] at hk
      split at hk
      · next e =>
        subst e
        exact .inr ⟨x, y, p, i, rfl, poolKeyNew_ok.2 ⟨hxy, rfl⟩⟩
      · exact .inl hk
    · push Not at hc
      rw [(step_poolsFrame hc h).dom] at hk; exact .inl hk
  · intro hk x y p i hxy
    have key : ∀ a b, PoolKey.new a b k.feeTier = .ok k →
        ∃ e, createPool env s a b k.feeTier p i = .error e := by
      intro a b hab
      cases hr : createPool env s a b k.feeTier p i with
      | error e => exact ⟨e, rfl⟩
      | ok s1 =>
        obtain ⟨_, _, _, hn, _⟩ := createPool_ok hr
        obtain ⟨_, e⟩ := poolKeyNew_ok.1 hab
        rw [e, hn] at hk; cases hk
    exact ⟨key x y hxy, key y x (by rw [← (C20_key x y k.feeTier).1]; exact hxy)⟩

example : PoolKey.new 9 4 ⟨5, 2⟩ = .ok ⟨4, 9, ⟨5, 2⟩⟩ ∧ PoolKey.new 4 9 ⟨5, 2⟩ = .ok ⟨4, 9, ⟨5, 2⟩⟩ ∧
    PoolKey.new 4 4 ⟨5, 2⟩ = .error (.inv .TokensAreSame) := by decide +kernel

/-! ## C21 -/

/-- C21 for up to 65535 pools: pages are consecutive slices of the list of created pools in creation
order, the count is their number, no key occurs twice, and the listed keys are exactly the existing
pools. (Full statement: for any number of pools; refuted below.) -/
theorem C21_enumeration_partial {s : Inv} {K : List PoolKey} (h : Created s K)
    (hK : K.length < 2 ^ 16) :
    K.Nodup ∧ (∀ k, k ∈ K ↔ (s.pools.get k).isSome) ∧
    ∀ size off, off + size < 2 ^ 16 →
      getPoolKeys s size off = .ok ((K.drop off).take size, K.length) := by
  have r := created_repr h hK
  exact ⟨r.nodup, r.pools, fun size off hs => getAll_eq r hs⟩

/-- every reachable state has a list of created pools -/
theorem C21_total {s : Inv} (h : Reach s) : ∃ K, Created s K := by
  induction h with
  | init a f => exact ⟨[], .init a f⟩
  | @call s s' env c _ h ih =>
    obtain ⟨K, ih⟩ := ih
    by_cases hc : ∃ x y t p i, c = .createPool x y t p i
    · obtain ⟨x, y, t, p, i, rfl⟩ := hc
      obtain ⟨_, _, hxy, _⟩ := createPool_ok h
      exact ⟨_, .create ih h (poolKeyNew_ok.2 ⟨hxy, rfl⟩)⟩
    · push Not at hc
      exact ⟨K, .call ih hc h⟩
  | transfers _ hb ih =>
    obtain ⟨K, ih⟩ := ih
    exact ⟨K, .transfers ih hb⟩

def t01 : FeeTier := ⟨0, 1⟩
def envA : Env := ⟨7, 0, 0, 0⟩

private theorem pool_ok (s : Inv) : ∃ p, Pool.create (10 ^ 24) 0 0 1 s.admin = .ok p := by
  have h : checkTickToSqrtPriceRelationship 0 1 (10 ^ 24) = .ok true := by decide +kernel
  have h2 : calculateSqrtPrice 0 = .ok (10 ^ 24) := by decide +kernel
  unfold Pool.create
  rw [h, h2]
  exact ⟨_, rfl⟩

theorem many_pools (n : Nat) : ∃ s K, Created s K ∧ K.length = n ∧ s.feeTiers = [t01] ∧
    s.poolKeys.length = n % 2 ^ 16 ∧
    (∀ m, n < m → s.pools.get ⟨0, m, t01⟩ = none ∧ s.poolKeys.index.get ⟨0, m, t01⟩ = none) := by
  induction n with
  | zero =>
    refine ⟨{ Inv.init 7 0 with feeTiers := [t01] }, [], ?_, rfl, rfl, rfl, fun m _ => ⟨rfl, rfl⟩⟩
    refine .call (.init 7 0) (env := envA) (c := .addFeeTier t01) (by simp) ?_
    rfl
  | succ n ih =>
    obtain ⟨s, K, h1, h2, h3, h4, h5⟩ := ih
    obtain ⟨pool, hp⟩ := pool_ok s
    obtain ⟨hn, hi⟩ := h5 (n + 1) (by omega)
    have hk : PoolKey.new 0 (n + 1) t01 = .ok ⟨0, n + 1, t01⟩ := by
      rw [poolKeyNew_ok]; exact ⟨(Nat.succ_ne_zero n).symm, by simp⟩
    have hck : checkTick 0 t01.tickSpacing = .ok () := by decide +kernel
    have hs : step envA s (.createPool 0 (n + 1) t01 (10 ^ 24) 0) = .ok { s with
        pools := s.pools.insert ⟨0, n + 1, t01⟩ pool
        poolKeys := { index := s.poolKeys.index.insert ⟨0, n + 1, t01⟩ s.poolKeys.length
                      byIndex := s.poolKeys.byIndex.insert s.poolKeys.length ⟨0, n + 1, t01⟩
                      length := u16Succ s.poolKeys.length } } := by
      simp only [step, createPool, hk, hck, mapErr, ok_bind, hn, poolsAdd, PoolKeys.add, hi, h3,
        failIf, List.mem_singleton, not_true_eq_false, if_false, Option.isSome_none,
        Bool.false_eq_true]
      rw [show Pool.create (10 ^ 24) 0 envA.now t01.tickSpacing s.admin = .ok pool from hp]
      rfl
    refine ⟨_, K ++ [⟨0, n + 1, t01⟩], .create h1 hs hk, by simp [h2], h3, ?_, ?_⟩
    · show u16Succ s.poolKeys.length = _
      rw [h4]; unfold u16Succ; rw [Nat.mod_add_mod]
    · intro m hm
      obtain ⟨a, b⟩ := h5 m (by omega)
      have hne : (⟨0, m, t01⟩ : PoolKey) ≠ ⟨0, n + 1, t01⟩ := by
        intro e
        have : m = n + 1 := congrArg PoolKey.tokenY e
        omega
      exact ⟨by rw [show (_ : Inv).pools = _ from rfl, Map.get_insert_ne _ _ hne]; exact a,
        by rw [show (_ : Inv).poolKeys = _ from rfl, Map.get_insert_ne _ _ hne]; exact b⟩

/-- C21 without a bound is false: the 16-bit counter wraps, so with 65536 pools the reported count is
0 and no pool is listed. -/
theorem C21_negation :
    ¬ ∀ (s : Inv) (K : List PoolKey), Created s K → ∀ size off r, getPoolKeys s size off = .ok r →
      r.2 = K.length := by
  intro h
  obtain ⟨s, K, h1, h2, _, h4, _⟩ := many_pools (2 ^ 16)
  have hl : s.poolKeys.length = 0 := by rw [h4, Nat.mod_self]
  have hg : getPoolKeys s 1 0 = .ok ([], 0) := by
    unfold getPoolKeys PoolKeys.getAll
    rw [hl]
    rfl
  have := h s K h1 1 0 _ hg
  rw [h2] at this
  exact absurd this (by decide)

/-- two pools are listed in order -/
example : ∃ s K, Created s K ∧ K.length = 2 := by
  obtain ⟨s, K, h1, h2, _⟩ := many_pools 2
  exact ⟨s, K, h1, h2⟩

/-! ## C22 -/

/-- C22: in every reachable state the listed tiers have a spacing of 1 to 100 and a fee below 100%
(10^12), none is listed twice, and so has every pool's tier. -/
theorem C22_reachable {s : Inv} (h : Reach s) :
    (∀ t ∈ s.feeTiers, 1 ≤ t.tickSpacing ∧ t.tickSpacing ≤ 100 ∧ t.fee < 10 ^ 12) ∧
    s.feeTiers.Nodup ∧
    ∀ k, (s.pools.get k).isSome →
      1 ≤ k.feeTier.tickSpacing ∧ k.feeTier.tickSpacing ≤ 100 ∧ k.feeTier.fee < 10 ^ 12 := by
  have := reach_tiers h
  exact ⟨this.ok, this.nodup, fun k hk => (this.pools k hk).1⟩

/-- C22: a call that changes the list of tiers is an addition or a removal made by the admin; a new
pool's tier is listed at the time of creation. -/
theorem C22_admin {env : Env} {s s' : Inv} {c : Call} (h : step env s c = .ok s') :
    (s'.feeTiers ≠ s.feeTiers → env.caller = s.admin ∧
      ((∃ t, c = .addFeeTier t ∧ s'.feeTiers = s.feeTiers ++ [t]) ∨
       (∃ t, c = .removeFeeTier t ∧ s'.feeTiers = s.feeTiers.erase t))) ∧
    ∀ k, s.pools.get k = none → (s'.pools.get k).isSome → k.feeTier ∈ s.feeTiers := by
  constructor
  · intro hne
    refine ⟨?_, ?_⟩
    · rcases (step_settings h).tiers with e | e
      · exact absurd e hne
      · exact e.symm
    · rcases step_feeTiers h with ⟨t, e, _, _, e'⟩ | ⟨t, e, _, e'⟩ | e
      · exact .inl ⟨t, e, e'⟩
      · exact .inr ⟨t, e, e'⟩
      · exact absurd e hne
  · intro k hn hk
    rcases (C20_pools h k).2.1 hk with h1 | ⟨x, y, p, i, rfl, hkey⟩
    · rw [hn] at h1; cases h1
    · exact (createPool_ok h).1

/-- the admin adds a tier, another caller and an invalid tier are refused -/
example : (∃ s', step ⟨7, 0, 0, 0⟩ (Inv.init 7 0) (.addFeeTier ⟨10 ^ 12 - 1, 100⟩) = .ok s' ∧
      s'.feeTiers = [⟨10 ^ 12 - 1, 100⟩]) ∧
    (∃ e, step ⟨8, 0, 0, 0⟩ (Inv.init 7 0) (.addFeeTier ⟨5, 10⟩) = .error e) ∧
    (∃ e, step ⟨7, 0, 0, 0⟩ (Inv.init 7 0) (.addFeeTier ⟨10 ^ 12, 10⟩) = .error e) ∧
    (∃ e, step ⟨7, 0, 0, 0⟩ (Inv.init 7 0) (.addFeeTier ⟨5, 101⟩) = .error e) :=
  ⟨⟨_, rfl, rfl⟩, ⟨_, rfl⟩, ⟨_, rfl⟩, ⟨_, rfl⟩⟩

/-! ## C23 -/

private theorem bal_eq (b : Balances) (w t : ActorId) : Spec.bal b w t = balOf b w t := by
  unfold Spec.bal balOf
  cases b.get (w, t) <;> rfl

/-- C23, credit: accepted exactly if the sum fits in 256 bits; raises exactly this balance by exactly
the amount; no zero is stored. -/
theorem C23_credit (b : Balances) (token who : ActorId) (n : Nat)
    (hwf : ∀ k v, b.get k = some v → v ≠ 0 ∧ v < 2 ^ 256) :
    ((∃ b', increaseTokenBalance b token who n = .ok b') ↔ bal b who token + n < 2 ^ 256) ∧
    ∀ b', increaseTokenBalance b token who n = .ok b' →
      bal b' who token = bal b who token + n ∧
      (∀ w t, (w, t) ≠ (who, token) → b'.get (w, t) = b.get (w, t)) ∧
      ∀ k v, b'.get k = some v → v ≠ 0 ∧ v < 2 ^ 256 := by
  have hlt : balOf b who token < 2 ^ 256 := by
    unfold balOf
    cases hg : b.get (who, token) with
    | none => simp
    | some v => exact (hwf _ _ hg).2
  constructor
  · rw [bal_eq]
    constructor
    · rintro ⟨b', h⟩
      rcases increase_ok.1 h with ⟨rfl, _⟩ | ⟨_, h, _⟩
      · simpa using hlt
      · exact h
    · intro h
      by_cases hn : n = 0
      · exact ⟨b, increase_ok.2 (.inl ⟨hn, rfl⟩)⟩
      · exact ⟨_, increase_ok.2 (.inr ⟨hn, h, rfl⟩)⟩
  · intro b' h
    refine ⟨?_, ?_, balWF_inc hwf h⟩
    · rw [bal_eq, bal_eq, increase_bal h, if_pos ⟨rfl, rfl⟩]
    · intro w t hne; exact increase_other h hne

/-- C23, debit of an amount: accepted exactly if the balance covers it; lowers exactly this balance by
exactly the amount; no zero is stored. -/
theorem C23_debit (b : Balances) (token who : ActorId) (n : Nat)
    (hwf : ∀ k v, b.get k = some v → v ≠ 0 ∧ v < 2 ^ 256) :
    ((∃ r, decreaseTokenBalance b token who (some n) = .ok r) ↔ n ≤ bal b who token) ∧
    ∀ b' m, decreaseTokenBalance b token who (some n) = .ok (b', m) →
      m = n ∧ bal b' who token + n = bal b who token ∧
      (∀ w t, (w, t) ≠ (who, token) → b'.get (w, t) = b.get (w, t)) ∧
      ∀ k v, b'.get k = some v → v ≠ 0 ∧ v < 2 ^ 256 := by
  constructor
  · rw [bal_eq]
    unfold balOf
    constructor
    · rintro ⟨r, h⟩
      rcases decrease_some_ok.1 h with ⟨rfl, _⟩ | ⟨_, v, hv, hle, _⟩
      · exact Nat.zero_le _
      · rw [hv]; exact hle
    · intro h
      by_cases hn : n = 0
      · exact ⟨_, decrease_some_ok.2 (.inl ⟨hn, rfl⟩)⟩
      · cases hg : b.get (who, token) with
        | none => rw [hg] at h; simp at h; exact absurd h hn
        | some v =>
          rw [hg] at h
          exact ⟨_, decrease_some_ok.2 (.inr ⟨hn, v, hg, h, rfl⟩)⟩
  · intro b' m h
    obtain ⟨h1, h2⟩ := decrease_bal h who token
    rw [if_pos ⟨rfl, rfl⟩] at h1
    refine ⟨h2, ?_, ?_, balWF_dec hwf h⟩
    · rw [bal_eq, bal_eq]; exact h1.symm
    · intro w t hne; exact decrease_other h hne

/-- C23, debit without amount: accepted exactly if a balance is stored, removes and returns all of
it. -/
theorem C23_debit_all (b : Balances) (token who : ActorId)
    (hwf : ∀ k v, b.get k = some v → v ≠ 0 ∧ v < 2 ^ 256) :
    ((∃ r, decreaseTokenBalance b token who none = .ok r) ↔ 0 < bal b who token) ∧
    ∀ b' m, decreaseTokenBalance b token who none = .ok (b', m) →
      m = bal b who token ∧ bal b' who token = 0 ∧
      (∀ w t, (w, t) ≠ (who, token) → b'.get (w, t) = b.get (w, t)) ∧
      ∀ k v, b'.get k = some v → v ≠ 0 ∧ v < 2 ^ 256 := by
  constructor
  · unfold Spec.bal
    cases hg : b.get (who, token) with
    | none =>
      constructor
      · rintro ⟨r, h⟩
        obtain ⟨v, hv, _⟩ := decrease_none_ok.1 h
        rw [hg] at hv; cases hv
      · intro h; simp at h
    | some v =>
      exact ⟨fun _ => Nat.pos_of_ne_zero (hwf _ _ hg).1, fun _ => ⟨_, decrease_none_ok.2 ⟨v, hg, rfl⟩⟩⟩
  · intro b' m h
    refine ⟨?_, ?_, fun w t hne => decrease_other h hne, balWF_dec hwf h⟩
    · obtain ⟨v, hv, e⟩ := decrease_none_ok.1 h
      cases e
      unfold Spec.bal; rw [hv]
    · obtain ⟨v, hv, e⟩ := decrease_none_ok.1 h
      cases e
      unfold Spec.bal; rw [Map.get_erase_self]

/-- C23: in every reachable state no zero balance is stored and every balance fits in 256 bits. -/
theorem C23_reachable {s : Inv} (h : Reach s) :
    ∀ k v, s.balances.get k = some v → v ≠ 0 ∧ v < 2 ^ 256 := reach_balWF h

/-- credit, partial debit, full debit, overdraft -/
example : (do
      let b ← increaseTokenBalance ∅ 3 9 100
      let b ← increaseTokenBalance b 4 9 50
      let r ← decreaseTokenBalance b 3 9 (some 30)
      let q ← decreaseTokenBalance r.1 4 9 none
      pure (bal q.1 9 3, bal q.1 9 4, r.2, q.2) : M (Nat × Nat × Nat × Nat)) = .ok (70, 0, 30, 50) ∧
    (do
      let b ← increaseTokenBalance ∅ 3 9 100
      let r ← decreaseTokenBalance b 3 9 (some 101)
      pure r.2 : M Nat) = .error (.inv .FailedToChangeTokenBalance) := by
  decide +kernel

end Verif
