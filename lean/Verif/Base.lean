import Mathlib.Tactic.Linarith
import Mathlib.Tactic.Ring
import Mathlib.Tactic.Abel
import Mathlib.Algebra.BigOperators.Group.List.Basic
import Mathlib.Algebra.Order.BigOperators.Group.List

/-!
# Base layer: error monad, width-checked arithmetic, finite maps

Everything in the model returns `M α = Except Err α`.

* `Err.panic`   : the Rust code panics (`panic!`, `unwrap`, failed `assert!`, overflowing decimal
                  operator).
* `Err.track`   : the Rust code returns `Err(TrackableError)`; the location text is not modelled.
* `Err.inv e`   : the Rust code returns `Err(InvariantError::e)` (or panics with it at the service
                  boundary, `invariant_service.rs` `panicking`).
-/

namespace Verif

/-- `src/contracts/errors.rs` (whole enum). -/
inductive InvErr
  | NotAdmin | NotFeeReceiver | PoolAlreadyExist | PoolNotFound | TickAlreadyExist
  | InvalidTickIndexOrTickSpacing | PositionNotFound | TickNotFound | FeeTierNotFound
  | PoolKeyNotFound | AmountIsZero | WrongLimit | PriceLimitReached | NoGainSwap
  | InvalidTickSpacing | FeeTierAlreadyExist | PoolKeyAlreadyExist | UnauthorizedFeeReceiver
  | ZeroLiquidity | RecoverableTransferError | UnrecoverableTransferError | TransferError
  | TokensAreSame | AmountUnderMinimumAmountOut | InvalidFee | NotEmptyTickDeinitialization
  | InvalidInitTick | InvalidInitSqrtPrice | NotEnoughGasToExecute | TickLimitReached
  | InvalidTickIndex | NoBalanceForTheToken | FailedToChangeTokenBalance | ReplyHandlingFailed
  | InvalidVaraDepositAttempt | InvalidVaraWithdrawAttempt
  deriving DecidableEq, Repr

inductive Err
  | panic
  | track
  | inv (e : InvErr)
  deriving DecidableEq, Repr

abbrev M (α : Type) := Except Err α

/-- `.unwrap()` / `unwrap!` on a result: any error becomes a panic. -/
def unwrap {α : Type} (x : M α) : M α :=
  match x with
  | .ok a => .ok a
  | .error _ => .error .panic

/-- `.map_err(|_| e)` -/
def mapErr {α : Type} (e : Err) (x : M α) : M α :=
  match x with
  | .ok a => .ok a
  | .error _ => .error e

/-- `.ok_or(e)` -/
def okOr {α : Type} (e : Err) (x : Option α) : M α :=
  match x with
  | some a => .ok a
  | none => .error e

/-- fail with `e` unless `c` -/
def ensure (c : Prop) [Decidable c] (e : Err) : M Unit :=
  if c then .ok () else .error e

/-- `if c { return Err(e) }` -/
def failIf (c : Prop) [Decidable c] (e : Err) : M Unit :=
  if c then .error e else .ok ()

/-- value must fit in `w` bits -/
def fit (w : Nat) (e : Err) (n : Nat) : M Nat :=
  if n < 2 ^ w then .ok n else .error e

/-- checked addition on a `w`-bit unsigned type -/
def addC (w : Nat) (e : Err) (a b : Nat) : M Nat := fit w e (a + b)

/-- checked multiplication on a `w`-bit unsigned type -/
def mulC (w : Nat) (e : Err) (a b : Nat) : M Nat := fit w e (a * b)

/-- checked subtraction on an unsigned type -/
def subC (e : Err) (a b : Nat) : M Nat :=
  if b ≤ a then .ok (a - b) else .error e

/-- checked division -/
def divC (e : Err) (a b : Nat) : M Nat :=
  if b = 0 then .error e else .ok (a / b)

section lemmas
variable {α β : Type}

@[simp] theorem bind_ok_iff {x : M α} {f : α → M β} {b : β} :
    (x >>= f) = .ok b ↔ ∃ a, x = .ok a ∧ f a = .ok b := by
  cases x with
  | error e => simp [bind, Except.bind]
  | ok a => simp [bind, Except.bind]

@[simp] theorem except_bind_ok_iff {x : M α} {f : α → M β} {b : β} :
    Except.bind x f = .ok b ↔ ∃ a, x = .ok a ∧ f a = .ok b := by
  cases x with
  | error e => simp [Except.bind]
  | ok a => simp [Except.bind]

@[simp] theorem pure_ok_iff {a b : α} : ((pure a : M α) = .ok b) ↔ a = b := by
  simp [pure, Except.pure]

@[simp] theorem throw_ok_iff {e : Err} {b : α} : ((throw e : M α) = .ok b) ↔ False := by
  simp [throw, throwThe, MonadExceptOf.throw]

@[simp] theorem ok_bind (a : α) (f : α → M β) : ((Except.ok a : M α) >>= f) = f a := rfl

@[simp] theorem error_bind (e : Err) (f : α → M β) :
    ((Except.error e : M α) >>= f) = .error e := rfl

@[simp] theorem unwrap_ok_iff {x : M α} {a : α} : unwrap x = .ok a ↔ x = .ok a := by
  cases x <;> simp [unwrap]

@[simp] theorem mapErr_ok_iff {x : M α} {e : Err} {a : α} : mapErr e x = .ok a ↔ x = .ok a := by
  cases x <;> simp [mapErr]

@[simp] theorem okOr_ok_iff {x : Option α} {e : Err} {a : α} : okOr e x = .ok a ↔ x = some a := by
  cases x <;> simp [okOr]

@[simp] theorem ensure_ok_iff {c : Prop} [Decidable c] {e : Err} {u : Unit} :
    ensure c e = .ok u ↔ c := by
  unfold ensure; split <;> simp_all

@[simp] theorem failIf_ok_iff {c : Prop} [Decidable c] {e : Err} {u : Unit} :
    failIf c e = .ok u ↔ ¬ c := by
  unfold failIf; split <;> simp_all

theorem failIf_pos {c : Prop} [Decidable c] {e : Err} (h : c) : failIf c e = .error e := if_pos h

theorem failIf_neg {c : Prop} [Decidable c] {e : Err} (h : ¬ c) : failIf c e = .ok () := if_neg h

@[simp] theorem fit_ok_iff {w : Nat} {e : Err} {n m : Nat} :
    fit w e n = .ok m ↔ n < 2 ^ w ∧ m = n := by
  unfold fit; split
  · simp_all [eq_comm]
  · simp_all

@[simp] theorem addC_ok_iff {w : Nat} {e : Err} {a b m : Nat} :
    addC w e a b = .ok m ↔ a + b < 2 ^ w ∧ m = a + b := by
  simp [addC]

@[simp] theorem mulC_ok_iff {w : Nat} {e : Err} {a b m : Nat} :
    mulC w e a b = .ok m ↔ a * b < 2 ^ w ∧ m = a * b := by
  simp [mulC]

@[simp] theorem subC_ok_iff {e : Err} {a b m : Nat} :
    subC e a b = .ok m ↔ b ≤ a ∧ m = a - b := by
  unfold subC; split
  · simp_all [eq_comm]
  · simp_all

@[simp] theorem divC_ok_iff {e : Err} {a b m : Nat} :
    divC e a b = .ok m ↔ b ≠ 0 ∧ m = a / b := by
  unfold divC; split
  · simp_all
  · simp_all [eq_comm]

theorem ite_ok_iff {c : Prop} [Decidable c] {x y : M α} {a : α} :
    (if c then x else y) = .ok a ↔ (c ∧ x = .ok a) ∨ (¬ c ∧ y = .ok a) := by
  split <;> simp_all

theorem guard_ok_iff {c : Prop} [Decidable c] {e : Err} {y : M α} {a : α} :
    (if c then (Except.error e : M α) else y) = .ok a ↔ ¬ c ∧ y = .ok a := by
  split <;> simp_all

theorem isOk_iff_exists {x : M α} : x.isOk = true ↔ ∃ a, x = .ok a := by
  cases x <;> simp [Except.isOk, Except.toBool]

end lemmas

/-! ## Finite maps

`HashMap<K, V>` is modelled by an association list in which each key occurs at most once. -/

structure Map (K V : Type) [DecidableEq K] where
  entries : List (K × V)
  nodup : (entries.map Prod.fst).Nodup

namespace Map
variable {K V : Type} [DecidableEq K]

instance [Repr K] [Repr V] : Repr (Map K V) := ⟨fun m n => reprPrec m.entries n⟩

def empty : Map K V := ⟨[], by simp⟩

instance : EmptyCollection (Map K V) := ⟨empty⟩
instance : Inhabited (Map K V) := ⟨empty⟩

/-- lookup in an association list -/
def lk : List (K × V) → K → Option V
  | [], _ => none
  | (k', v) :: t, k => if k = k' then some v else lk t k

def get (m : Map K V) (k : K) : Option V := lk m.entries k

def contains (m : Map K V) (k : K) : Bool := (m.get k).isSome

/-- removal in an association list -/
def rm (l : List (K × V)) (k : K) : List (K × V) := l.filter (fun p => decide (p.1 ≠ k))

theorem rm_fst_nodup {l : List (K × V)} (h : (l.map Prod.fst).Nodup) (k : K) :
    ((rm l k).map Prod.fst).Nodup :=
  h.sublist ((List.filter_sublist (l := l)).map Prod.fst)

theorem not_mem_rm (l : List (K × V)) (k : K) : k ∉ (rm l k).map Prod.fst := by
  simp [rm]

def erase (m : Map K V) (k : K) : Map K V := ⟨rm m.entries k, rm_fst_nodup m.nodup k⟩

def insert (m : Map K V) (k : K) (v : V) : Map K V :=
  ⟨(k, v) :: rm m.entries k, by
    simp only [List.map_cons, List.nodup_cons]
    exact ⟨not_mem_rm _ _, rm_fst_nodup m.nodup k⟩⟩

theorem lk_rm (l : List (K × V)) (k k' : K) :
    lk (rm l k) k' = if k' = k then none else lk l k' := by
  induction l with
  | nil => simp [rm, lk]
  | cons p t ih =>
    obtain ⟨a, v⟩ := p
    by_cases h : a = k
    · subst h
      have : rm ((a, v) :: t) a = rm t a := by simp [rm]
      rw [this, ih]
      by_cases h2 : k' = a <;> simp [h2, lk]
    · have : rm ((a, v) :: t) k = (a, v) :: rm t k := by simp [rm, h]
      rw [this]
      simp only [lk]
      rw [ih]
      by_cases h2 : k' = a
      · subst h2; simp [h]
      · simp [h2]

@[simp] theorem get_empty (k : K) : (empty : Map K V).get k = none := rfl
@[simp] theorem get_empty' (k : K) : (∅ : Map K V).get k = none := rfl

theorem get_erase (m : Map K V) (k k' : K) :
    (m.erase k).get k' = if k' = k then none else m.get k' := lk_rm _ _ _

theorem get_insert (m : Map K V) (k k' : K) (v : V) :
    (m.insert k v).get k' = if k' = k then some v else m.get k' := by
  show lk ((k, v) :: rm m.entries k) k' = _
  simp only [lk]
  split
  · rfl
  · rw [lk_rm]; simp_all [get]

@[simp] theorem get_insert_self (m : Map K V) (k : K) (v : V) : (m.insert k v).get k = some v := by
  simp [get_insert]

@[simp] theorem get_erase_self (m : Map K V) (k : K) : (m.erase k).get k = none := by
  simp [get_erase]

theorem get_insert_ne (m : Map K V) {k k' : K} (v : V) (h : k' ≠ k) :
    (m.insert k v).get k' = m.get k' := by
  simp [get_insert, h]

theorem get_erase_ne (m : Map K V) {k k' : K} (h : k' ≠ k) :
    (m.erase k).get k' = m.get k' := by
  simp [get_erase, h]

theorem lk_mem {l : List (K × V)} (h : (l.map Prod.fst).Nodup) (k : K) (v : V) :
    lk l k = some v ↔ (k, v) ∈ l := by
  induction l with
  | nil => simp [lk]
  | cons p t ih =>
    obtain ⟨a, w⟩ := p
    simp only [List.map_cons, List.nodup_cons] at h
    simp only [lk, List.mem_cons, Prod.mk.injEq]
    by_cases h2 : k = a
    · subst h2
      simp only [if_true, Option.some.injEq]
      constructor
      · intro h3; left; exact ⟨trivial, h3.symm⟩
      · rintro (⟨_, h3⟩ | h3)
        · exact h3.symm
        · exact absurd (List.mem_map_of_mem (f := Prod.fst) h3) h.1
    · simp [h2, ih h.2]

theorem get_mem (m : Map K V) (k : K) (v : V) : m.get k = some v ↔ (k, v) ∈ m.entries :=
  lk_mem m.nodup k v

/-- sum of `f k v` over all entries -/
def sum {R : Type} [AddCommMonoid R] (m : Map K V) (f : K → V → R) : R :=
  (m.entries.map (fun p => f p.1 p.2)).sum

section sum
variable {R : Type} [AddCommMonoid R]

@[simp] theorem sum_empty (f : K → V → R) : (empty : Map K V).sum f = 0 := rfl
@[simp] theorem sum_empty' (f : K → V → R) : (∅ : Map K V).sum f = 0 := rfl

theorem sum_insert (m : Map K V) (k : K) (v : V) (f : K → V → R) :
    (m.insert k v).sum f = f k v + (m.erase k).sum f := by
  simp [sum, insert, erase]

theorem rm_eq_self {l : List (K × V)} {k : K} (h : lk l k = none) : rm l k = l := by
  induction l with
  | nil => rfl
  | cons p t ih =>
    obtain ⟨a, w⟩ := p
    simp only [lk] at h
    split at h
    · exact absurd h (by simp)
    · rename_i hne
      have : rm ((a, w) :: t) k = (a, w) :: rm t k := by
        have hne' : ¬ a = k := fun e => hne e.symm
        simp [rm, hne']
      rw [this, ih h]

theorem erase_eq_self {m : Map K V} {k : K} (h : m.get k = none) : m.erase k = m := by
  cases m with
  | mk l hl =>
    simp only [erase]
    congr
    exact rm_eq_self h

theorem sum_erase_none {m : Map K V} {k : K} (h : m.get k = none) (f : K → V → R) :
    (m.erase k).sum f = m.sum f := by rw [erase_eq_self h]

theorem sum_rm {l : List (K × V)} (hl : (l.map Prod.fst).Nodup) {k : K} {v : V}
    (h : lk l k = some v) (f : K → V → R) :
    (l.map (fun p => f p.1 p.2)).sum = f k v + ((rm l k).map (fun p => f p.1 p.2)).sum := by
  induction l with
  | nil => simp [lk] at h
  | cons p t ih =>
    obtain ⟨a, w⟩ := p
    simp only [List.map_cons, List.nodup_cons] at hl
    simp only [lk] at h
    split at h
    · rename_i e
      subst e
      simp only [Option.some.injEq] at h
      subst h
      have h1 : rm ((k, w) :: t) k = rm t k := by simp [rm]
      have h2 : lk t k = none := by
        cases h3 : lk t k with
        | none => rfl
        | some u =>
          exact absurd (List.mem_map_of_mem (f := Prod.fst) ((lk_mem hl.2 k u).1 h3)) hl.1
      rw [h1, rm_eq_self h2]
      simp
    · rename_i hne
      have h1 : rm ((a, w) :: t) k = (a, w) :: rm t k := by
        have hne' : ¬ a = k := fun e => hne e.symm
        simp [rm, hne']
      rw [h1]
      simp only [List.map_cons, List.sum_cons]
      rw [ih hl.2 h]
      rw [← add_assoc, ← add_assoc, add_comm (f a w)]

theorem sum_erase_some {m : Map K V} {k : K} {v : V} (h : m.get k = some v) (f : K → V → R) :
    m.sum f = f k v + (m.erase k).sum f := sum_rm m.nodup h f

theorem sum_insert_none {m : Map K V} {k : K} (v : V) (h : m.get k = none) (f : K → V → R) :
    (m.insert k v).sum f = f k v + m.sum f := by
  rw [sum_insert, sum_erase_none h]

theorem sum_congr {m : Map K V} {f g : K → V → R}
    (h : ∀ k v, m.get k = some v → f k v = g k v) : m.sum f = m.sum g := by
  unfold sum
  congr 1
  apply List.map_congr_left
  intro p hp
  exact h p.1 p.2 ((get_mem m p.1 p.2).2 hp)

theorem sum_add (m : Map K V) (f g : K → V → R) :
    m.sum (fun k v => f k v + g k v) = m.sum f + m.sum g := by
  unfold sum
  induction m.entries with
  | nil => simp
  | cons p t ih => simp only [List.map_cons, List.sum_cons, ih]; abel

@[simp] theorem sum_zero (m : Map K V) : m.sum (fun _ _ => (0 : R)) = 0 := by
  unfold sum
  induction m.entries with
  | nil => simp
  | cons p t ih => simp

end sum

theorem sum_le_sum {R : Type} [AddCommMonoid R] [PartialOrder R] [IsOrderedAddMonoid R]
    {m : Map K V} {f g : K → V → R}
    (h : ∀ k v, m.get k = some v → f k v ≤ g k v) : m.sum f ≤ m.sum g := by
  unfold sum
  apply List.sum_le_sum
  intro p hp
  exact h p.1 p.2 ((get_mem m p.1 p.2).2 hp)

theorem sum_nonneg {R : Type} [AddCommMonoid R] [PartialOrder R] [IsOrderedAddMonoid R]
    {m : Map K V} {f : K → V → R}
    (h : ∀ k v, m.get k = some v → 0 ≤ f k v) : 0 ≤ m.sum f := by
  have := sum_le_sum (m := m) (f := fun _ _ => (0 : R)) (g := f) h
  simpa using this

theorem le_sum {R : Type} [AddCommMonoid R] [PartialOrder R] [IsOrderedAddMonoid R]
    {m : Map K V} {f : K → V → R}
    (h : ∀ k v, m.get k = some v → 0 ≤ f k v) {k : K} {v : V} (hk : m.get k = some v) :
    f k v ≤ m.sum f := by
  rw [sum_erase_some hk]
  have : 0 ≤ (m.erase k).sum f := by
    apply sum_nonneg
    intro k' v' h'
    rw [get_erase] at h'
    split at h'
    · exact absurd h' (by simp)
    · exact h k' v' h'
  exact le_add_of_nonneg_right this

theorem map_sum_hom {R S : Type} [AddCommMonoid R] [AddCommMonoid S] (φ : R →+ S) (m : Map K V)
    (f : K → V → R) : φ (m.sum f) = m.sum (fun k v => φ (f k v)) := by
  unfold sum
  induction m.entries with
  | nil => simp
  | cons p t ih => simp [ih]

end Map

end Verif
