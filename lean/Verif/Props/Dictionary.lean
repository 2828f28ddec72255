import Verif.Spec.Dictionary
import Verif.Model.Removal
import Verif.Proofs.TickmapExport
import Verif.Proofs.TickInv
import Verif.Spec.Demo

/-!
# Property C117: the stores of pools and ticks are dictionaries

`Pools` and `Ticks` are hash maps whose operations refuse to add what is there and to change or remove what is not.
`add_tick` and `remove_tick` of the storage keep the ticks together with their marks in the tick map.
-/

namespace Verif
open Spec

/-! ### The operations -/

def ticksDo (m : Map (PoolKey × Int) Tick) : DictOp (PoolKey × Int) Tick → M (Map (PoolKey × Int) Tick)
  | .add k t => ticksAdd m k.1 k.2 t
  | .update k t => ticksUpdate m k.1 k.2 t
  | .remove k => ticksRemove m k.1 k.2

def poolsDo (m : Map PoolKey Pool) : DictOp PoolKey Pool → M (Map PoolKey Pool)
  | .add k p => poolsAdd m k p
  | .update k p => poolsUpdate m k p
  | .remove k => poolsRemove m k

/-- some operations after each other; those that fail change nothing -/
def runOps {σ ω : Type} (act : σ → ω → M σ) : σ → List ω → σ
  | m, [] => m
  | m, o :: r => runOps act ((act m o).toOption.getD m) r

private theorem run_shows {σ κ ν : Type} [DecidableEq κ] {act : σ → DictOp κ ν → M σ} {shows_ : σ → Dict κ ν}
    {a b : InvErr} (h : ∀ m o, DictOutcome shows_ a b (shows_ m) o (act m o)) (ops : List (DictOp κ ν)) :
    ∀ m, shows_ (runOps act m ops) = dictAfter (shows_ m) ops := by
  induction ops with
  | nil => exact fun _ => rfl
  | cons o r ih =>
    intro m
    rw [runOps, dictAfter, ih]
    congr 1
    rcases h m o with ⟨hp, c, hc, hs⟩ | ⟨hp, hc⟩
    · rw [hc, if_pos hp, ← hs]; rfl
    · rw [hc, if_neg hp]; rfl

private theorem get_insert_update {κ ν : Type} [DecidableEq κ] (m : Map κ ν) (k : κ) (v : ν) :
    (m.insert k v).get = Function.update m.get k (some v) := by
  funext j
  rw [Map.get_insert, Function.update_apply]

private theorem get_erase_update {κ ν : Type} [DecidableEq κ] (m : Map κ ν) (k : κ) :
    (m.erase k).get = Function.update m.get k none := by
  funext j
  rw [Map.get_erase, Function.update_apply]

private theorem ticks_op (m : Map (PoolKey × Int) Tick) (o : DictOp (PoolKey × Int) Tick) :
    DictOutcome Map.get .TickAlreadyExist .TickNotFound m.get o (ticksDo m o) := by
  cases o with
  | add k t =>
    unfold ticksDo ticksAdd
    cases h : m.get k with
    | none => exact .inl ⟨h, _, by simp only [h], get_insert_update m k t⟩
    | some v => exact .inr ⟨fun hc => (by simp only [DictOp.Possible] at hc; rw [h] at hc; cases hc), by simp only [h]; rfl⟩
  | update k t =>
    unfold ticksDo ticksUpdate ticksGet
    cases h : m.get k with
    | none => exact .inr ⟨fun hc => (by simp only [DictOp.Possible] at hc; rw [h] at hc; cases hc), by simp only [h]; rfl⟩
    | some v => exact .inl ⟨(by simp only [DictOp.Possible]; rw [h]; rfl), _, by simp only [h]; rfl, get_insert_update m k t⟩
  | remove k =>
    unfold ticksDo ticksRemove ticksGet
    cases h : m.get k with
    | none => exact .inr ⟨fun hc => (by simp only [DictOp.Possible] at hc; rw [h] at hc; cases hc), by simp only [h]; rfl⟩
    | some v => exact .inl ⟨(by simp only [DictOp.Possible]; rw [h]; rfl), _, by simp only [h]; rfl, get_erase_update m k⟩

private theorem pools_op (m : Map PoolKey Pool) (o : DictOp PoolKey Pool) :
    DictOutcome Map.get .PoolAlreadyExist .PoolNotFound m.get o (poolsDo m o) := by
  cases o with
  | add k t =>
    unfold poolsDo poolsAdd
    cases h : m.get k with
    | none => exact .inl ⟨h, _, by simp only [h], get_insert_update m k t⟩
    | some v => exact .inr ⟨fun hc => (by simp only [DictOp.Possible] at hc; rw [h] at hc; cases hc), by simp only [h]; rfl⟩
  | update k t =>
    unfold poolsDo poolsUpdate poolsGet
    cases h : m.get k with
    | none => exact .inr ⟨fun hc => (by simp only [DictOp.Possible] at hc; rw [h] at hc; cases hc), by simp only [h]; rfl⟩
    | some v => exact .inl ⟨(by simp only [DictOp.Possible]; rw [h]; rfl), _, by simp only [h]; rfl, get_insert_update m k t⟩
  | remove k =>
    unfold poolsDo poolsRemove poolsGet
    cases h : m.get k with
    | none => exact .inr ⟨fun hc => (by simp only [DictOp.Possible] at hc; rw [h] at hc; cases hc), by simp only [h]; rfl⟩
    | some v => exact .inl ⟨(by simp only [DictOp.Possible]; rw [h]; rfl), _, by simp only [h]; rfl, get_erase_update m k⟩

/-- C117, ticks: after any operations the store shows exactly the ticks of a dictionary, says of any other that it is not
found, and the next operation has the outcome that the dictionary asks for. -/
theorem C117_ticks (ops : List (DictOp (PoolKey × Int) Tick)) :
    let m := runOps ticksDo ∅ ops
    let d := dictAfter (fun _ => none) ops
    (∀ k i, ticksGet m k i = match d (k, i) with | some t => .ok t | none => .error (.inv .TickNotFound)) ∧
    ∀ o, DictOutcome Map.get .TickAlreadyExist .TickNotFound d o (ticksDo m o) := by
  have h : Map.get (runOps ticksDo ∅ ops) = dictAfter (fun _ => none) ops := run_shows ticks_op ops ∅
  intro m d
  refine ⟨fun k i => ?_, fun o => ?_⟩
  · show okOr _ (Map.get (runOps ticksDo ∅ ops) (k, i)) = _
    rw [h]
    show okOr _ (d (k, i)) = _
    cases d (k, i) <;> rfl
  · have := ticks_op m o
    rwa [show Map.get m = d from h] at this

/-- C117, pools: the same of the pools. -/
theorem C117_pools (ops : List (DictOp PoolKey Pool)) :
    let m := runOps poolsDo ∅ ops
    let d := dictAfter (fun _ => none) ops
    (∀ k, poolsGet m k = match d k with | some p => .ok p | none => .error (.inv .PoolNotFound)) ∧
    ∀ o, DictOutcome Map.get .PoolAlreadyExist .PoolNotFound d o (poolsDo m o) := by
  have h : Map.get (runOps poolsDo ∅ ops) = dictAfter (fun _ => none) ops := run_shows pools_op ops ∅
  intro m d
  refine ⟨fun k => ?_, fun o => ?_⟩
  · show okOr _ (Map.get (runOps poolsDo ∅ ops) k) = _
    rw [h]
    show okOr _ (d k) = _
    cases d k <;> rfl
  · have := pools_op m o
    rwa [show Map.get m = d from h] at this

/-! ### Ticks with their marks -/

/-- a tick to be added or removed -/
structure TickOp where
  add : Bool
  key : PoolKey
  tick : Tick

/-- the tick lies on the grid of its pool -/
def TickOp.Legal (o : TickOp) : Prop := 1 ≤ o.key.feeTier.tickSpacing ∧ Grid o.key.feeTier.tickSpacing o.tick.index

def storeDo (s : Inv) (o : TickOp) : M Inv := if o.add then addTick s o.key o.tick else removeTick s o.key o.tick

/-- an operation on the ticks is possible: a new tick can be added, an empty one that is there can be removed -/
def TickOp.Possible (d : Dict (PoolKey × Int) Tick) (o : TickOp) : Prop :=
  if o.add then d (o.key, o.tick.index) = none else o.tick.liquidityGross = 0 ∧ (d (o.key, o.tick.index)).isSome

instance (d : Dict (PoolKey × Int) Tick) (o : TickOp) : Decidable (o.Possible d) := by
  unfold TickOp.Possible
  have : Decidable (d (o.key, o.tick.index) = none) := decidable_of_iff _ Option.isNone_iff_eq_none
  infer_instance

/-- the ticks afterwards -/
def TickOp.apply (d : Dict (PoolKey × Int) Tick) (o : TickOp) : Dict (PoolKey × Int) Tick :=
  Function.update d (o.key, o.tick.index) (if o.add then some o.tick else none)

def ticksAfter : Dict (PoolKey × Int) Tick → List TickOp → Dict (PoolKey × Int) Tick
  | d, [] => d
  | d, o :: r => ticksAfter (if o.Possible d then o.apply d else d) r

/-- The storage shows `d`: the ticks are those of `d`, and on the grid of any pool exactly these are marked. -/
structure Marked (s : Inv) (d : Dict (PoolKey × Int) Tick) : Prop where
  ticks : ∀ k i, ticksGet s.ticks k i = match d (k, i) with | some t => .ok t | none => .error (.inv .TickNotFound)
  marks : ∀ k i, 1 ≤ k.feeTier.tickSpacing → Grid k.feeTier.tickSpacing i →
    tickmapGet s.tickmap i k.feeTier.tickSpacing k = .ok (d (k, i)).isSome

private theorem ticks_get {s : Inv} {d : Dict (PoolKey × Int) Tick} (h : Marked s d) (k : PoolKey) (i : Int) :
    s.ticks.get (k, i) = d (k, i) := by
  have := h.ticks k i
  unfold ticksGet okOr at this
  cases h1 : s.ticks.get (k, i) <;> cases h2 : d (k, i) <;> rw [h1, h2] at this <;> simp_all

private theorem bit {s : Inv} {d : Dict (PoolKey × Int) Tick} (h : Marked s d) {k : PoolKey} {i : Int}
    (h1 : 1 ≤ k.feeTier.tickSpacing) (h2 : Grid k.feeTier.tickSpacing i) :
    tmBit s.tickmap k (bitmapIndex i k.feeTier.tickSpacing) = (d (k, i)).isSome := by
  have := h.marks k i h1 h2
  rw [tickmapGet_eq h2] at this
  exact Except.ok.inj this

private theorem flip_panic {tm : Tickmap} {v : Bool} {sp : Nat} {t : Int} {key : PoolKey} (hg : Grid sp t)
    (h : tmBit tm key (bitmapIndex t sp) = v) : tickmapFlip tm v t sp key = .error .panic := by
  unfold tickmapFlip
  rw [tickToPosition_ok hg, ok_bind]
  dsimp only
  unfold tmBit at h
  rw [decide_getBit_zero, h]
  unfold ensure
  rw [if_neg (by cases v <;> decide)]
  rfl

private theorem marked_after {s : Inv} {d : Dict (PoolKey × Int) Tick} (h : Marked s d) {o : TickOp} (hl : o.Legal)
    {tm : Tickmap} {ticks : Map (PoolKey × Int) Tick}
    (hf : tickmapFlip s.tickmap o.add o.tick.index o.key.feeTier.tickSpacing o.key = .ok tm)
    (ht : ticks.get = (o.apply d)) : Marked { s with ticks := ticks, tickmap := tm } (o.apply d) := by
  refine ⟨fun k i => ?_, fun k i h1 h2 => ?_⟩
  · unfold ticksGet
    dsimp only
    rw [ht]
    cases o.apply d (k, i) <;> rfl
  · rw [tickmapGet_eq h2]
    dsimp only
    rw [tmBit_flip hf]
    congr 1
    unfold TickOp.apply
    rw [Function.update_apply]
    by_cases hc : (k, i) = (o.key, o.tick.index)
    · obtain ⟨rfl, rfl⟩ := Prod.mk.inj hc
      rw [if_pos ⟨rfl, rfl⟩, if_pos rfl]
      cases o.add <;> rfl
    · rw [if_neg hc, if_neg, bit h h1 h2]
      rintro ⟨rfl, e⟩
      exact hc (by rw [bitmapIndex_inj h1 h2 hl.2 e])

/-- The outcome of adding or removing a tick: done if it is possible; a tick that is there is not added again; a tick with
liquidity is not removed; and the removal of a tick that is not there ends in a panic. -/
def TickOutcome (d : Dict (PoolKey × Int) Tick) (o : TickOp) (r : M Inv) : Prop :=
  (o.Possible d ∧ ∃ s, r = .ok s ∧ Marked s (o.apply d)) ∨
  (¬ o.Possible d ∧ r = .error (if o.add then .inv .TickAlreadyExist
    else if o.tick.liquidityGross ≠ 0 then .inv .NotEmptyTickDeinitialization else .panic))

private theorem store_op {s : Inv} {d : Dict (PoolKey × Int) Tick} (h : Marked s d) {o : TickOp} (hl : o.Legal) :
    TickOutcome d o (storeDo s o) := by
  have hb := bit h hl.1 hl.2
  have hg := ticks_get h o.key o.tick.index
  have hfun : s.ticks.get = d := funext fun ⟨k, i⟩ => ticks_get h k i
  obtain ⟨a, key, t⟩ := o
  dsimp only at hb hg
  cases a with
  | true =>
    have hd : storeDo s ⟨true, key, t⟩ = addTick s key t := rfl
    rw [hd]
    unfold addTick ticksAdd
    cases hq : d (key, t.index) with
    | none =>
      left
      rw [hq] at hb hg
      obtain ⟨tm, htm⟩ : ∃ tm, tickmapFlip s.tickmap true t.index key.feeTier.tickSpacing key = .ok tm :=
        ⟨_, tickmapFlip_ok_iff.2 ⟨hl.2, hb, rfl⟩⟩
      refine ⟨hq, _, by simp only [hg, ok_bind, htm]; rfl, marked_after h hl htm ?_⟩
      rw [get_insert_update, hfun]; rfl
    | some q =>
      right
      rw [hq] at hg
      exact ⟨fun hc => (by rw [show d (key, t.index) = none from hc] at hq; cases hq), by simp only [hg]; rfl⟩
  | false =>
    have hd : storeDo s ⟨false, key, t⟩ = removeTick s key t := rfl
    rw [hd]
    unfold removeTick failIf
    by_cases hz : t.liquidityGross = 0
    · simp only [hz, ne_eq, not_true_eq_false, if_false, ok_bind]
      cases hq : d (key, t.index) with
      | none =>
        right
        rw [hq] at hb
        refine ⟨fun hc => (by have := hc.2; dsimp only at this; rw [hq] at this; cases this), ?_⟩
        rw [show tickmapFlip s.tickmap false t.index key.feeTier.tickSpacing key = .error .panic from flip_panic hl.2 hb]
        simp only [hz]; rfl
      | some q =>
        left
        rw [hq] at hb hg
        obtain ⟨tm, htm⟩ : ∃ tm, tickmapFlip s.tickmap false t.index key.feeTier.tickSpacing key = .ok tm :=
          ⟨_, tickmapFlip_ok_iff.2 ⟨hl.2, hb, rfl⟩⟩
        refine ⟨⟨hz, by dsimp only; rw [hq]; rfl⟩, _, by simp only [htm, ok_bind, ticksRemove, ticksGet, hg]; rfl,
          marked_after h hl htm ?_⟩
        rw [get_erase_update, hfun]; rfl
    · right
      refine ⟨fun hc => hz hc.1, ?_⟩
      simp [hz]

/-- C117, ticks and marks: from an empty storage, after any additions and removals of ticks on the grids of their pools,
the ticks are those of the dictionary, exactly these are marked in the tick map, and the next operation has its right
outcome. -/
theorem C117_storage {s : Inv} (h1 : s.ticks = ∅) (h2 : s.tickmap = ∅) {ops : List TickOp} (hl : ∀ o ∈ ops, o.Legal) :
    Marked (runOps storeDo s ops) (ticksAfter (fun _ => none) ops) ∧
    ∀ o : TickOp, o.Legal → TickOutcome (ticksAfter (fun _ => none) ops) o (storeDo (runOps storeDo s ops) o) := by
  have key : ∀ (ops : List TickOp), (∀ o ∈ ops, o.Legal) → ∀ (s : Inv) (d : Dict (PoolKey × Int) Tick), Marked s d →
      Marked (runOps storeDo s ops) (ticksAfter d ops) := by
    intro ops
    induction ops with
    | nil => exact fun _ _ _ h => h
    | cons o r ih =>
      intro hl s d h
      rw [runOps, ticksAfter]
      refine ih (fun x hx => hl x (List.mem_cons_of_mem _ hx)) _ _ ?_
      rcases store_op h (hl o List.mem_cons_self) with ⟨hp, s', hs, hm⟩ | ⟨hp, hs⟩
      · rw [hs, if_pos hp]; exact hm
      · rw [hs, if_neg hp]; exact h
  have h0 : Marked s (fun _ => none) := by
    refine ⟨fun k i => ?_, fun k i _ hg => ?_⟩
    · rw [h1]; rfl
    · rw [h2, tickmapGet_eq hg, tmBit_empty]; rfl
  have := key ops hl s _ h0
  exact ⟨this, fun o ho => store_op this ho⟩

/-- C117, new ticks: a tick is made only on the grid of a pool that exists, and otherwise the reason is named. -/
theorem C117_create {s : Inv} {now : Nat} {k : PoolKey} (hs : 1 ≤ k.feeTier.tickSpacing) (i : Int) :
    (¬ Grid k.feeTier.tickSpacing i → createTick s now k i = .error (.inv .InvalidTickIndexOrTickSpacing)) ∧
    (Grid k.feeTier.tickSpacing i → s.pools.get k = none → createTick s now k i = .error (.inv .PoolNotFound)) ∧
    (Grid k.feeTier.tickSpacing i → ∀ p, s.pools.get k = some p → createTick s now k i = Tick.create i p now) := by
  unfold createTick poolsGet
  have hc := checkTick_grid (t := i) hs
  refine ⟨fun hg => ?_, fun hg hp => ?_, fun hg p hp => ?_⟩
  · cases h : checkTick i k.feeTier.tickSpacing with
    | error e => rfl
    | ok u => exact absurd (hc.1 h) hg
  · rw [hc.2 hg, hp]; rfl
  · rw [hc.2 hg, hp]; rfl

/-! ### Examples -/

namespace DictionaryDemo

def key : PoolKey := ⟨1, 2, ⟨0, 10⟩⟩
def tick (i : Int) (gross : Nat) : Tick := ⟨i, true, 0, gross, 10 ^ 24, 0, 0, 0⟩

/-- tick 20 is added twice, tick 30 once; tick 30 with liquidity is not removed, tick 20 is, and then once more -/
def ops : List TickOp :=
  [⟨true, key, tick 20 0⟩, ⟨true, key, tick 20 5⟩, ⟨true, key, tick 30 7⟩, ⟨false, key, tick 30 7⟩, ⟨false, key, tick 20 0⟩]

end DictionaryDemo

open DictionaryDemo in
/-- The storage afterwards, by the theorem: tick 30 alone, and another removal of tick 20 panics. -/
example (s : Inv) (h1 : s.ticks = ∅) (h2 : s.tickmap = ∅) :
    tickmapGet (runOps storeDo s ops).tickmap 30 10 key = .ok true ∧
    tickmapGet (runOps storeDo s ops).tickmap 20 10 key = .ok false ∧
    ticksGet (runOps storeDo s ops).ticks key 30 = .ok (tick 30 7) ∧
    removeTick (runOps storeDo s ops) key (tick 20 0) = .error .panic ∧
    removeTick (runOps storeDo s ops) key (tick 30 7) = .error (.inv .NotEmptyTickDeinitialization) ∧
    addTick (runOps storeDo s ops) key (tick 30 0) = .error (.inv .TickAlreadyExist) := by
  have hl : ∀ o ∈ ops, o.Legal := by
    intro o ho
    simp only [ops, List.mem_cons, List.not_mem_nil, or_false] at ho
    rcases ho with rfl | rfl | rfl | rfl | rfl <;> exact ⟨by decide, by decide⟩
  obtain ⟨hm, ho⟩ := C117_storage h1 h2 hl
  have g30 := hm.marks key 30 (by decide) (by decide)
  have g20 := hm.marks key 20 (by decide) (by decide)
  have t30 := hm.ticks key 30
  have r20 := ho ⟨false, key, tick 20 0⟩ ⟨by decide, by decide⟩
  have r30 := ho ⟨false, key, tick 30 7⟩ ⟨by decide, by decide⟩
  have a30 := ho ⟨true, key, tick 30 0⟩ ⟨by decide, by decide⟩
  refine ⟨g30, g20, t30, ?_, ?_, ?_⟩
  · rcases r20 with ⟨hp, _⟩ | ⟨_, h⟩
    · exact absurd hp (by decide)
    · exact h
  · rcases r30 with ⟨hp, _⟩ | ⟨_, h⟩
    · exact absurd hp (by decide)
    · exact h
  · rcases a30 with ⟨hp, _⟩ | ⟨_, h⟩
    · exact absurd hp (by decide)
    · exact h

open DictionaryDemo in
/-- Two ticks of the same index in different pools do not disturb each other. -/
example : let m := runOps ticksDo ∅ [.add (key, 20) (tick 20 5), .add (⟨1, 3, ⟨0, 10⟩⟩, 20) (tick 20 6),
      .update (key, 20) (tick 20 7), .remove (⟨1, 3, ⟨0, 10⟩⟩, 20)]
    ticksGet m key 20 = .ok (tick 20 7) ∧ ticksGet m ⟨1, 3, ⟨0, 10⟩⟩ 20 = .error (.inv .TickNotFound) := by decide +kernel

open DictionaryDemo in
/-- Tick 5000000 is out of range; and there is no pool of the other key. -/
example : createTick Demo.start 0 Demo.key 5000000 = .error (.inv .InvalidTickIndexOrTickSpacing) ∧
    createTick Demo.start 0 key 20 = .error (.inv .PoolNotFound) := by decide +kernel

end Verif
