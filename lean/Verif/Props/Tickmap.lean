import Verif.Proofs.TickmapExport

/-!
# C14–C18: the tick bitmap

`Spec.Grid s t`: `t` is a multiple of `s` within ±221818. `Spec.TickSet` is a plain set of
(pool, tick) pairs with mark and clear requests.
-/

namespace Verif
open Spec

/-- the bitmap after a sequence of requests; a rejected request (a panic) changes nothing -/
def tmRun (tm : Tickmap) : List Flip → Tickmap
  | [] => tm
  | f :: l =>
    tmRun (match tickmapFlip tm f.value f.tick f.key.feeTier.tickSpacing f.key with
      | .ok tm' => tm'
      | .error _ => tm) l

/-- all requests concern pools with a legal spacing -/
def LegalKeys (l : List Flip) : Prop := ∀ f ∈ l, Spacing f.key.feeTier.tickSpacing

private theorem flip_sim {tm : Tickmap} {S : TickSet} {f : Flip}
    (hs : 1 ≤ f.key.feeTier.tickSpacing)
    (h : ∀ key t, 1 ≤ key.feeTier.tickSpacing → Grid key.feeTier.tickSpacing t →
      tmBit tm key (bitmapIndex t key.feeTier.tickSpacing) = S key t) :
    (∃ tm' S', tickmapFlip tm f.value f.tick f.key.feeTier.tickSpacing f.key = .ok tm' ∧
      S.flip f = some S' ∧ ∀ key t, 1 ≤ key.feeTier.tickSpacing → Grid key.feeTier.tickSpacing t →
        tmBit tm' key (bitmapIndex t key.feeTier.tickSpacing) = S' key t) ∨
    ((∃ e, tickmapFlip tm f.value f.tick f.key.feeTier.tickSpacing f.key = .error e) ∧
      S.flip f = none) := by
  by_cases hc : Grid f.key.feeTier.tickSpacing f.tick ∧ S f.key f.tick ≠ f.value
  · left
    obtain ⟨hg, hv⟩ := hc
    have hb := h f.key f.tick hs hg
    have hok : ∃ tm', tickmapFlip tm f.value f.tick f.key.feeTier.tickSpacing f.key = .ok tm' :=
      ⟨_, tickmapFlip_ok_iff.2 ⟨hg, by rw [hb]; cases hS : S f.key f.tick <;> cases hf : f.value <;>
        simp_all, rfl⟩⟩
    obtain ⟨tm', htm⟩ := hok
    refine ⟨tm', _, htm, if_pos ⟨hg, hv⟩, ?_⟩
    intro key t h1 h2
    rw [tmBit_flip htm]
    by_cases hkt : key = f.key ∧ t = f.tick
    · obtain ⟨rfl, rfl⟩ := hkt
      simp
    · rw [if_neg hkt, if_neg, h key t h1 h2]
      rintro ⟨rfl, e⟩
      exact hkt ⟨rfl, bitmapIndex_inj h1 h2 hg e⟩
  · right
    refine ⟨?_, if_neg hc⟩
    cases hr : tickmapFlip tm f.value f.tick f.key.feeTier.tickSpacing f.key with
    | error e => exact ⟨e, rfl⟩
    | ok tm' =>
      exfalso
      obtain ⟨hg, hv, _⟩ := tickmapFlip_ok_iff.1 hr
      apply hc
      refine ⟨hg, ?_⟩
      rw [← h f.key f.tick hs hg, hv]
      cases f.value <;> simp

/-- a bitmap and a set that give the same answers keep doing so -/
private theorem run_sim {l : List Flip} (hl : LegalKeys l) : ∀ {tm : Tickmap} {S : TickSet},
    (∀ key t, 1 ≤ key.feeTier.tickSpacing → Grid key.feeTier.tickSpacing t →
      tmBit tm key (bitmapIndex t key.feeTier.tickSpacing) = S key t) →
    ∀ key t, 1 ≤ key.feeTier.tickSpacing → Grid key.feeTier.tickSpacing t →
      tmBit (tmRun tm l) key (bitmapIndex t key.feeTier.tickSpacing) = S.flips l key t := by
  induction l with
  | nil => intro tm S h; exact h
  | cons f l ih =>
    intro tm S h
    have hl' : LegalKeys l := fun g hg => hl g (List.mem_cons_of_mem _ hg)
    have hs := (hl f List.mem_cons_self).1
    rcases flip_sim hs h with ⟨tm', S', h1, h2, h3⟩ | ⟨⟨e, h1⟩, h2⟩
    · simp only [tmRun, TickSet.flips, h1, h2, Option.getD_some]
      exact ih hl' h3
    · simp only [tmRun, TickSet.flips, h1, h2, Option.getD_none]
      exact ih hl' h

private theorem run_inv {l : List Flip} : ∀ {tm : Tickmap}, TmWF tm → TmLegal tm →
    TmWF (tmRun tm l) ∧ TmLegal (tmRun tm l) := by
  induction l with
  | nil => intro tm h1 h2; exact ⟨h1, h2⟩
  | cons f l ih =>
    intro tm h1 h2
    rw [tmRun]
    cases hr : tickmapFlip tm f.value f.tick f.key.feeTier.tickSpacing f.key with
    | error e => exact ih h1 h2
    | ok tm' => exact ih (tmWF_flip h1 hr) (tmLegal_flip h2 hr)

/-- C14: after any sequence of requests (for pools of legal spacing), every legal tick is reported
initialised exactly if it is in the specified set, illegal ticks are rejected, and the next request
is accepted exactly if the specification accepts it (so marking twice or clearing twice is
rejected). The specified set treats pools and ticks independently. -/
theorem C14_bitmap_is_set {l : List Flip} (hl : LegalKeys l) (key : PoolKey)
    (hk : Spacing key.feeTier.tickSpacing) :
    (∀ t, Grid key.feeTier.tickSpacing t →
      tickmapGet (tmRun ∅ l) t key.feeTier.tickSpacing key =
        .ok (TickSet.none.flips l key t)) ∧
    (∀ t, ¬ Grid key.feeTier.tickSpacing t →
      ∃ e, tickmapGet (tmRun ∅ l) t key.feeTier.tickSpacing key = .error e) ∧
    (∀ v t, (∃ tm', tickmapFlip (tmRun ∅ l) v t key.feeTier.tickSpacing key = .ok tm') ↔
      ((TickSet.none.flips l).flip ⟨v, key, t⟩).isSome) := by
  have sim := run_sim (l := l) hl (tm := ∅) (S := TickSet.none)
    (fun k t _ _ => by rw [tmBit_empty]; rfl)
  refine ⟨?_, ?_, ?_⟩
  · intro t ht
    rw [tickmapGet_eq ht, sim key t hk.1 ht]
  · intro t ht
    cases h : tickmapGet (tmRun ∅ l) t key.feeTier.tickSpacing key with
    | error e => exact ⟨e, rfl⟩
    | ok b => exact absurd (tickmapGet_ok_iff.1 h).1 ht
  · intro v t
    rcases flip_sim (f := ⟨v, key, t⟩) hk.1 sim with ⟨tm', S', h1, h2, _⟩ | ⟨⟨e, h1⟩, h2⟩
    · simp only at h1
      rw [h1, h2]; simp
    · simp only at h1
      rw [h1, h2]; simp

/-- C15, upwards: for any bitmap of 64-bit words, from any legal tick, the search returns the
smallest initialised tick strictly above within 256 grid steps, and nothing exactly if there is
none. -/
theorem C15_next {tm : Tickmap} (hwf : TmWF tm) {s : Nat} (hs : Spacing s) {t : Int} (ht : Grid s t)
    (key : PoolKey) :
    ∃ r, nextInitialized tm t s key = .ok r ∧
      ∀ u, r = some u ↔ (tickmapGet tm u s key = .ok true ∧ t < u ∧ u ≤ t + 256 * s ∧
        ∀ v, t < v → v < u → tickmapGet tm v s key ≠ .ok true) := by
  obtain ⟨r, hr, h1, h2⟩ := nextInitialized_spec hwf hs.1 ht key
  refine ⟨r, hr, fun u => ⟨?_, ?_⟩⟩
  · intro hu
    obtain ⟨hg, hb, hlt, hle, hv⟩ := h1 u hu
    refine ⟨by rw [tickmapGet_eq hg, hb], hlt, hle, ?_⟩
    intro v hv1 hv2 hcon
    obtain ⟨gv, bv⟩ := tickmapGet_ok_iff.1 hcon
    rw [hv v gv hv1 hv2] at bv; cases bv
  · rintro ⟨hu, hlt, hle, hv⟩
    obtain ⟨gu, bu⟩ := tickmapGet_ok_iff.1 hu
    cases r with
    | none =>
      have := h2 rfl u gu hlt hle
      rw [this] at bu; cases bu
    | some w =>
      obtain ⟨hg, hb, hlt', hle', hv'⟩ := h1 w rfl
      rcases lt_trichotomy w u with h | h | h
      · exact absurd (by rw [tickmapGet_eq hg, hb]) (hv w hlt' h)
      · rw [h]
      · rw [hv' u gu hlt h] at bu; cases bu

/-- C15, downwards: the largest initialised tick at or below within 256 grid steps, and nothing
exactly if there is none. -/
theorem C15_prev {tm : Tickmap} {s : Nat} (hs : Spacing s) {t : Int} (ht : Grid s t)
    (key : PoolKey) :
    ∃ r, prevInitialized tm t s key = .ok r ∧
      ∀ u, r = some u ↔ (tickmapGet tm u s key = .ok true ∧ u ≤ t ∧ t - 256 * s ≤ u ∧
        ∀ v, u < v → v ≤ t → tickmapGet tm v s key ≠ .ok true) := by
  obtain ⟨r, hr, h1, h2⟩ := prevInitialized_spec (tm := tm) hs.1 ht key
  refine ⟨r, hr, fun u => ⟨?_, ?_⟩⟩
  · intro hu
    obtain ⟨hg, hb, hlt, hle, hv⟩ := h1 u hu
    refine ⟨by rw [tickmapGet_eq hg, hb], hlt, hle, ?_⟩
    intro v hv1 hv2 hcon
    obtain ⟨gv, bv⟩ := tickmapGet_ok_iff.1 hcon
    rw [hv v gv hv1 hv2] at bv; cases bv
  · rintro ⟨hu, hlt, hle, hv⟩
    obtain ⟨gu, bu⟩ := tickmapGet_ok_iff.1 hu
    cases r with
    | none =>
      have := h2 rfl u gu hlt hle
      rw [this] at bu; cases bu
    | some w =>
      obtain ⟨hg, hb, hlt', hle', hv'⟩ := h1 w rfl
      rcases lt_trichotomy w u with h | h | h
      · rw [hv' u gu h hlt] at bu; cases bu
      · rw [h]
      · exact absurd (by rw [tickmapGet_eq hg, hb]) (hv w h hlt')

/-- C16: the step target is never beyond the limit; no initialised tick in swap direction has a
price strictly between; if a tick is reported, the target is its price, it lies in swap direction,
and the flag says whether it is initialised. -/
theorem C16_closer_limit {tm : Tickmap} (hwf : TmWF tm) {s : Nat} (hs : Spacing s) {cur : Int}
    (hc : Grid s cur) {key : PoolKey} {limit target : Nat} {xToY : Bool} {info : Option (Int × Bool)}
    (h : getCloserLimit tm limit xToY cur s key = .ok (target, info)) :
    (if xToY then limit ≤ target else target ≤ limit) ∧
    (∀ u p, tickmapGet tm u s key = .ok true → calculateSqrtPrice u = .ok p →
      if xToY then u ≤ cur → p ≤ target else cur < u → target ≤ p) ∧
    (∀ i b, info = some (i, b) → calculateSqrtPrice i = .ok target ∧ Grid s i ∧
      tickmapGet tm i s key = .ok b ∧ (if xToY then i ≤ cur else cur < i)) ∧
    (info = none → target = limit) := by
  have hprice : ∀ u, Grid s u → calculateSqrtPrice u = .ok (priceOf u) :=
    fun u hu => calculateSqrtPrice_eq hu.2.1 hu.2.2
  have hmono : ∀ u v, Grid s u → Grid s v → u ≤ v → priceOf u ≤ priceOf v :=
    fun u v hu hv huv => priceOf_le hu.2.1 hv.2.2 huv
  obtain ⟨jc, rfl, hj1, hj2⟩ := grid_coord hs.1 hc
  unfold getCloserLimit at h
  rw [bind_ok_iff] at h
  obtain ⟨closest, hcl, h⟩ := h
  cases xToY with
  | true =>
    simp only [if_true] at hcl
    obtain ⟨r, hr, h1, h2⟩ := prevInitialized_spec (tm := tm) hs.1 hc key
    rw [hr] at hcl
    cases hcl
    cases closest with
    | some u =>
      obtain ⟨gu, bu, hle, _, hv⟩ := h1 u rfl
      dsimp only at h
      rw [hprice u gu] at h
      simp only [unwrap, ok_bind, true_and, Bool.true_eq_false, false_and, or_false] at h
      have hno : ∀ v p, tickmapGet tm v s key = .ok true → calculateSqrtPrice v = .ok p →
          v ≤ jc * s → p ≤ priceOf u := by
        intro v p hvb hvp hvle
        obtain ⟨gv, bv⟩ := tickmapGet_ok_iff.1 hvb
        rw [hprice v gv] at hvp
        cases hvp
        rcases lt_or_ge u v with hlt | hge
        · rw [hv v gv hlt hvle] at bv; cases bv
        · exact hmono v u gv gu hge
      split at h
      · next hgt =>
        simp only [pure_ok_iff, Prod.mk.injEq] at h
        obtain ⟨rfl, rfl⟩ := h
        refine ⟨hgt.le, hno, ?_, by simp⟩
        intro i b hib
        simp only [Option.some.injEq, Prod.mk.injEq] at hib
        obtain ⟨rfl, rfl⟩ := hib
        exact ⟨hprice u gu, gu, by rw [tickmapGet_eq gu, bu], hle⟩
      · next hgt =>
        simp only [pure_ok_iff, Prod.mk.injEq] at h
        obtain ⟨rfl, rfl⟩ := h
        refine ⟨le_rfl, ?_, by simp, fun _ => rfl⟩
        intro v p a b c
        exact le_trans (hno v p a b c) (by omega)
    | none =>
      have hnone := h2 rfl
      have hsl := getSearchLimit_down (s := s) hs.1 jc
      dsimp only at h
      rw [show (!true) = false from rfl, hsl] at h
      have gl : Grid s (max (jc - 256) (-(gridHalf s : Int)) * s) := coord_grid (by omega) (by omega)
      have hll : max (jc - 256) (-(gridHalf s : Int)) * s ≤ jc * s := (mul_le_iff hs.1 _ _).2 (by omega)
      have hlb : jc * s - 256 * s ≤ max (jc - 256) (-(gridHalf s : Int)) * s := by
        rw [← sub_mul]; exact (mul_le_iff hs.1 _ _).2 (by omega)
      have hlow : ∀ v, Grid s v → v < jc * s - 256 * s →
          v ≤ max (jc - 256) (-(gridHalf s : Int)) * s := fun v _ hv => by omega
      generalize max (jc - 256) (-(gridHalf s : Int)) * s = lim at *
      rw [hprice lim gl] at h
      simp only [unwrap, ok_bind, bind_ok_iff, failIf_ok_iff, true_and, Bool.true_eq_false, false_and,
        or_false] at h
      obtain ⟨_, hne, h⟩ := h
      have hno : ∀ v p, tickmapGet tm v s key = .ok true → calculateSqrtPrice v = .ok p →
          v ≤ jc * s → p ≤ priceOf lim := by
        intro v p hvb hvp hvle
        obtain ⟨gv, bv⟩ := tickmapGet_ok_iff.1 hvb
        rw [hprice v gv] at hvp
        cases hvp
        rcases lt_or_ge v (jc * s - 256 * s) with hlt | hge
        · exact hmono v lim gv gl (hlow v gv hlt)
        · rw [hnone v gv hvle hge] at bv; cases bv
      split at h
      · next hgt =>
        simp only [pure_ok_iff, Prod.mk.injEq] at h
        obtain ⟨rfl, rfl⟩ := h
        refine ⟨hgt.le, hno, ?_, by simp⟩
        intro i b hib
        simp only [Option.some.injEq, Prod.mk.injEq] at hib
        obtain ⟨rfl, rfl⟩ := hib
        exact ⟨hprice lim gl, gl, by rw [tickmapGet_eq gl, hnone lim gl hll hlb], hll⟩
      · next hgt =>
        simp only [pure_ok_iff, Prod.mk.injEq] at h
        obtain ⟨rfl, rfl⟩ := h
        refine ⟨le_rfl, ?_, by simp, fun _ => rfl⟩
        intro v p a b c
        exact le_trans (hno v p a b c) (by omega)
  | false =>
    simp only [Bool.false_eq_true, if_false] at hcl
    obtain ⟨r, hr, h1, h2⟩ := nextInitialized_spec hwf hs.1 hc key
    rw [hr] at hcl
    cases hcl
    cases closest with
    | some u =>
      obtain ⟨gu, bu, hlt, _, hv⟩ := h1 u rfl
      dsimp only at h
      rw [hprice u gu] at h
      simp only [unwrap, ok_bind, true_and, Bool.false_eq_true, false_and, false_or] at h
      have hno : ∀ v p, tickmapGet tm v s key = .ok true → calculateSqrtPrice v = .ok p →
          jc * s < v → priceOf u ≤ p := by
        intro v p hvb hvp hvle
        obtain ⟨gv, bv⟩ := tickmapGet_ok_iff.1 hvb
        rw [hprice v gv] at hvp
        cases hvp
        rcases lt_or_ge v u with hlt' | hge
        · rw [hv v gv hvle hlt'] at bv; cases bv
        · exact hmono u v gu gv hge
      split at h
      · next hgt =>
        simp only [pure_ok_iff, Prod.mk.injEq] at h
        obtain ⟨rfl, rfl⟩ := h
        refine ⟨hgt.le, hno, ?_, by simp⟩
        intro i b hib
        simp only [Option.some.injEq, Prod.mk.injEq] at hib
        obtain ⟨rfl, rfl⟩ := hib
        exact ⟨hprice u gu, gu, by rw [tickmapGet_eq gu, bu], hlt⟩
      · next hgt =>
        simp only [pure_ok_iff, Prod.mk.injEq] at h
        obtain ⟨rfl, rfl⟩ := h
        refine ⟨le_rfl, ?_, by simp, fun _ => rfl⟩
        intro v p a b c
        exact le_trans (by omega) (hno v p a b c)
    | none =>
      have hnone := h2 rfl
      have hsl := getSearchLimit_up (s := s) hs.1 jc
      dsimp only at h
      rw [show (!false) = true from rfl, hsl] at h
      have gl : Grid s (min (jc + 256) (gridHalf s : Int) * s) := coord_grid (by omega) (by omega)
      have hll : jc * s ≤ min (jc + 256) (gridHalf s : Int) * s := (mul_le_iff hs.1 _ _).2 (by omega)
      have hlb : min (jc + 256) (gridHalf s : Int) * s ≤ jc * s + 256 * s := by
        rw [← add_mul]; exact (mul_le_iff hs.1 _ _).2 (by omega)
      generalize min (jc + 256) (gridHalf s : Int) * s = lim at *
      rw [hprice lim gl] at h
      simp only [unwrap, ok_bind, bind_ok_iff, failIf_ok_iff, true_and, Bool.false_eq_true, false_and,
        false_or] at h
      obtain ⟨_, hne, h⟩ := h
      have hlt : jc * s < lim := by omega
      have hno : ∀ v p, tickmapGet tm v s key = .ok true → calculateSqrtPrice v = .ok p →
          jc * s < v → priceOf lim ≤ p := by
        intro v p hvb hvp hvle
        obtain ⟨gv, bv⟩ := tickmapGet_ok_iff.1 hvb
        rw [hprice v gv] at hvp
        cases hvp
        rcases lt_or_ge (jc * s + 256 * s) v with hlt' | hge
        · exact hmono lim v gl gv (by omega)
        · rw [hnone v gv hvle hge] at bv; cases bv
      split at h
      · next hgt =>
        simp only [pure_ok_iff, Prod.mk.injEq] at h
        obtain ⟨rfl, rfl⟩ := h
        refine ⟨hgt.le, hno, ?_, by simp⟩
        intro i b hib
        simp only [Option.some.injEq, Prod.mk.injEq] at hib
        obtain ⟨rfl, rfl⟩ := hib
        exact ⟨hprice lim gl, gl, by rw [tickmapGet_eq gl, hnone lim gl hlt hlb], hlt⟩
      · next hgt =>
        simp only [pure_ok_iff, Prod.mk.injEq] at h
        obtain ⟨rfl, rfl⟩ := h
        refine ⟨le_rfl, ?_, by simp, fun _ => rfl⟩
        intro v p a b c
        exact le_trans (by omega) (hno v p a b c)

/-- the ticks encoded by an exported tick map: bit `b` of chunk `c` stands for the
`(64 c + b)`-th tick of the grid counted from its lowest tick -/
def Spec.decode (s : Nat) (chunks : List (Nat × Nat)) : List Int :=
  chunks.flatMap (fun cw =>
    ((List.range 64).filter (fun b => cw.2.testBit b)).map
      (fun b => ((cw.1 * 64 + b : Nat) : Int) * s - (221818 / s : Nat) * s))

theorem decode_export (tm : Tickmap) (key : PoolKey) (s n : Nat) :
    Spec.decode s (tickmapSlice tm (List.range n) key) = bitsOf tm key n s := by
  unfold Spec.decode tickmapSlice bitsOf
  have gen : ∀ l : List Nat,
      (l.filterMap (fun c => (tm.get (c, key)).map (fun w => (c, w)))).flatMap (fun cw =>
        ((List.range 64).filter (fun b => cw.2.testBit b)).map
          (fun b => ((cw.1 * 64 + b : Nat) : Int) * s - (221818 / s : Nat) * s)) =
      l.flatMap (fun c => ((List.range 64).filter (fun b => (chunkWord tm key c).testBit b)).map
        (fun b => ((c * 64 + b : Nat) : Int) * s - gridHalf s * s)) := by
    intro l
    induction l with
    | nil => rfl
    | cons c l ih =>
      rw [List.filterMap_cons, List.flatMap_cons, ← ih]
      unfold chunkWord gridHalf
      cases tm.get (c, key) with
      | none =>
        simp only [Option.map_none, Option.getD_none, Nat.zero_testBit, List.filter_false,
          List.map_nil, List.nil_append]
      | some w =>
        simp only [Option.map_some, Option.getD_some, List.flatMap_cons]
  exact gen _

/-- C17: decoding the exported tick map gives every initialised tick of the pool exactly once and
nothing else, for every bitmap produced by requests. -/
theorem C17_export {l : List Flip} {s : Inv} (hst : s.tickmap = tmRun ∅ l) (key : PoolKey)
    (hk : Spacing key.feeTier.tickSpacing) :
    (Spec.decode key.feeTier.tickSpacing (Service.getTickmap s key)).Nodup ∧
    ∀ t, t ∈ Spec.decode key.feeTier.tickSpacing (Service.getTickmap s key) ↔
      Service.isTickInitialized s key t = .ok true := by
  obtain ⟨_, hlegal⟩ := run_inv (l := l) tmWF_empty tmLegal_empty
  unfold Service.getTickmap Service.isTickInitialized
  rw [decode_export, hst]
  refine ⟨bitsOf_nodup hk.1, fun t => ?_⟩
  rw [tmLegal_mem hlegal hk.1]
  constructor
  · exact fun h => h.1
  · intro h
    exact ⟨h, grid_index_le hk.1 (tickmapGet_ok_iff.1 h).1⟩

/-- C17, reading a chunk: position and tick determine each other. The tick at the position of a tick is this tick, and
a position whose tick is on the grid is the position of this tick. -/
theorem C17_position {s : Nat} (hs : Spacing s) :
    (∀ t c b, tickToPosition t s = .ok (c, b) → b < 64 ∧ positionToTick c b s = t) ∧
    (∀ c b, b < 64 → Grid s (positionToTick c b s) → tickToPosition (positionToTick c b s) s = .ok (c, b)) := by
  have hs1 := hs.1
  have e0 : getMaxTick s = (gridHalf s : Int) * s := by
    unfold getMaxTick gridHalf MAX_TICK
    norm_cast
  have e1 : ∀ c b, positionToTick c b s = (((c * 64 + b : Nat) : Int) - gridHalf s) * s := by
    intro c b
    unfold positionToTick
    rw [e0]
    unfold CHUNK_SIZE
    push_cast
    ring
  constructor
  · intro t c b h
    obtain ⟨hg, he⟩ := tickToPosition_ok_iff.1 h
    cases he
    refine ⟨Nat.mod_lt _ (by decide), ?_⟩
    obtain ⟨j, rfl, h1, h2⟩ := grid_coord hs1 hg
    rw [e1, Nat.div_add_mod', bitmapIndex_eq hs1 h1]
    ring
  · intro c b hb hg
    rw [tickToPosition_ok hg, e1]
    have hi := bitmapIndex_eq (s := s) (j := ((c * 64 + b : Nat) : Int) - gridHalf s) hs1 (by omega)
    have hn : bitmapIndex ((((c * 64 + b : Nat) : Int) - gridHalf s) * s) s = c * 64 + b := by omega
    rw [hn]
    have h1 : (c * 64 + b) / 64 = c := by omega
    have h2 : (c * 64 + b) % 64 = b := by omega
    rw [h1, h2]

/-- spacing 100: the highest tick is in chunk 69 -/
example : tickToPosition 221800 100 = .ok (69, 20) ∧ positionToTick 69 20 100 = 221800 ∧
    positionToTick 0 0 100 = -221800 := by decide +kernel

/-- C18 is false: the count leaves out the last chunk. With spacing 100 and only the highest tick
initialised, the reported number is 0. -/
theorem C18_negation :
    ¬ ∀ (l : List Flip) (s : Inv) (key : PoolKey) (ticks : List Int), LegalKeys l →
      s.tickmap = tmRun ∅ l → Spacing key.feeTier.tickSpacing → ticks.Nodup →
      (∀ t, t ∈ ticks ↔ Service.isTickInitialized s key t = .ok true) →
      Service.getLiquidityTicksAmount s key = ticks.length := by
  intro h
  let key : PoolKey := ⟨1, 2, ⟨0, 100⟩⟩
  let fl : List Flip := [⟨true, key, 221800⟩]
  let st : Inv := { Inv.init 0 0 with tickmap := tmRun ∅ fl }
  have hsp : Spacing key.feeTier.tickSpacing := ⟨by decide, by decide⟩
  have hlegal : LegalKeys fl := by
    intro f hf
    rw [List.mem_singleton.1 hf]
    exact hsp
  have := h fl st key [221800] hlegal rfl hsp (List.nodup_singleton _) (by
    intro t
    unfold Service.isTickInitialized
    constructor
    · intro ht
      rw [List.mem_singleton.1 ht]
      decide +kernel
    · intro ht
      have hg := (tickmapGet_ok_iff.1 ht).1
      have := (C14_bitmap_is_set hlegal key hsp).1 t hg
      rw [show st.tickmap = tmRun ∅ fl from rfl, this] at ht
      by_contra hne
      have hne' : t ≠ 221800 := by simpa using hne
      have : TickSet.none.flips fl key t = false := by
        have hgr : Grid 100 221800 := by decide
        have hfl : TickSet.none.flip ⟨true, key, 221800⟩ =
            some (fun k u => if k = key ∧ u = 221800 then true else TickSet.none k u) :=
          if_pos ⟨hgr, by decide⟩
        simp only [fl, TickSet.flips]
        rw [hfl]
        simp [hne', TickSet.none]
      rw [this] at ht
      cases ht)
  revert this
  decide +kernel

/-- C18, what holds: the number reported is the number of initialised ticks outside the last chunk
of 64 grid ticks; so it never exceeds the number of initialised ticks and is exact if none lies in
the last chunk. (Full statement, refuted above: it is always the number of initialised ticks.) -/
theorem C18_partial {l : List Flip} {s : Inv} (hst : s.tickmap = tmRun ∅ l) (key : PoolKey)
    (hk : Spacing key.feeTier.tickSpacing) {ticks : List Int} (hnd : ticks.Nodup)
    (hmem : ∀ t, t ∈ ticks ↔ Service.isTickInitialized s key t = .ok true) :
    let sp := key.feeTier.tickSpacing
    let lastChunk : Int := (64 * (2 * (221818 / sp) / 64) - 221818 / sp : Int) * sp
    Service.getLiquidityTicksAmount s key = (ticks.filter (fun t => t < lastChunk)).length := by
  intro sp lastChunk
  obtain ⟨_, hlegal⟩ := run_inv (l := l) tmWF_empty tmLegal_empty
  unfold Service.getLiquidityTicksAmount
  rw [liquidityTicksCount_eq, hst]
  apply List.Perm.length_eq
  rw [List.perm_ext_iff_of_nodup (bitsOf_nodup hk.1) (hnd.filter _)]
  intro t
  rw [tmLegal_mem hlegal hk.1, List.mem_filter, hmem t]
  unfold Service.isTickInitialized
  rw [hst]
  refine and_congr_right ?_
  intro ht
  have hg := (tickmapGet_ok_iff.1 ht).1
  rw [getMaxChunk_eq hk.1, decide_eq_true_iff]
  show bitmapIndex t sp < _ ↔ t < (64 * (2 * (221818 / sp) / 64) - 221818 / sp : Int) * sp
  obtain ⟨j, rfl, h1, h2⟩ := grid_coord hk.1 hg
  have hidx := bitmapIndex_eq hk.1 h1
  rw [mul_lt_iff hk.1]
  have e : (221818 / (sp : Int)) = (gridHalf sp : Int) := by unfold gridHalf; norm_cast
  rw [e]
  change bitmapIndex (j * sp) sp < 64 * (2 * gridHalf sp / 64) ↔ _
  have hidx' : (bitmapIndex (j * sp) sp : Int) = j + gridHalf sp := hidx
  omega

section
private def k0 : PoolKey := ⟨1, 2, ⟨0, 10⟩⟩
private def k1 : PoolKey := ⟨1, 3, ⟨0, 10⟩⟩
private def fl0 : List Flip :=
  [⟨true, k0, -200⟩, ⟨true, k0, 640⟩, ⟨true, k1, 0⟩, ⟨true, k0, 640⟩, ⟨true, k0, 10⟩,
    ⟨false, k0, 10⟩]

/-- a sequence with a rejected repetition, a clearing and two pools -/
example : LegalKeys fl0 ∧ tickmapGet (tmRun ∅ fl0) 640 10 k0 = .ok true ∧
    tickmapGet (tmRun ∅ fl0) 10 10 k0 = .ok false ∧ tickmapGet (tmRun ∅ fl0) 0 10 k0 = .ok false ∧
    tickmapGet (tmRun ∅ fl0) 0 10 k1 = .ok true ∧ Grid 10 640 := by
  refine ⟨?_, by decide +kernel, by decide +kernel, by decide +kernel, by decide +kernel, by decide⟩
  intro f hf
  simp only [fl0, List.mem_cons, List.not_mem_nil, or_false] at hf
  rcases hf with rfl | rfl | rfl | rfl | rfl | rfl <;> exact ⟨by decide, by decide⟩

/-- searches over chunk borders, with a hit and a miss -/
example : TmWF (tmRun ∅ fl0) ∧ nextInitialized (tmRun ∅ fl0) (-200) 10 k0 = .ok (some 640) ∧
    prevInitialized (tmRun ∅ fl0) 630 10 k0 = .ok (some (-200)) ∧
    nextInitialized (tmRun ∅ fl0) 640 10 k0 = .ok none :=
  ⟨(run_inv tmWF_empty tmLegal_empty).1, by decide +kernel, by decide +kernel, by decide +kernel⟩

/-- a limit that is closer, an initialised tick that is closer, and the end of the search range -/
example : getCloserLimit (tmRun ∅ fl0) (10 ^ 24) true 100 10 k0 = .ok (10 ^ 24, none) ∧
    getCloserLimit (tmRun ∅ fl0) (10 ^ 23) true 100 10 k0 =
      .ok (990050328744000000000000, some (-200, true)) ∧
    getCloserLimit (tmRun ∅ fl0) (10 ^ 25) false 640 10 k0 =
      .ok (1173501483510000000000000, some (3200, false)) := by decide +kernel

/-- the export of that bitmap, and the count (correct here) -/
example : Spec.decode 10 (Service.getTickmap { Inv.init 0 0 with tickmap := tmRun ∅ fl0 } k0) =
      [-200, 640] ∧
    Service.getLiquidityTicksAmount { Inv.init 0 0 with tickmap := tmRun ∅ fl0 } k0 = 2 := by
  decide +kernel
end

end Verif
