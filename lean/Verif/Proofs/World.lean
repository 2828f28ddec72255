import Verif.Spec.World
import Verif.Proofs.BalanceFrame

/-! # Token transfers: what each event does -/

namespace Verif
open Service Spec Async

/-! ## Sums of balances -/

theorem total_erase {b : Balances} {who t : ActorId} (u : ActorId) :
    total b u = (if u = t then balOf b who t else 0) + total (b.erase (who, t)) u := by
  unfold total balOf
  cases h : b.get (who, t) with
  | none => rw [Map.sum_erase_none h]; simp
  | some v =>
    rw [Map.sum_erase_some h]
    by_cases hu : u = t
    · subst hu; simp
    · simp [hu, Ne.symm hu]

theorem total_insert {b : Balances} {who t : ActorId} {v : Nat} (u : ActorId) :
    total (b.insert (who, t) v) u = (if u = t then v else 0) + total (b.erase (who, t)) u := by
  unfold total
  rw [Map.sum_insert]
  by_cases hu : u = t
  · subst hu; simp
  · simp [hu, Ne.symm hu]

theorem total_inc {b b' : Balances} {t who : ActorId} {n : Nat}
    (h : increaseTokenBalance b t who n = .ok b') (u : ActorId) :
    total b' u = total b u + if u = t then n else 0 := by
  rw [increase_ok] at h
  rcases h with ⟨rfl, rfl⟩ | ⟨_, _, rfl⟩
  · simp
  · rw [total_insert, total_erase (b := b) (who := who) (t := t)]
    by_cases hu : u = t <;> simp [hu]; omega

/-- what a debit does to all balances and sums -/
structure Took (caller token : ActorId) (b b' : Balances) (n : Nat) : Prop where
  ops : BalOps caller b b'
  bal : ∀ w u, balOf b w u = balOf b' w u + if w = caller ∧ u = token then n else 0
  tot : ∀ u, total b u = total b' u + if u = token then n else 0

theorem Took.zero {caller token : ActorId} {b : Balances} : Took caller token b b 0 :=
  ⟨.refl _, by simp, by simp⟩

theorem dec_took {b : Balances} {t who : ActorId} {n : Option Nat} {r : Balances × Nat}
    (h : decreaseTokenBalance b t who n = .ok r) : Took who t b r.1 r.2 := by
  refine ⟨.dec (.refl _) h, ?_, ?_⟩
  · intro w u
    cases n with
    | some n => have := decrease_bal h w u; rw [this.2]; exact this.1
    | none =>
      obtain ⟨v, hv, rfl⟩ := decrease_none_ok.1 h
      unfold balOf
      rw [Map.get_erase]
      by_cases hc : w = who ∧ u = t
      · obtain ⟨rfl, rfl⟩ := hc; simp [hv]
      · rw [if_neg (by simpa using hc), if_neg hc]; rfl
  · intro u
    cases n with
    | none =>
      obtain ⟨v, hv, rfl⟩ := decrease_none_ok.1 h
      rw [total_erase (b := b) (who := who) (t := t)]
      simp only [balOf, hv, Option.getD_some]
      omega
    | some n =>
      rcases decrease_some_ok.1 h with ⟨rfl, rfl⟩ | ⟨_, v, hv, hle, rfl⟩
      · simp
      · rw [total_erase (b := b) (who := who) (t := t)]
        simp only [balOf, hv, Option.getD_some]
        by_cases e : n = v
        · subst e; rw [if_pos rfl]; omega
        · rw [if_neg e, total_insert]
          by_cases hu : u = t <;> simp [hu]; omega

theorem takeSingle_took {b : Balances} {t who : ActorId} {n : Option Nat} {r : Balances × Nat}
    (h : takeSingle b t who n = .ok r) : Took who t b r.1 r.2 := by
  unfold takeSingle at h
  cases n with
  | some n =>
    simp only [bind_ok_iff, failIf_ok_iff] at h
    obtain ⟨_, _, h⟩ := h
    exact dec_took h
  | none =>
    simp only at h
    split at h
    · next h2 => cases h; exact dec_took h2
    · cases h; exact .zero

theorem takeLeg_took {b : Balances} {t who : ActorId} {n : Option Nat} {v : Nat}
    (h : (takeLeg b t who n).2 = .ok v) : Took who t b (takeLeg b t who n).1 v := by
  unfold takeLeg at h ⊢
  split at h
  · next h2 => cases h; exact dec_took h2
  · split at h
    · next hc => cases h; rw [if_pos hc]; exact .zero
    · cases h

/-! ## Starting a transfer -/

def addAwait (m : Map (MessageId × ActorId) AwaitingTransfer) :
    List Leg → Map (MessageId × ActorId) AwaitingTransfer
  | [] => m
  | l :: r => addAwait (m.insert (l.id, l.token) ⟨user l, l.amount, l.kind⟩) r

/-- the transfers sent by one command -/
structure Legs (caller program : ActorId) (next : Nat) (kind : TransferType) (legs : List Leg) :
    Prop where
  shape : legs = [] ∨ (∃ l, legs = [l] ∧ l.id = next) ∨
    ∃ x y, legs = [x, y] ∧ x.id = next ∧ y.id = next + 1
  each : ∀ l ∈ legs, l.kind = kind ∧ l.token ≠ VARA ∧ l.amount ≠ 0 ∧
    (l.src, l.dst) = ends kind caller program ∧ caller ≠ program

theorem Legs.nil {caller program : ActorId} {next : Nat} {kind : TransferType} :
    Legs caller program next kind [] := ⟨.inl rfl, by simp⟩

theorem Legs.user {caller program : ActorId} {next : Nat} {kind : TransferType} {legs : List Leg}
    (h : Legs caller program next kind legs) : ∀ l ∈ legs, user l = caller := by
  intro l hl
  obtain ⟨hk, _, _, he, _⟩ := h.each l hl
  unfold Spec.user
  rw [hk]
  cases kind <;> simp only [ends, Prod.mk.injEq] at he ⊢
  · exact he.1
  · exact he.2

theorem sendTransfer_ok {s : Inv} {token src dst : ActorId} {n : Nat} {k : TransferType}
    {id : Nat} {b : Bool} {r : Inv × Leg} :
    sendTransfer s token src dst n k id b = .ok r ↔ n ≠ 0 ∧ src ≠ dst ∧ b = true ∧
      r = ({ s with awaiting := addAwait s.awaiting [⟨id, token, src, dst, n, k⟩] },
        ⟨id, token, src, dst, n, k⟩) := by
  simp only [sendTransfer, bind_ok_iff, failIf_ok_iff, pure_ok_iff, addAwait, Spec.user]
  constructor
  · rintro ⟨_, h1, _, h2, _, h3, rfl⟩
    refine ⟨h1, h2, by simpa using h3, ?_⟩
    cases k <;> rfl
  · rintro ⟨h1, h2, h3, rfl⟩
    refine ⟨(), h1, (), h2, (), by simpa using h3, ?_⟩
    cases k <;> rfl

theorem ends_ne {kind : TransferType} {caller program : ActorId}
    (h : (ends kind caller program).1 ≠ (ends kind caller program).2) : caller ≠ program := by
  cases kind
  · exact h
  · exact fun e => h e.symm

theorem transferSingle_ok {rt : SendEnv} {s : Inv} {token caller : ActorId} {n : Nat}
    {k : TransferType} {r : Inv × List Leg} (h : transferSingle rt s token caller n k = .ok r) :
    r.1 = { s with awaiting := addAwait s.awaiting r.2 } ∧ Legs caller rt.program rt.next k r.2 ∧
      ∃ l, r.2 = [l] ∧ l.token = token ∧ l.amount = n := by
  simp only [transferSingle, bind_ok_iff, failIf_ok_iff, mapErr_ok_iff, sendTransfer_ok,
    pure_ok_iff] at h
  obtain ⟨_, hv, _, _, _, ⟨hn, hne, _, rfl⟩, rfl⟩ := h
  refine ⟨rfl, ⟨.inr (.inl ⟨_, rfl, rfl⟩), ?_⟩, _, rfl, rfl, rfl⟩
  intro l hl
  simp only [List.mem_singleton] at hl
  subst hl
  exact ⟨rfl, hv, hn, rfl, ends_ne hne⟩

theorem transferPair_ok {rt : SendEnv} {s : Inv} {caller tx ty : ActorId} {n m : Nat}
    {k : TransferType} {r : Inv × List Leg} (h : transferPair rt s caller tx n ty m k = .ok r) :
    r.1 = { s with awaiting := addAwait s.awaiting r.2 } ∧ Legs caller rt.program rt.next k r.2 ∧
      ∃ x y, r.2 = [x, y] ∧ x.token = tx ∧ x.amount = n ∧ y.token = ty ∧ y.amount = m := by
  simp only [transferPair, bind_ok_iff, failIf_ok_iff, sendTransfer_ok, pure_ok_iff, not_or] at h
  obtain ⟨_, hv, _, _, _, ⟨hn, hne, _, rfl⟩, _, ⟨hm, _, _, rfl⟩, rfl⟩ := h
  refine ⟨rfl, ⟨.inr (.inr ⟨_, _, rfl, rfl, rfl⟩), ?_⟩, _, _, rfl, rfl, rfl, rfl, rfl⟩
  intro l hl
  simp only [List.mem_cons, List.not_mem_nil, or_false] at hl
  rcases hl with rfl | rfl
  · exact ⟨rfl, hv.1, hn, rfl, ends_ne hne⟩
  · exact ⟨rfl, hv.2, hm, rfl, ends_ne hne⟩

theorem transferBoth_ok {rt : SendEnv} {s : Inv} {caller tx ty : ActorId} {n m : Nat}
    {k : TransferType} {r : Inv × List Leg} (h : transferBoth rt s caller tx n ty m k = .ok r) :
    r.1 = { s with awaiting := addAwait s.awaiting r.2 } ∧ Legs caller rt.program rt.next k r.2 ∧
      (∀ t, (r.2.map fun l => if l.token = t then l.amount else 0).sum =
        (if tx = t then n else 0) + if ty = t then m else 0) := by
  unfold transferBoth at h
  split at h
  · obtain ⟨h1, h2, x, y, h3, rfl, rfl, rfl, rfl⟩ := transferPair_ok h
    exact ⟨h1, h2, by simp [h3]⟩
  split at h
  · next h0 _ =>
    obtain ⟨h1, h2, l, h3, rfl, rfl⟩ := transferSingle_ok h
    have : m = 0 := by simp_all
    exact ⟨h1, h2, by simp [h3, this]⟩
  split at h
  · next h0 _ =>
    obtain ⟨h1, h2, l, h3, rfl, rfl⟩ := transferSingle_ok h
    have : n = 0 := by simp_all
    exact ⟨h1, h2, by simp [h3, this]⟩
  · simp only [pure_ok_iff] at h
    subst h
    simp_all [addAwait, Legs.nil]

/-- amount of a token in a list of transfers -/
def legSum (legs : List Leg) (t : ActorId) : Nat :=
  (legs.map fun l => if l.token = t then l.amount else 0).sum

structure StartOk (env : Env) (rt : SendEnv) (s s' : Inv) (legs : List Leg) (kind : TransferType) :
    Prop where
  eq : s' = { s with balances := s'.balances, awaiting := addAwait s.awaiting legs }
  sent : Legs env.caller rt.program rt.next kind legs
  ops : BalOps env.caller s.balances s'.balances
  dep : kind = .deposit → s'.balances = s.balances
  bal : kind = .withdrawal → ∀ w u, balOf s.balances w u =
    balOf s'.balances w u + if w = env.caller then legSum legs u else 0
  tot : kind = .withdrawal → ∀ u, total s.balances u = total s'.balances u + legSum legs u

/-- the kind of transfer a command asks for -/
def ACall.kind : ACall → TransferType
  | .depositSingle .. | .depositPair .. => .deposit
  | .withdrawSingle .. | .withdrawPair .. => .withdrawal

theorem start_ok {env : Env} {rt : SendEnv} {s : Inv} {c : ACall} {r : Inv × List Leg}
    (h : start env rt s c = .ok r) : StartOk env rt s r.1 r.2 (ACall.kind c) := by
  cases c with
  | depositSingle t n =>
    simp only [start, depositSingle, bind_ok_iff, failIf_ok_iff] at h
    obtain ⟨_, _, h⟩ := h
    obtain ⟨h1, h2, l, h3, rfl, rfl⟩ := transferSingle_ok h
    refine ⟨by rw [h1], h2, by rw [h1]; exact .refl _, fun _ => by rw [h1], ?_, ?_⟩ <;>
      (intro hk; cases hk)
  | depositPair t n u m =>
    simp only [start, depositPair, bind_ok_iff, failIf_ok_iff] at h
    obtain ⟨_, _, _, _, h⟩ := h
    obtain ⟨h1, h2, _⟩ := transferBoth_ok h
    refine ⟨by rw [h1], h2, by rw [h1]; exact .refl _, fun _ => by rw [h1], ?_, ?_⟩ <;>
      (intro hk; cases hk)
  | withdrawSingle t n =>
    simp only [start, withdrawSingle, bind_ok_iff] at h
    obtain ⟨d, hd, h⟩ := h
    have ht := takeSingle_took hd
    split at h
    · obtain ⟨h1, h2, l, h3, rfl, h4⟩ := transferSingle_ok h
      refine ⟨by rw [h1], h2, by rw [h1]; exact ht.ops, (by intro hk; cases hk), ?_, ?_⟩
      · intro _ w u
        rw [ht.bal w u, h1, h3]
        simp only [legSum, List.map_cons, List.map_nil, List.sum_cons, List.sum_nil, h4]
        by_cases hw : w = env.caller <;> simp [hw, eq_comm]
      · intro _ u
        rw [ht.tot u, h1, h3]
        simp only [legSum, List.map_cons, List.map_nil, List.sum_cons, List.sum_nil, h4]
        simp [eq_comm]
    · next h0 =>
      simp only [pure_ok_iff] at h
      subst h
      have h0 : d.2 = 0 := by simpa using h0
      refine ⟨rfl, .nil, ht.ops, (by intro hk; cases hk), ?_, ?_⟩
      · intro _ w u; rw [ht.bal w u, h0]; simp [legSum]
      · intro _ u; rw [ht.tot u, h0]; simp [legSum]
  | withdrawPair t n u m =>
    simp only [start, withdrawPair, bind_ok_iff, failIf_ok_iff] at h
    obtain ⟨_, _, x, hx, y, hy, h⟩ := h
    have htx := takeLeg_took hx
    have hty := takeLeg_took hy
    obtain ⟨h1, h2, h3⟩ := transferBoth_ok h
    refine ⟨by rw [h1], h2, by rw [h1]; exact htx.ops.trans hty.ops, (by intro hk; cases hk), ?_, ?_⟩
    · intro _ w v
      rw [htx.bal w v, hty.bal w v, h1, legSum, h3 v]
      by_cases hw : w = env.caller <;> simp [hw, eq_comm]
      omega
    · intro _ v
      rw [htx.tot v, hty.tot v, h1, legSum, h3 v]
      simp only [eq_comm]
      omega

end Verif
