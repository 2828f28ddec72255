import Verif.Proofs.Frame

/-! # How calls change the internal balances -/

namespace Verif
open Service Spec

variable {env : Env} {s s' : Inv}

/-- a sequence of credits and debits of one account -/
inductive BalOps (who : ActorId) : Balances → Balances → Prop
  | refl (b) : BalOps who b b
  | inc {a b c : Balances} {t : ActorId} {n : Nat} : BalOps who a b →
      increaseTokenBalance b t who n = .ok c → BalOps who a c
  | dec {a b : Balances} {c : Balances × Nat} {t : ActorId} {n : Option Nat} : BalOps who a b →
      decreaseTokenBalance b t who n = .ok c → BalOps who a c.1

theorem BalOps.trans {who : ActorId} {a b c : Balances} (h1 : BalOps who a b) (h2 : BalOps who b c) :
    BalOps who a c := by
  induction h2 with
  | refl => exact h1
  | inc _ h ih => exact .inc ih h
  | dec _ h ih => exact .dec ih h

/-- no zero balance is stored and every balance fits the type -/
def BalWF (b : Balances) : Prop := ∀ k v, b.get k = some v → v ≠ 0 ∧ v < 2 ^ 256

theorem balWF_empty : BalWF ∅ := by intro k v h; simp at h

theorem balWF_inc {b c : Balances} {t who : ActorId} {n : Nat} (hb : BalWF b)
    (h : increaseTokenBalance b t who n = .ok c) : BalWF c := by
  rw [increase_ok] at h
  rcases h with ⟨_, rfl⟩ | ⟨hn, hlt, rfl⟩
  · exact hb
  · intro k v hv
    rw [Map.get_insert] at hv
    split at hv
    · cases hv; exact ⟨by omega, hlt⟩
    · exact hb k v hv

theorem balWF_erase {b : Balances} {k : ActorId × ActorId} (hb : BalWF b) : BalWF (b.erase k) := by
  intro k' v hv
  rw [Map.get_erase] at hv
  split at hv
  · cases hv
  · exact hb k' v hv

theorem balWF_dec {b : Balances} {c : Balances × Nat} {t who : ActorId} {n : Option Nat}
    (hb : BalWF b) (h : decreaseTokenBalance b t who n = .ok c) : BalWF c.1 := by
  cases n with
  | none =>
    rw [decrease_none_ok] at h
    obtain ⟨v, _, rfl⟩ := h
    exact balWF_erase hb
  | some n =>
    rw [decrease_some_ok] at h
    rcases h with ⟨_, rfl⟩ | ⟨hn, v, hv, hle, rfl⟩
    · exact hb
    · simp only
      split
      · exact balWF_erase hb
      · next hne =>
        intro k w hw
        rw [Map.get_insert] at hw
        split at hw
        · cases hw
          have := (hb _ _ hv).2
          exact ⟨by omega, by omega⟩
        · exact hb k w hw

theorem BalOps.wf {who : ActorId} {a b : Balances} (h : BalOps who a b) (ha : BalWF a) : BalWF b := by
  induction h with
  | refl => exact ha
  | inc _ h ih => exact balWF_inc ih h
  | dec _ h ih => exact balWF_dec ih h

theorem decrease_other {b : Balances} {c : Balances × Nat} {t who : ActorId} {n : Option Nat}
    (h : decreaseTokenBalance b t who n = .ok c) {k : ActorId × ActorId} (hk : k ≠ (who, t)) :
    c.1.get k = b.get k := by
  cases n with
  | none =>
    rw [decrease_none_ok] at h
    obtain ⟨v, _, rfl⟩ := h
    exact Map.get_erase_ne _ hk
  | some n =>
    rw [decrease_some_ok] at h
    rcases h with ⟨_, rfl⟩ | ⟨hn, v, hv, hle, rfl⟩
    · rfl
    · simp only
      split
      · exact Map.get_erase_ne _ hk
      · exact Map.get_insert_ne _ _ hk

theorem increase_other {b c : Balances} {t who : ActorId} {n : Nat}
    (h : increaseTokenBalance b t who n = .ok c) {k : ActorId × ActorId} (hk : k ≠ (who, t)) :
    c.get k = b.get k := by
  rw [increase_ok] at h
  rcases h with ⟨_, rfl⟩ | ⟨hn, hlt, rfl⟩
  · rfl
  · exact Map.get_insert_ne _ _ hk

theorem BalOps.other {who : ActorId} {a b : Balances} (h : BalOps who a b) {k : ActorId × ActorId}
    (hk : k.1 ≠ who) : b.get k = a.get k := by
  induction h with
  | refl => rfl
  | inc _ h ih => rw [increase_other h (by rintro rfl; exact hk rfl), ih]
  | dec _ h ih => rw [decrease_other h (by rintro rfl; exact hk rfl), ih]

theorem step_balOps {c : Call} (h : step env s c = .ok s') :
    BalOps env.caller s.balances s'.balances := by
  refine step_cases (env := env) (R := fun s s' => BalOps env.caller s.balances s'.balances)
    (fun _ => .refl _) (fun _ _ _ => BalOps.trans) ?_ s s' c h
  clear h
  intro s s' c hc h
  cases c with
  | changeProtocolFee f =>
    simp only [step, changeProtocolFee, bind_ok_iff, failIf_ok_iff, pure_ok_iff, ne_eq, not_not] at h
    obtain ⟨_, ⟨_, ha, rfl⟩, rfl⟩ := h
    exact .refl _
  | addFeeTier t =>
    simp only [step, addFeeTier, bind_ok_iff, failIf_ok_iff, pure_ok_iff, ne_eq, not_not] at h
    obtain ⟨_, ⟨_, _, _, _, _, ha, _, _, rfl⟩, rfl⟩ := h
    exact .refl _
  | removeFeeTier t =>
    simp only [step, removeFeeTier, bind_ok_iff, failIf_ok_iff, pure_ok_iff, ne_eq, not_not] at h
    obtain ⟨_, ⟨_, ha, _, _, rfl⟩, rfl⟩ := h
    exact .refl _
  | createPool x y t p i =>
    obtain ⟨_, _, _, _, _, _, _, rfl⟩ := createPool_ok h
    exact .refl _
  | changeFeeReceiver k r =>
    obtain ⟨_, _, _, rfl⟩ := changeFeeReceiver_ok h
    exact .refl _
  | createPosition k l u d a b =>
    simp only [step, bind_ok_iff, pure_ok_iff] at h
    obtain ⟨r, h, rfl⟩ := h
    obtain ⟨_, _, _, _, _, _, _, _, _, _, _, _, _, hx, hy, h1, h2, _⟩ := createPosition_ok h
    rw [putTicks_eq h1 h2]
    exact .dec (.dec (.refl _) hx) hy
  | removePosition i =>
    simp only [step, bind_ok_iff, pure_ok_iff] at h
    obtain ⟨r, h, rfl⟩ := h
    obtain ⟨_, _, _, _, _, _, _, _, _, _, _, _, _, _, _, h1, h2, _, hx, hy, rfl⟩ :=
      removePosition_ok h
    have e := dropTicks_eq h1 h2
    rw [e] at hx
    exact .inc (.inc (.refl _) hx) hy
  | transferPosition i r =>
    obtain ⟨_, _, _, rfl⟩ := transferPosition_ok h
    exact .refl _
  | swap k d a b l =>
    simp only [step, bind_ok_iff, pure_ok_iff] at h
    obtain ⟨r, h, rfl⟩ := h
    obtain ⟨_, _, _, _, _, hx, hy, e⟩ := swap_ok h
    rw [e]
    exact .inc (.dec (.refl _) hx) hy
  | swapRoute a e sl hp => exact absurd rfl (hc a e sl hp)
  | claimFee i =>
    simp only [step, bind_ok_iff, pure_ok_iff] at h
    obtain ⟨r, h, rfl⟩ := h
    obtain ⟨_, _, _, _, _, _, _, _, _, _, _, _, _, _, hx, hy, rfl⟩ := claimFee_ok h
    exact .inc (.inc (.refl _) hx) hy
  | withdrawProtocolFee k =>
    simp only [step, bind_ok_iff, pure_ok_iff] at h
    obtain ⟨r, h, rfl⟩ := h
    obtain ⟨_, _, _, _, _, hx, hy, rfl⟩ := withdrawProtocolFee_ok h
    exact .inc (.inc (.refl _) hx) hy
  | depositVara =>
    simp only [step, bind_ok_iff, pure_ok_iff] at h
    obtain ⟨r, h, rfl⟩ := h
    obtain ⟨_, hx, rfl⟩ := depositVara_ok h
    exact .inc (.refl _) hx
  | withdrawVara v =>
    simp only [step, bind_ok_iff, pure_ok_iff] at h
    obtain ⟨r, h, rfl⟩ := h
    obtain ⟨b, e, _, hcase⟩ := withdrawVara_ok h
    rw [e]
    rcases hcase with ⟨n, _, _, hd⟩ | ⟨_, hd⟩ | ⟨_, _, rfl, _⟩
    · exact .dec (.refl _) hd
    · exact .dec (.refl _) hd
    · exact .refl _

theorem reach_balWF (h : Reach s) : BalWF s.balances := by
  induction h with
  | init a f => exact balWF_empty
  | call _ h ih => exact (step_balOps h).wf ih
  | transfers _ h _ => exact h

end Verif
