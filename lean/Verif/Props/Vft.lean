import Verif.Model.Vft

/-! # C50: supply of the extended VFT token -/

namespace Verif
open Vft

namespace Spec

/-- sum of all balances -/
def vftTotal (v : Vft) : Nat := v.balances.sum fun _ n => n

/-- Histories of the token: calls by anybody, and transfers of the inherited service, of which only
this is assumed: they change nothing but balances and keep their sum. -/
inductive VftHist : Vft → Prop
  | init (admin : ActorId) : VftHist (Vft.init admin)
  | call {v v' : Vft} {caller : ActorId} {c : Vft.Call} : VftHist v → Vft.step caller v c = .ok v' →
      VftHist v'
  | transfer {v : Vft} {b : Map ActorId Nat} : VftHist v → (b.sum fun _ n => n) = vftTotal v →
      VftHist { v with balances := b }

/-- who holds a role -/
def holders (v : Vft) : Role → List ActorId
  | .admin => v.admins
  | .minter => v.minters
  | .burner => v.burners

end Spec
open Spec

private theorem sum_ins (m : Map ActorId Nat) (a : ActorId) (n : Nat) :
    (m.insert a n).sum (fun _ x => x) + (m.get a).getD 0 = m.sum (fun _ x => x) + n := by
  have := Map.sum_insert m a n (fun _ x => x)
  cases hg : m.get a with
  | none =>
    have h2 := Map.sum_insert_none n hg (fun _ x => x)
    simp only [Option.getD_none] at *
    omega
  | some x =>
    have h2 := Map.sum_erase_some hg (fun _ x => x)
    simp only [Option.getD_some] at *
    omega

private theorem sum_era (m : Map ActorId Nat) (a : ActorId) :
    (m.erase a).sum (fun _ x => x) + (m.get a).getD 0 = m.sum (fun _ x => x) := by
  cases hg : m.get a with
  | none => rw [Map.sum_erase_none hg]; simp
  | some x =>
    have h2 := Map.sum_erase_some hg (fun _ x => x)
    simp only [Option.getD_some] at *
    omega

/-- C50: minting needs the minter role and raises the supply and the receiver's balance by exactly the
amount, and changes nothing else. -/
theorem C50_mint (caller : ActorId) (v v' : Vft) (a : ActorId) (n : Nat) (r : Bool)
    (h : mint caller v a n = .ok (v', r)) :
    caller ∈ v.minters ∧ v'.supply = v.supply + n ∧ r = decide (n ≠ 0) ∧
    (∀ x, v'.balanceOf x = v.balanceOf x + if x = a then n else 0) ∧
    (n ≠ 0 → v'.supply < 2 ^ 256) ∧ ∀ role, holders v' role = holders v role := by
  simp only [mint, bind_ok_iff, failIf_ok_iff, not_not] at h
  obtain ⟨_, hm, h⟩ := h
  refine ⟨hm, ?_⟩
  split at h
  · next h0 =>
    simp only [pure_ok_iff, Prod.mk.injEq] at h
    obtain ⟨rfl, rfl⟩ := h
    subst h0
    simp
  · next h0 =>
    simp only [bind_ok_iff, addC_ok_iff, pure_ok_iff, Prod.mk.injEq] at h
    obtain ⟨s, ⟨hs, rfl⟩, b, ⟨_, rfl⟩, rfl, rfl⟩ := h
    refine ⟨rfl, by simp [h0], ?_, fun _ => hs, fun role => by cases role <;> rfl⟩
    intro x
    simp only [balanceOf, Map.get_insert]
    by_cases hx : x = a
    · subst hx; simp
    · simp [hx]

/-- C50: burning needs the burner role and lowers the supply and the owner's balance by exactly the
amount, and changes nothing else. -/
theorem C50_burn (caller : ActorId) (v v' : Vft) (a : ActorId) (n : Nat) (r : Bool)
    (h : burn caller v a n = .ok (v', r)) :
    caller ∈ v.burners ∧ v.supply = v'.supply + n ∧ r = decide (n ≠ 0) ∧
    (∀ x, v.balanceOf x = v'.balanceOf x + if x = a then n else 0) ∧
    ∀ role, holders v' role = holders v role := by
  simp only [burn, bind_ok_iff, failIf_ok_iff, not_not] at h
  obtain ⟨_, hm, h⟩ := h
  refine ⟨hm, ?_⟩
  split at h
  · next h0 =>
    simp only [pure_ok_iff, Prod.mk.injEq] at h
    obtain ⟨rfl, rfl⟩ := h
    subst h0
    simp
  · next h0 =>
    simp only [bind_ok_iff, subC_ok_iff, pure_ok_iff, Prod.mk.injEq] at h
    obtain ⟨s, ⟨hs, rfl⟩, b, ⟨hb, rfl⟩, rfl, rfl⟩ := h
    refine ⟨by simp only; omega, by simp [h0], ?_, fun role => by cases role <;> rfl⟩
    intro x
    show v.balanceOf x = ((if v.balanceOf a - n = 0 then v.balances.erase a
      else v.balances.insert a (v.balanceOf a - n)).get x).getD 0 + _
    by_cases he : v.balanceOf a - n = 0
    · rw [if_pos he]
      by_cases hx : x = a
      · subst hx; rw [Map.get_erase_self, Option.getD_none, if_pos rfl]; omega
      · rw [if_neg hx, Map.get_erase_ne _ hx]; rfl
    · rw [if_neg he]
      by_cases hx : x = a
      · subst hx; rw [Map.get_insert_self, Option.getD_some, if_pos rfl]; omega
      · rw [if_neg hx, Map.get_insert_ne _ _ hx]; rfl

/-- C50: in every history the supply is the sum of the balances. -/
theorem C50_supply (v : Vft) (h : VftHist v) : v.supply = vftTotal v := by
  induction h with
  | init a => rfl
  | transfer _ hs ih => rw [ih, ← hs]; rfl
  | @call v v' caller c _ hs ih =>
    cases c with
    | mint a n =>
      simp only [Vft.step, bind_ok_iff, pure_ok_iff] at hs
      obtain ⟨⟨q, r⟩, hs, rfl⟩ := hs
      simp only [mint, bind_ok_iff, failIf_ok_iff, not_not] at hs
      obtain ⟨_, _, hs⟩ := hs
      split at hs
      · simp only [pure_ok_iff, Prod.mk.injEq] at hs
        obtain ⟨rfl, rfl⟩ := hs
        exact ih
      · simp only [bind_ok_iff, addC_ok_iff, pure_ok_iff, Prod.mk.injEq] at hs
        obtain ⟨s, ⟨_, rfl⟩, b, ⟨_, rfl⟩, rfl, rfl⟩ := hs
        have := sum_ins v.balances a (v.balanceOf a + n)
        unfold vftTotal balanceOf at *
        simp only
        omega
    | burn a n =>
      simp only [Vft.step, bind_ok_iff, pure_ok_iff] at hs
      obtain ⟨⟨q, r⟩, hs, rfl⟩ := hs
      simp only [burn, bind_ok_iff, failIf_ok_iff, not_not] at hs
      obtain ⟨_, _, hs⟩ := hs
      split at hs
      · simp only [pure_ok_iff, Prod.mk.injEq] at hs
        obtain ⟨rfl, rfl⟩ := hs
        exact ih
      · simp only [bind_ok_iff, subC_ok_iff, pure_ok_iff, Prod.mk.injEq] at hs
        obtain ⟨s, ⟨_, rfl⟩, b, ⟨hb, rfl⟩, rfl, rfl⟩ := hs
        have h1 := sum_ins v.balances a (v.balanceOf a - n)
        have h2 := sum_era v.balances a
        unfold vftTotal balanceOf at *
        simp only
        split
        · omega
        · omega
    | grant r a =>
      simp only [Vft.step, grant, bind_ok_iff, failIf_ok_iff, pure_ok_iff] at hs
      obtain ⟨_, _, rfl⟩ := hs
      cases r <;> exact ih
    | revoke r a =>
      simp only [Vft.step, revoke, bind_ok_iff, failIf_ok_iff, pure_ok_iff] at hs
      obtain ⟨_, _, rfl⟩ := hs
      cases r <;> exact ih

/-- C50: minting and burning need the role, and only admins change who holds a role, one holder at a
time. -/
theorem C50_roles (caller : ActorId) (v v' : Vft) (c : Vft.Call) (h : Vft.step caller v c = .ok v') :
    (∀ a n, c = .mint a n → caller ∈ v.minters) ∧ (∀ a n, c = .burn a n → caller ∈ v.burners) ∧
    (∀ role x, (x ∈ holders v' role ↔ x ∈ holders v role) ∨
      (caller ∈ v.admins ∧ (c = .grant role x ∧ x ∈ holders v' role ∨
        c = .revoke role x ∧ x ∉ holders v' role))) := by
  cases c with
  | mint a n =>
    simp only [Vft.step, bind_ok_iff, pure_ok_iff] at h
    obtain ⟨⟨q, r⟩, h, rfl⟩ := h
    have := C50_mint caller v q a n r h
    exact ⟨fun _ _ _ => this.1, by simp, fun role x => .inl (by rw [this.2.2.2.2.2 role])⟩
  | burn a n =>
    simp only [Vft.step, bind_ok_iff, pure_ok_iff] at h
    obtain ⟨⟨q, r⟩, h, rfl⟩ := h
    have := C50_burn caller v q a n r h
    exact ⟨by simp, fun _ _ _ => this.1, fun role x => .inl (by rw [this.2.2.2.2 role])⟩
  | grant r a =>
    simp only [Vft.step, grant, bind_ok_iff, failIf_ok_iff, pure_ok_iff, not_not] at h
    obtain ⟨_, hc, rfl⟩ := h
    refine ⟨by simp, by simp, ?_⟩
    intro role x
    by_cases hx : r = role ∧ a = x
    · obtain ⟨rfl, rfl⟩ := hx
      right
      refine ⟨hc, .inl ⟨rfl, ?_⟩⟩
      cases r <;> simp [holders]
    · left
      cases r <;> cases role <;> simp_all [holders] <;> (intro e; exact absurd e.symm hx)
  | revoke r a =>
    simp only [Vft.step, revoke, bind_ok_iff, failIf_ok_iff, pure_ok_iff, not_not] at h
    obtain ⟨_, hc, rfl⟩ := h
    refine ⟨by simp, by simp, ?_⟩
    intro role x
    by_cases hx : r = role ∧ a = x
    · obtain ⟨rfl, rfl⟩ := hx
      right
      refine ⟨hc, .inr ⟨rfl, ?_⟩⟩
      cases r <;> simp [holders]
    · left
      cases r <;> cases role <;> simp_all [holders] <;> (intro _ e; exact absurd e.symm hx)

/-- what the token may be asked for: minters mint what the supply has room for, burners burn what the owner has, and
admins give and take every role -/
def Spec.VftAllowed (caller : ActorId) (v : Vft) : Vft.Call → Prop
  | .mint _ n => caller ∈ v.minters ∧ (n = 0 ∨ vftTotal v + n < 2 ^ 256)
  | .burn a n => caller ∈ v.burners ∧ n ≤ v.balanceOf a
  | .grant _ _ => caller ∈ v.admins
  | .revoke _ _ => caller ∈ v.admins

/-- no balance is above the sum of all -/
private theorem bal_le (v : Vft) (a : ActorId) : v.balanceOf a ≤ vftTotal v := by
  have := sum_era v.balances a
  unfold vftTotal balanceOf
  omega

/-- C50: in every history a call to the token succeeds exactly when it is allowed; in particular the addition to the
receiver's balance and the subtraction from the supply never fail by themselves. -/
theorem C50_accept (v : Vft) (h : VftHist v) (caller : ActorId) (c : Vft.Call) :
    (∃ v', Vft.step caller v c = .ok v') ↔ VftAllowed caller v c := by
  have hs := C50_supply v h
  cases c with
  | mint a n =>
    have hb := bal_le v a
    simp only [Vft.step, mint, VftAllowed, bind_ok_iff, failIf_ok_iff, not_not, pure_ok_iff]
    constructor
    · rintro ⟨v', ⟨q, r⟩, ⟨_, hm, h⟩, rfl⟩
      refine ⟨hm, ?_⟩
      split at h
      · exact .inl ‹_›
      · simp only [bind_ok_iff, addC_ok_iff, pure_ok_iff] at h
        obtain ⟨s, ⟨hl, rfl⟩, -⟩ := h
        exact .inr (by omega)
    · rintro ⟨hm, h⟩
      split
      · exact ⟨_, _, ⟨(), hm, rfl⟩, rfl⟩
      · simp only [bind_ok_iff, addC_ok_iff, pure_ok_iff]
        exact ⟨_, _, ⟨(), hm, _, ⟨by omega, rfl⟩, _, ⟨by omega, rfl⟩, rfl⟩, rfl⟩
  | burn a n =>
    have hb := bal_le v a
    simp only [Vft.step, burn, VftAllowed, bind_ok_iff, failIf_ok_iff, not_not, pure_ok_iff]
    constructor
    · rintro ⟨v', ⟨q, r⟩, ⟨_, hm, h⟩, rfl⟩
      refine ⟨hm, ?_⟩
      split at h
      · omega
      · simp only [bind_ok_iff, subC_ok_iff, pure_ok_iff] at h
        obtain ⟨s, -, b, ⟨hl, -⟩, -⟩ := h
        exact hl
    · rintro ⟨hm, h⟩
      split
      · exact ⟨_, _, ⟨(), hm, rfl⟩, rfl⟩
      · simp only [bind_ok_iff, subC_ok_iff, pure_ok_iff]
        exact ⟨_, _, ⟨(), hm, _, ⟨by omega, rfl⟩, _, ⟨h, rfl⟩, rfl⟩, rfl⟩
  | grant r a =>
    simp only [Vft.step, grant, VftAllowed, bind_ok_iff, failIf_ok_iff, not_not, pure_ok_iff]
    exact ⟨fun ⟨_, _, hm, _⟩ => hm, fun hm => ⟨_, (), hm, rfl⟩⟩
  | revoke r a =>
    simp only [Vft.step, revoke, VftAllowed, bind_ok_iff, failIf_ok_iff, not_not, pure_ok_iff]
    exact ⟨fun ⟨_, _, hm, _⟩ => hm, fun hm => ⟨_, (), hm, rfl⟩⟩

/-- minting up to the last unit is allowed, one more is not, whoever receives it; burning more than the owner has is
not, even if the supply is larger; the admin can give up its own role -/
example : ((mint 1 (Vft.init 1) 2 5).toOption.map fun r => ((Vft.step 1 r.1 (.mint 3 (2 ^ 256 - 6))).isOk,
      (Vft.step 1 r.1 (.mint 3 (2 ^ 256 - 5))).isOk, (Vft.step 1 r.1 (.burn 2 5)).isOk,
      (Vft.step 1 r.1 (.burn 3 1)).isOk)) = some (true, false, true, false) ∧
    ((Vft.step 1 (Vft.init 1) (.revoke .admin 1)).toOption.map fun v => (v.admins,
      (Vft.step 1 v (.grant .admin 1)).isOk, (Vft.step 1 v (.mint 2 5)).isOk)) = some ([], false, true) := by
  decide +kernel

/-- the admin mints 5 to account 2 and burns 3 of them; account 2 cannot mint -/
example : ((mint 1 (Vft.init 1) 2 5).toOption.map fun r => (r.1.supply, r.1.balanceOf 2)) = some (5, 5) ∧
    (((mint 1 (Vft.init 1) 2 5) >>= fun r => burn 1 r.1 2 3).toOption.map
      fun r => (r.1.supply, r.1.balanceOf 2)) = some (2, 2) ∧
    (mint 2 (Vft.init 1) 2 5).isOk = false := by decide +kernel

end Verif
