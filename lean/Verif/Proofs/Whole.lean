import Verif.Spec.Whole
import Verif.Props.Solvent
import Verif.Props.Coins

/-!
# The books of the pools within the whole system
-/

namespace Verif
open Service Spec Async

namespace Whole

variable {s s' : Inv} {g : ActorId → Nat} {m : Nat}

/-- the records of transfers do not matter to the books -/
theorem idle (h : ClearBooks s g m) (aw : Map (MessageId × ActorId) AwaitingTransfer) :
    ClearBooks { s with awaiting := aw } g m := by
  have h1 : increaseTokenBalance s.balances 0 0 0 = .ok s.balances := rfl
  have h2 := ClearBooks.deposit (aw := aw) h h1
  have e : (fun u => if u = 0 then g u + 0 else g u) = g := by
    funext u; split <;> rfl
  rw [e] at h2
  exact h2

theorem covers (h : ClearBooks s g m) (hm : m ≤ 5 * 10 ^ 8) (u : ActorId) : total s.balances u ≤ g u := by
  have := C37_clear_partial h hm ⟨0, 0, 0, 0⟩ u
  have e : totalBal s u = total s.balances u := rfl
  omega

/-- credits and debits -/
theorem ops {who : ActorId} {b b' : Balances} (ho : BalOps who b b') (hm : m ≤ 5 * 10 ^ 8) (h : ClearBooks s g m)
    (hb : s.balances = b) (aw : Map (MessageId × ActorId) AwaitingTransfer) :
    ∃ g', ClearBooks { s with balances := b', awaiting := aw } g' m ∧
      ∀ u, g' u + total b u = g u + total b' u := by
  induction ho generalizing aw with
  | refl =>
    subst hb
    exact ⟨g, idle h aw, fun u => rfl⟩
  | @inc b1 c t n _ hi ih =>
    obtain ⟨g1, h1, e1⟩ := ih s.awaiting
    have h2 := ClearBooks.deposit (aw := aw) h1 hi
    refine ⟨_, h2, fun u => ?_⟩
    have := total_inc hi u
    have := e1 u
    by_cases hu : u = t
    · simp only [hu, if_true] at *; omega
    · simp only [hu, if_false] at *; omega
  | @dec b1 c t n _ hd ih =>
    obtain ⟨g1, h1, e1⟩ := ih s.awaiting
    have ht := (dec_took hd).tot
    have hd' : decreaseTokenBalance b1 t who (some c.2) = .ok c := by
      cases n with
      | some n =>
        have : c.2 = n := by
          rcases decrease_some_ok.1 hd with ⟨rfl, rfl⟩ | ⟨-, v, -, -, rfl⟩ <;> rfl
        rw [this]; exact hd
      | none =>
        obtain ⟨v, hv, rfl⟩ := decrease_none_ok.1 hd
        have hw := reach_balWF (reach32_reach _ (clear_reach32 _ (clearBooks_clear h1))).1
        exact decrease_some_ok.2 (.inr ⟨(hw _ _ hv).1, v, hv, le_rfl, by simp⟩)
    have h2 := ClearBooks.withdraw (aw := aw) h1 hd'
    refine ⟨_, h2, fun u => ?_⟩
    have := ht u
    have := e1 u
    have := covers h1 hm u
    by_cases hu : u = t
    · simp only [hu, if_true] at *; omega
    · simp only [hu, if_false] at *; omega

/-- the swaps of a route -/
theorem route {env : Env} : ∀ (l : List SwapHop) {s : Inv} {g : ActorId → Nat} {m a : Nat} {r : Inv × Nat},
    ClearBooks s g m → ClearHops env l s a → routeSwap env l s a = .ok r → ClearBooks r.1 g (m + l.length) := by
  intro l
  induction l with
  | nil =>
    intro s g m a r h _ hr
    injection hr with hr
    subst hr
    exact h
  | cons x l ih =>
    intro s g m a r h hc hr
    simp only [routeSwap, bind_ok_iff] at hr
    obtain ⟨q, hq, hr⟩ := hr
    obtain ⟨h1, h2⟩ := hc q hq
    have := ih (.swap h hq h1) h2 hr
    rwa [List.length_cons, Nat.add_comm l.length, ← Nat.add_assoc]

/-- a call that does not move the native coin -/
theorem call {env : Env} {c : Call} (h : ClearBooks s g m) (hc : ClearCall env s c) (hv : NoVara c)
    (hs : step env s c = .ok s') : ∃ m' ≤ m + calls (.world (.call env c)), ClearBooks s' g m' := by
  by_cases h1 : ∃ k d a b l, c = .swap k d a b l
  · obtain ⟨k, d, a, b, l, rfl⟩ := h1
    simp only [step, bind_ok_iff, pure_ok_iff] at hs
    obtain ⟨r, hr, rfl⟩ := hs
    exact ⟨_, le_rfl, .swap h hr (hc r hr)⟩
  · by_cases h2 : ∃ a e sl l, c = .swapRoute a e sl l
    · obtain ⟨a, e, sl, l, rfl⟩ := h2
      simp only [step, bind_ok_iff, pure_ok_iff] at hs
      obtain ⟨r, hr, rfl⟩ := hs
      exact ⟨_, le_rfl, route l h hc (swapRoute_ok hr).1⟩
    · push Not at h1 h2
      have hf : FewPositions s' := by
        cases c with
        | swap k d a b l => exact absurd rfl (h1 k d a b l)
        | swapRoute a e sl l => exact absurd rfl (h2 a e sl l)
        | _ => exact hc s' hs
      have e : calls (.world (.call env c)) = 1 := by
        cases c with
        | swapRoute a e sl l => exact absurd rfl (h2 a e sl l)
        | _ => rfl
      rw [e]
      exact ⟨_, le_rfl, .call h ⟨h1, h2, hv⟩ hs hf⟩

/-- books that go with the whole system -/
structure Ghost (x : Coins) (g : ActorId → Nat) (m : Nat) : Prop where
  books : ClearBooks x.world.inv g m
  tokens : ∀ u, u ≠ VARA → (g u : Int) = total x.world.inv.balances u - x.world.booked u
  coin : x.held = g VARA + x.stray

/-- events other than calls credit, debit and keep records -/
theorem event (w : World) (e : Event) (he : ∀ env c, e ≠ .call env c) :
    ∃ who b aw, (w.step e).inv = { w.inv with balances := b, awaiting := aw } ∧ BalOps who w.inv.balances b ∧
      (w.step e).booked = w.booked := by
  have same : ∀ w' : World, w'.inv = w.inv → w'.booked = w.booked → ∃ who b aw,
      w'.inv = { w.inv with balances := b, awaiting := aw } ∧ BalOps who w.inv.balances b ∧ w'.booked = w.booked :=
    fun w' h1 h2 => ⟨0, w.inv.balances, w.inv.awaiting, h1, .refl _, h2⟩
  cases e with
  | call env c => exact absurd rfl (he env c)
  | drift u n => exact same _ rfl rfl
  | answer id p n =>
    simp only [World.step]
    split
    · exact same _ rfl rfl
    · exact same _ rfl rfl
  | resume k ms =>
    simp only [World.step]
    split
    · next legs hl =>
      obtain ⟨aw, h, -⟩ := resume_frame w.inv legs ms
      exact ⟨0, w.inv.balances, aw, h, .refl _, rfl⟩
    · exact same _ rfl rfl
  | deliver id runs =>
    simp only [World.step]
    split
    · next l p hm =>
      split
      · cases ha : w.inv.awaiting.get (id, l.token) with
        | none =>
          rw [replyHandler_none ha]
          exact same _ rfl rfl
        | some a =>
          rcases replyHandler_some (p := p) ha with ⟨_, _, e⟩ | ⟨_, _, e⟩ | ⟨_, e⟩
          · rw [e]
            simp only [creditOrLog]
            split
            · next b hb => exact ⟨a.account, b, _, rfl, .inc (.refl _) hb, trivial⟩
            · exact ⟨0, w.inv.balances, _, rfl, .refl _, trivial⟩
          · rw [e]
            exact ⟨0, w.inv.balances, _, rfl, .refl _, rfl⟩
          · rw [e]
            exact same _ rfl rfl
      · exact same _ rfl rfl
    · exact same _ rfl rfl
  | start env gas b1 b2 c =>
    simp only [World.step]
    split
    · exact same _ rfl rfl
    · next s legs hs =>
      have h := start_ok hs
      exact ⟨env.caller, s.balances, _, h.eq, h.ops, rfl⟩

theorem coinHist {ok : Coins → CoinEvent → Prop} {x : Coins} {n : Nat} (h : Spec.Whole ok x n) : CoinHist x := by
  induction h with
  | init p a f hd n => exact .init p a f hd n
  | step e _ _ ih => exact .step e ih

/-- an event other than a call, with the coins that come with it -/
theorem Ghost.event {x : Coins} {g : ActorId → Nat} (h : Ghost x g m) (hm : m ≤ 5 * 10 ^ 8) (hx : CoinHist x)
    (e : Event) (he : ∀ env c, e ≠ .call env c) (k : Nat) :
    ∃ g', Ghost ⟨x.world.step e, x.held + k, x.stray + k⟩ g' m := by
  obtain ⟨who, b, aw, e1, e2, e3⟩ := Whole.event x.world e he
  obtain ⟨g', h1, h2⟩ := ops e2 hm h.books rfl aw
  refine ⟨g', ⟨by rw [e1]; exact h1, fun u hu => ?_, ?_⟩⟩
  · rw [e1, e3]
    have := h.tokens u hu
    have := h2 u
    simp only
    omega
  · have h3 := event_total (coins_world hx) e he
    rw [e1] at h3
    have := h2 VARA
    have := h.coin
    simp only at h3 ⊢
    omega

/-- a call -/
theorem Ghost.call {x : Coins} {g : ActorId → Nat} {env : Env} {c : Call} {s' : Inv} (h : Ghost x g m)
    (hm : m ≤ 5 * 10 ^ 8) (hc : ClearCall env x.world.inv c) (hs : Verif.step env x.world.inv c = .ok s') :
    sentBack env x.world.inv c ≤ x.held ∧
    ∃ g', ∃ m' ≤ m + calls (.world (.call env c)), Ghost ⟨x.world.step (.call env c),
      x.held + env.value - sentBack env x.world.inv c, x.stray + strayIn env c⟩ g' m' := by
  have hinv : (x.world.step (.call env c)).inv = s' := by
    simp only [World.step, run, hs]
  have hcoin := h.coin
  have htok : ∀ u, u ≠ VARA → (g u : Int) + x.world.booked u = total x.world.inv.balances u := fun u hu => by
    have := h.tokens u hu
    omega
  have hbk : ∀ u, (x.world.step (.call env c)).booked u =
      x.world.booked u + ((total s'.balances u : Int) - total x.world.inv.balances u) := fun u => by
    rw [← hinv]; rfl
  by_cases h1 : c = .depositVara
  · subst h1
    simp only [Verif.step, bind_ok_iff, pure_ok_iff] at hs
    obtain ⟨r, hr, rfl⟩ := hs
    obtain ⟨b, hb, rfl⟩ := depositVara_ok hr
    obtain ⟨g', h2, h3⟩ := ops (.inc (.refl _) hb) hm h.books rfl x.world.inv.awaiting
    have ht := total_inc hb
    refine ⟨Nat.zero_le _, g', m, Nat.le_add_right _ _, ⟨by rw [hinv]; exact h2, fun u hu => ?_, ?_⟩⟩
    · have := h3 u
      have := htok u hu
      have h5 := ht u
      rw [if_neg hu] at h5
      rw [hbk, hinv]
      simp only
      omega
    · have := h3 VARA
      have h5 := ht VARA
      rw [if_pos rfl] at h5
      simp only [sentBack, strayIn]
      omega
  · by_cases h2 : ∃ v, c = .withdrawVara v
    · obtain ⟨v, rfl⟩ := h2
      simp only [Verif.step, bind_ok_iff, pure_ok_iff] at hs
      obtain ⟨r, hr, rfl⟩ := hs
      have hv : sentBack env x.world.inv (.withdrawVara v) = r.2 := by simp only [sentBack, hr]
      obtain ⟨b, e, -, hd⟩ := withdrawVara_ok hr
      have e1 : r.1 = { x.world.inv with balances := b } := by rw [e]
      have key : BalOps env.caller x.world.inv.balances b ∧
          ∀ u, total x.world.inv.balances u = total b u + if u = VARA then r.2 else 0 := by
        rcases hd with ⟨n, -, -, hd⟩ | ⟨-, hd⟩ | ⟨-, -, rfl, hz⟩
        · exact ⟨(dec_took hd).ops, (dec_took hd).tot⟩
        · exact ⟨(dec_took hd).ops, (dec_took hd).tot⟩
        · exact ⟨.refl _, fun u => by rw [hz]; simp⟩
      obtain ⟨g', h2, h3⟩ := ops key.1 hm h.books rfl x.world.inv.awaiting
      have hcov := covers h.books hm VARA
      have hk := key.2 VARA
      rw [if_pos rfl] at hk
      refine ⟨by rw [hv]; omega, g', m, Nat.le_add_right _ _, ⟨by rw [hinv, e1]; exact h2, fun u hu => ?_, ?_⟩⟩
      · have := h3 u
        have := htok u hu
        have h5 := key.2 u
        rw [if_neg hu] at h5
        rw [hbk, hinv, e1]
        simp only
        omega
      · have := h3 VARA
        rw [hv]
        simp only [strayIn]
        omega
    · push Not at h2
      obtain ⟨m', hm', hb⟩ := Whole.call h.books hc ⟨h1, h2⟩ hs
      have e1 : sentBack env x.world.inv c = 0 := by
        cases c <;> first | rfl | exact absurd rfl (h2 _)
      have e2 : strayIn env c = env.value := by
        cases c <;> first | rfl | exact absurd rfl h1
      refine ⟨by omega, g, m', hm', ⟨by rw [hinv]; exact hb, fun u hu => ?_, ?_⟩⟩
      · have := htok u hu
        rw [hbk, hinv]
        omega
      · rw [e1, e2]
        simp only
        omega

theorem ghost {ok : Coins → CoinEvent → Prop} (hok : ∀ x e, ok x e → ClearEvent x e) {x : Coins} {n : Nat}
    (h : Spec.Whole ok x n) (hn : n ≤ 5 * 10 ^ 8) : ∃ g, ∃ m ≤ n, Ghost x g m := by
  induction h with
  | init p a f hd n =>
    refine ⟨fun _ => 0, 0, le_rfl, ⟨.init a f, fun u _ => ?_, ?_⟩⟩
    · have : total (World.init p a f hd).inv.balances u = 0 := rfl
      rw [this]; rfl
    · simp only
      omega
  | @step x n e hx he ih =>
    obtain ⟨g, m, hm, hg⟩ := ih (by omega)
    have hch := coinHist hx
    have stay : ∃ g, ∃ m ≤ n + calls e, Ghost x g m := ⟨g, m, by omega, hg⟩
    have other : ∀ (e' : Event) (k : Nat), (∀ env c, e' ≠ .call env c) → ∃ g, ∃ m ≤ n + calls e,
        Ghost ⟨x.world.step e', x.held + k, x.stray + k⟩ g m := fun e' k he' => by
      obtain ⟨g', h1⟩ := hg.event (by omega) hch e' he' k
      exact ⟨g', m, by omega, h1⟩
    cases e with
    | gift k =>
      refine ⟨g, m, by omega, ⟨hg.books, hg.tokens, ?_⟩⟩
      have := hg.coin
      simp only [Coins.step]
      omega
    | world e =>
      cases e with
      | call env c =>
        simp only [Coins.step]
        split
        · exact stay
        · next s' hs =>
          split
          · exact stay
          · obtain ⟨-, g', m', hm', h1⟩ := hg.call (by omega) (hok _ _ he) hs
            exact ⟨g', m', by omega, h1⟩
      | start env gas b1 b2 c =>
        simp only [Coins.step]
        split
        · exact stay
        · exact other (.start env gas b1 b2 c) env.value (by simp)
      | answer id p n => exact other (.answer id p n) 0 (by simp)
      | deliver id r => exact other (.deliver id r) 0 (by simp)
      | resume k ms => exact other (.resume k ms) 0 (by simp)
      | drift t n => exact other (.drift t n) 0 (by simp)

theorem honestHist {ok : Coins → CoinEvent → Prop} {t : ActorId} (hok : ∀ x e, ok x e → HonestEvent t x e)
    {x : Coins} {n : Nat} (h : Spec.Whole ok x n) : HonestHist t x.world := by
  induction h with
  | init p a f hd n => exact .init p a f hd
  | @step x n e _ he ih =>
    have hh := hok _ _ he
    cases e with
    | gift n => exact ih
    | world e =>
      cases e with
      | call env c =>
        simp only [Coins.step]
        split
        · exact ih
        · split
          · exact ih
          · exact .step (.call env c) ih hh
      | start env gas b1 b2 c =>
        simp only [Coins.step]
        split
        · exact ih
        · exact .step (.start env gas b1 b2 c) ih hh
      | answer id p n => exact .step (.answer id p n) ih hh
      | deliver id r => exact .step (.deliver id r) ih hh
      | resume k ms => exact .step (.resume k ms) ih hh
      | drift t n => exact .step (.drift t n) ih hh

end Whole
end Verif
