import Verif.Spec.World
import Verif.Spec.Apart
import Verif.Spec.Alike

/-! # Specification: token transfers that do not concern a group of accounts -/

namespace Verif.Spec
open Verif.Service

/-- Two states that agree on the settings, on the pools of `K` and on the accounts of `A`. The transfers waited for may
differ. -/
def AgreeAside (K : PoolKey → Prop) (A : ActorId → Prop) (s t : Inv) : Prop :=
  Agree K A s { t with awaiting := s.awaiting }

/-- An event of the token transfers that is not about the balances of `A`: a request or a reply of another account, and
whatever token contracts do and waiting commands see. -/
def Elsewhere (A : ActorId → Prop) (w : World) : Event → Prop
  | .call _ _ => False
  | .start env _ _ _ _ => ¬ A env.caller
  | .deliver id _ => ∀ m, w.msgs.get id = some m → ¬ A (user m.leg)
  | .answer _ _ _ | .resume _ _ | .drift _ _ => True

end Verif.Spec
