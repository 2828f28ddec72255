import Verif.Spec.History
import Verif.Spec.World

/-! # Specification: the settings of the program and the calls they are for -/

namespace Verif.Spec
open Verif.Service

/-- what the admin decides -/
structure Settings where
  admin : ActorId
  protocolFee : Nat
  feeTiers : List FeeTier

inductive Setting
  | admin
  | protocolFee
  | feeTiers
  deriving DecidableEq

/-- the same program with other settings -/
def withSettings (s : Inv) (g : Settings) : Inv :=
  { s with admin := g.admin, protocolFee := g.protocolFee, feeTiers := g.feeTiers }

/-- the settings that a call is about -/
def about : Call → List Setting
  | .changeProtocolFee _ => [.admin, .protocolFee]
  | .addFeeTier _ => [.admin, .feeTiers]
  | .removeFeeTier _ => [.admin, .feeTiers]
  | .createPool _ _ _ _ _ => [.admin, .feeTiers]
  | .changeFeeReceiver _ _ => [.admin]
  | .swap _ _ _ _ _ => [.protocolFee]
  | .swapRoute _ _ _ _ => [.protocolFee]
  | .createPosition _ _ _ _ _ _ => []
  | .removePosition _ => []
  | .transferPosition _ _ => []
  | .claimFee _ => []
  | .withdrawProtocolFee _ => []
  | .depositVara => []
  | .withdrawVara _ => []

/-- the setting of the program is the one of `g` -/
def Matches (s : Inv) (g : Settings) : Setting → Prop
  | .admin => g.admin = s.admin
  | .protocolFee => g.protocolFee = s.protocolFee
  | .feeTiers => g.feeTiers = s.feeTiers

/-- the settings of `g`, but those in `l` from the program -/
def Settings.mix (g : Settings) (l : List Setting) (s : Inv) : Settings :=
  ⟨if .admin ∈ l then s.admin else g.admin, if .protocolFee ∈ l then s.protocolFee else g.protocolFee,
    if .feeTiers ∈ l then s.feeTiers else g.feeTiers⟩

/-- the settings of the program -/
def settings (s : Inv) : Settings := ⟨s.admin, s.protocolFee, s.feeTiers⟩

/-- two lots of settings agree in one -/
def Settings.Same (g g' : Settings) : Setting → Prop
  | .admin => g'.admin = g.admin
  | .protocolFee => g'.protocolFee = g.protocolFee
  | .feeTiers => g'.feeTiers = g.feeTiers

/-- the states agree in all but the settings: pools, positions, ticks, balances and the transfers waited for -/
structure SameBusiness (s t : Inv) : Prop where
  pools : t.pools = s.pools
  keys : t.poolKeys = s.poolKeys
  positions : t.positions = s.positions
  ticks : t.ticks = s.ticks
  tickmap : t.tickmap = s.tickmap
  balances : t.balances = s.balances
  awaiting : t.awaiting = s.awaiting

/-- the same world with other settings of the program -/
def World.withSettings (w : World) (g : Settings) : World := { w with inv := Spec.withSettings w.inv g }

/-- the settings that an event is about: token transfers are about none -/
def aboutEvent : Event → List Setting
  | .call _ c => about c
  | _ => []

end Verif.Spec
