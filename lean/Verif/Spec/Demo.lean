import Verif.Spec.History

/-!
# A concrete history used in the examples

Account 1 is the admin, 2 and 3 are users; tokens 5 and 7. One pool with fee 0.1% and spacing 10,
two positions and balances for everyone.
-/

namespace Verif.Demo
open Verif.Service Verif.Spec

def tier : FeeTier := ⟨10 ^ 9, 10⟩
def key : PoolKey := ⟨5, 7, tier⟩
def tier2 : FeeTier := ⟨6 * 10 ^ 9, 10⟩
def key2 : PoolKey := ⟨5, 7, tier2⟩

/-- message of an account -/
def by_ (a : ActorId) : Env := ⟨a, 100, 1, 0⟩

/-- starting balances -/
def funded : Inv :=
  { Inv.init 1 (10 ^ 11) with
    balances := ((((∅ : Balances).insert (2, 5) (10 ^ 20)).insert (2, 7) (10 ^ 20)).insert
      (3, 5) (10 ^ 20)).insert (3, 7) (10 ^ 20) }

/-- a pool with two positions -/
def start : Inv :=
  runAll funded
    [(by_ 1, .addFeeTier tier), (by_ 1, .addFeeTier tier2),
     (by_ 2, .createPool 7 5 tier (10 ^ 24) 0), (by_ 2, .createPool 5 7 tier2 (10 ^ 24) 0),
     (by_ 2, .createPosition key (-20) 20 (10 ^ 15) (10 ^ 24) (10 ^ 24)),
     (by_ 3, .createPosition key (-10) 10 (3 * 10 ^ 15) 0 (10 ^ 25)),
     (by_ 3, .createPosition key2 (-100) 100 (10 ^ 16) 0 (10 ^ 25))]

/-- the same after a swap crossing a tick -/
def traded : Inv :=
  runAll start [(by_ 2, .swap key true (22 * 10 ^ 6) true MIN_SQRT_PRICE)]

end Verif.Demo
