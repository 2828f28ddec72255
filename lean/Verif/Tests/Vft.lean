import Verif.Model.Vft

/-!
# The tests of `extended-vft/app/tests/test.rs`, on the model

Left out: the part of `test_basic_function` after the burning, which tests transfers and approvals of `vft-service`, a
dependency outside the repository. The role holders are compared as sets.
-/

namespace Verif.Tests.VftTests
open Verif.Vft

-- test_basic_function 11-51
example : (do
      let (v, a) ← mint 100 (Vft.init 100) 100 1000
      let (w, b) ← burn 100 v 100 100
      pure (a, v.balanceOf 100, b, w.balanceOf 100, w.supply)) = (.ok (true, 1000, true, 900, 900) : M _) := by
  decide +kernel

-- test_grant_role
example : (mint 101 (Vft.init 100) 101 1000).toBool = false ∧
    (do
      let v ← grant 100 (Vft.init 100) .minter 101
      let minters := v.minters.isPerm [100, 101]
      let (v, a) ← mint 101 v 101 1000
      let b1 := v.balanceOf 101
      let refused := (burn 101 v 101 1000).toBool
      let v ← grant 100 v .burner 101
      let burners := v.burners.isPerm [100, 101]
      let (v, b) ← burn 101 v 101 1000
      let b2 := v.balanceOf 101
      let v ← grant 100 v .admin 101
      let admins := v.admins.isPerm [100, 101]
      let v ← revoke 100 v .admin 101
      let v ← revoke 100 v .minter 101
      let v ← revoke 100 v .burner 101
      pure ([minters, a, refused, burners, b, admins], [b1, b2], [v.admins, v.minters, v.burners])) =
    (.ok ([true, true, false, true, true, true], [1000, 0], [[100], [100], [100]]) : M _) := by
  decide +kernel

end Verif.Tests.VftTests
