import Verif.Model.Math

/-! # Specification: liquidity handled in several pieces -/

namespace Verif

/-- sum of the token X parts of a list of results -/
def sumX (rs : List (Nat × Nat × Bool)) : Nat := (rs.map (fun r => r.1)).sum
/-- sum of the token Y parts of a list of results -/
def sumY (rs : List (Nat × Nat × Bool)) : Nat := (rs.map (fun r => r.2.1)).sum

/-- every piece of liquidity in `Ls` has the amounts at the same place in `rs` -/
def Pieces (t : Int) (p : Nat) (sign : Bool) (u l : Int) (Ls : List Nat)
    (rs : List (Nat × Nat × Bool)) : Prop :=
  List.Forall₂ (fun L r => calculateAmountDelta t p L sign u l = .ok r) Ls rs

end Verif
