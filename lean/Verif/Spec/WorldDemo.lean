import Verif.Spec.World

/-! # A concrete history with token transfers, for the examples -/

namespace Verif.Async
open Verif.Spec

/-- a negative answer -/
def no : Bytes := [12, 86, 102, 116, 48, 84, 114, 97, 110, 115, 102, 101, 114, 70, 114, 111, 109, 0]
/-- a positive answer -/
def yes : Bytes := [12, 86, 102, 116, 48, 84, 114, 97, 110, 115, 102, 101, 114, 70, 114, 111, 109, 1]

def by_ (a : ActorId) : Env := ⟨a, 100, 1, 0⟩

/-- the program is account 9; account 2 asks for the transfer of 100 of token 5 to it -/
def asking : World := (World.init 9 1 0 fun _ => 0).step
  (.start (by_ 2) (10 ^ 12) true true (.depositSingle 5 100))

/-- the transfer succeeds -/
def deposited : World := asking.steps [.answer 0 yes 100, .deliver 0 true, .resume 0 [some true]]

/-- account 2 asks for 60 back -/
def asked : World := deposited.step (.start (by_ 2) (10 ^ 12) true true (.withdrawSingle 5 (some 60)))

/-- account 2 asks for the deposit of 3 of token 5 and 4 of token 6 -/
def both : World := deposited.step (.start (by_ 2) (10 ^ 12) true true (.depositPair 5 3 6 4))

end Verif.Async
