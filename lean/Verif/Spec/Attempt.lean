import Verif.Spec.World
import Verif.Spec.Collections

/-! # A token transfer from request to end -/

namespace Verif.Spec

/-- What happens when a transfer of one token is asked for and nothing else happens meanwhile: the command starts, the
token contract replies with `p` and says that it holds `h` for the program, the reply is handled, and the waiting
command is shown `m`. -/
def attempt (w : World) (env : Env) (gas : Nat) (c : Async.ACall) (p : Bytes) (h : Nat) (m : Option Bool) : List Event :=
  [.start env gas true true c, .answer w.next p h, .deliver w.next true, .resume w.next [m]]

/-- `v` is as `w`, except that account `who` has `b` of token `t` and that the token contract holds `h` of it for the
program -/
structure Booked (w v : World) (who t : ActorId) (b h : Nat) : Prop where
  /-- the balance of the account -/
  own : bal v.inv.balances who t = b
  /-- the holdings of the token -/
  holds : v.held t = h
  /-- other balances and holdings are untouched -/
  balances : ∀ a u, (a, u) ≠ (who, t) → bal v.inv.balances a u = bal w.inv.balances a u
  held : ∀ u, u ≠ t → v.held u = w.held u
  /-- no transfer or command is waiting that was not before -/
  awaiting : ∀ k, v.inv.awaiting.get k = w.inv.awaiting.get k
  tasks : ∀ k, v.tasks.get k = w.tasks.get k
  /-- the rest of the program's state is the same -/
  rest : { v.inv with balances := w.inv.balances, awaiting := w.inv.awaiting } = w.inv
  program : v.program = w.program
  booked : v.booked = w.booked

/-- the same for two tokens: the two token contracts reply with `px` and `py` and say that they hold `hx` and `hy`. Their
replies arrive in either order (`first` says whether that of the first token is first). -/
def attemptPair (w : World) (env : Env) (gas : Nat) (c : Async.ACall) (first : Bool) (px py : Bytes)
    (hx hy : Nat) (mx my : Option Bool) : List Event :=
  [.start env gas true true c] ++
  (if first then [.answer w.next px hx, .deliver w.next true, .answer (w.next + 1) py hy, .deliver (w.next + 1) true]
    else [.answer (w.next + 1) py hy, .deliver (w.next + 1) true, .answer w.next px hx, .deliver w.next true]) ++
  [.resume w.next [mx, my]]

/-- an amount after a transfer of `n` that was answered with `p` -/
def after (kind : TransferType) (n : Nat) (p : Bytes) (b : Nat) : Nat :=
  match kind with
  | .deposit => if Positive p then b + n else b
  | .withdrawal => if Positive p then b - n else b

/-- `v` is as `w`, except for two tokens: account `who` has `bx` and `b'` of them, and the token contracts hold `hx` and
`hy` of them for the program -/
structure BookedPair (w v : World) (who tx ty : ActorId) (bx b' hx hy : Nat) : Prop where
  ownX : bal v.inv.balances who tx = bx
  ownY : bal v.inv.balances who ty = b'
  holdsX : v.held tx = hx
  holdsY : v.held ty = hy
  balances : ∀ a u, (a, u) ≠ (who, tx) → (a, u) ≠ (who, ty) → bal v.inv.balances a u = bal w.inv.balances a u
  held : ∀ u, u ≠ tx → u ≠ ty → v.held u = w.held u
  awaiting : ∀ k, v.inv.awaiting.get k = w.inv.awaiting.get k
  tasks : ∀ k, v.tasks.get k = w.tasks.get k
  rest : { v.inv with balances := w.inv.balances, awaiting := w.inv.awaiting } = w.inv
  program : v.program = w.program
  booked : v.booked = w.booked

end Verif.Spec
