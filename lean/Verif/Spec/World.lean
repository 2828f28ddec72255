import Verif.Model.Async
import Verif.Spec.History

/-!
# The program among users and token contracts

`World` is the state of the program together with the transfer requests it has sent, the commands
waiting for replies, and the number of tokens each token contract says the program holds. An `Event`
is anything that can happen next; events that make no sense in a world have no effect. Replies may be
delivered late, several times or not at all, the reply handler may run out of gas, and waiting
commands may be resumed at any time with any result.
-/

namespace Verif.Spec

structure Msg where
  leg : Leg
  answer : Option Bytes

structure World where
  program : ActorId
  inv : Inv
  /-- message identifiers from here on are unused -/
  next : Nat
  msgs : Map Nat Msg
  tasks : Map Nat (List Leg)
  /-- tokens the program holds, by token contract -/
  held : ActorId → Nat
  /-- by how much synchronous calls have changed the sum of the internal balances -/
  booked : ActorId → Int

/-- sum of the internal balances of a token -/
def total (b : Balances) (t : ActorId) : Nat := b.sum fun k v => if k.2 = t then v else 0

inductive Event
  /-- a synchronous call -/
  | call (env : Env) (c : Call)
  /-- first part of an asynchronous command -/
  | start (env : Env) (gas : Nat) (sent1 sent2 : Bool) (c : Async.ACall)
  /-- the token contract handles a request: its reply and the program's holdings after it -/
  | answer (id : Nat) (payload : Bytes) (held : Nat)
  /-- the reply arrives; `runs` is false if the handler fails (out of gas) -/
  | deliver (id : Nat) (runs : Bool)
  /-- second part of an asynchronous command, after the replies or the waiting period -/
  | resume (task : Nat) (messages : List (Option Bool))
  /-- the holdings change for another reason -/
  | drift (token : ActorId) (held : Nat)

def addMsgs (m : Map Nat Msg) : List Leg → Map Nat Msg
  | [] => m
  | l :: r => addMsgs (m.insert l.id ⟨l, none⟩) r

def setHeld (h : ActorId → Nat) (t : ActorId) (n : Nat) : ActorId → Nat :=
  fun u => if u = t then n else h u

def World.step (w : World) : Event → World
  | .call env c =>
    let s := run env w.inv c
    { w with
      inv := s
      booked := fun t => w.booked t + ((total s.balances t : Int) - total w.inv.balances t) }
  | .start env gas b1 b2 c =>
    match Async.start env ⟨w.program, gas, w.next, b1, b2⟩ w.inv c with
    | .error _ => w
    | .ok (s, legs) =>
      { w with
        inv := s
        next := w.next + 2
        msgs := addMsgs w.msgs legs
        tasks := if legs = [] then w.tasks else w.tasks.insert w.next legs }
  | .answer id payload h =>
    match w.msgs.get id with
    | some ⟨l, none⟩ =>
      { w with msgs := w.msgs.insert id ⟨l, some payload⟩, held := setHeld w.held l.token h }
    | _ => w
  | .deliver id runs =>
    match w.msgs.get id with
    | some ⟨l, some payload⟩ =>
      if runs then { w with inv := Async.replyHandler w.inv l.token id payload } else w
    | _ => w
  | .resume task messages =>
    match w.tasks.get task with
    | some legs => { w with inv := Async.resume w.inv legs messages, tasks := w.tasks.erase task }
    | none => w
  | .drift t h => { w with held := setHeld w.held t h }

def World.steps (w : World) : List Event → World
  | [] => w
  | e :: l => (w.step e).steps l

/-- the world right after deployment -/
def World.init (program admin : ActorId) (fee : Nat) (held : ActorId → Nat) : World :=
  { program := program, inv := Inv.init admin fee, next := 0, msgs := ∅, tasks := ∅, held := held,
    booked := fun _ => 0 }

/-- everything that can happen -/
inductive Hist : World → Prop
  | init (program admin : ActorId) (fee : Nat) (held : ActorId → Nat) :
      Hist (World.init program admin fee held)
  | step {w : World} (e : Event) : Hist w → Hist (w.step e)

/-! ## Answers -/

/-- the encoded response `("Vft", "TransferFrom", flag)` -/
def response (flag : Nat) : Bytes :=
  [12, 86, 102, 116, 48, 84, 114, 97, 110, 115, 102, 101, 114, 70, 114, 111, 109, flag]

/-- the token says that the transfer was done -/
def Positive (payload : Bytes) : Prop := response 1 <+: payload

/-- the token says that the transfer was not done -/
def Negative (payload : Bytes) : Prop := response 0 <+: payload

/-- no response, but a string can be read: taken for an error message -/
def Panic (payload : Bytes) : Prop := Scale.response payload = none ∧ (Scale.string payload).isSome

instance (p : Bytes) : Decidable (Positive p) := inferInstanceAs (Decidable (_ <+: _))
instance (p : Bytes) : Decidable (Negative p) := inferInstanceAs (Decidable (_ <+: _))

/-- the reply handler can make sense of the answer -/
def Readable (payload : Bytes) : Prop := Positive payload ∨ Negative payload ∨ Panic payload

/-- the answer entitles the user to be credited -/
def Credits : TransferType → Bytes → Prop
  | .deposit, p => Positive p
  | .withdrawal, p => Negative p ∨ Panic p

/-! ## Requests -/

/-- the user's side of a transfer -/
def user (l : Leg) : ActorId :=
  match l.kind with
  | .deposit => l.src
  | .withdrawal => l.dst

/-- the transfer has been requested and is not yet settled in the program's books -/
def Pending (w : World) (l : Leg) : Prop :=
  w.inv.awaiting.get (l.id, l.token) = some ⟨user l, l.amount, l.kind⟩

/-- what a request still owes to its user: a withdrawal until it is paid or returned, a deposit from
its payment until it is credited -/
def due (m : Msg) (pending : Bool) : Nat :=
  match m.leg.kind, m.answer with
  | .withdrawal, none => m.leg.amount
  | .withdrawal, some p => if Positive p ∨ pending = false then 0 else m.leg.amount
  | .deposit, none => 0
  | .deposit, some p => if Positive p ∧ pending = true then m.leg.amount else 0

/-- everything owed in a token -/
def owed (w : World) (t : ActorId) : Nat :=
  w.msgs.sum fun id m =>
    if m.leg.token = t then due m (w.inv.awaiting.get (id, t)).isSome else 0

/-- the token contract moves the requested tokens exactly if it says so, and nobody else can take the
program's tokens -/
def Honest (t : ActorId) (w : World) : Event → Prop
  | .answer id p h => ∀ l, w.msgs.get id = some ⟨l, none⟩ → l.token = t →
      if Positive p then
        match l.kind with
        | .deposit => h = w.held t + l.amount
        | .withdrawal => h + l.amount = w.held t
      else h = w.held t
  | .drift u h => u = t → w.held t ≤ h
  | _ => True

/-- histories in which one token contract is honest; the others may do anything -/
inductive HonestHist (t : ActorId) : World → Prop
  | init (program admin : ActorId) (fee : Nat) (held : ActorId → Nat) :
      HonestHist t (World.init program admin fee held)
  | step {w : World} (e : Event) : HonestHist t w → Honest t w e → HonestHist t (w.step e)

end Verif.Spec
