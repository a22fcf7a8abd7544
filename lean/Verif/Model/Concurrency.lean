import Verif.Base.Bytes

/-!
# Small-step models of the concurrent parts

* `Lock`: senders that write several items under one mutex (ctap_hid.go:42-52,
  usbip_server.go:174-178);
* `Recurring`: util.StartRecurringFunction as used for keepalives (util.go:131-150,
  channel.go:92-97);
* `Counter`: DefaultFIDOClient.NewAuthenticationCounterId (fido_client.go).

Every action is one atomic step of one goroutine; a schedule is any sequence of enabled actions.
-/

namespace VF

/-! ## Mutex-protected senders -/
namespace Lock

/-- `todo t`: the responses thread `t` has still to send; `holder`: the thread in the critical
section and what it has still to write of its response; `out`: what was written. -/
structure State (α : Type) where
  todo : Nat → List (List α)
  holder : Option (Nat × List α)
  out : List α

inductive Act where
  | lock (t : Nat)
  | write
  | unlock

/-- One step.  ctap_hid.go:44 / usbip_server.go:175 lock; ctap_hid.go:48-50 one packet per step
(usbip_server.go:176: one byte per step, as the network may split a Write anywhere);
ctap_hid.go:45 / usbip_server.go:177 unlock.  A thread that fails inside the section simply stops
(in usbip_server.go the mutex then stays locked). -/
def act {α : Type} : Act → State α → Option (State α)
  | .lock t, s =>
    match s.holder, s.todo t with
    | none, job :: rest =>
      some { s with holder := some (t, job), todo := fun u => if u = t then rest else s.todo u }
    | _, _ => none
  | .write, s =>
    match s.holder with
    | some (t, x :: xs) => some { s with holder := some (t, xs), out := s.out ++ [x] }
    | _ => none
  | .unlock, s =>
    match s.holder with
    | some (_, []) => some { s with holder := none }
    | _ => none

inductive Reach {α : Type} (jobs : Nat → List (List α)) : State α → Prop
  | init : Reach jobs ⟨jobs, none, []⟩
  | step {s s' : State α} {a : Act} (h : Reach jobs s) (hs : act a s = some s') : Reach jobs s'

end Lock

/-! ## StartRecurringFunction -/
namespace Recurring

/-- Where the loop goroutine (util.go:138-148) is. -/
inductive Main where
  /-- before `go wait()` (line 140) -/
  | top
  /-- at the select (line 141) -/
  | select
  /-- running f (line 143) -/
  | inF
  /-- returned (line 145) -/
  | done
  deriving DecidableEq, Repr

/-- What the host side sees. -/
inductive Ev where
  | keepalive
  | answer
  deriving DecidableEq, Repr

structure State where
  main : Main
  /-- helper goroutines still asleep (line 135) -/
  sleeping : Nat
  /-- helper goroutines at the channel send (line 136) -/
  sending : Nat
  /-- elements in `trigger` (capacity 1, line 133) -/
  trigger : Nat
  /-- elements in `stopSignal` (capacity 1, line 132) -/
  stop : Nat
  /-- the client sent the stop signal (channel.go:95) -/
  stopped : Bool
  /-- f was run this often since the stop signal -/
  after : Nat
  /-- keepalives and the answer, in the order they are sent -/
  log : List Ev

def State.init : State := ⟨.top, 0, 0, 0, 0, false, 0, []⟩

inductive Act where
  | spawn
  | wake
  | send
  | recvTrigger
  | recvStop
  | endF
  | signal
  | answer
  deriving DecidableEq, Repr

/-- One step. -/
def act : Act → State → Option State
  /- util.go:140 -/
  | .spawn, s => if s.main = .top then some { s with main := .select, sleeping := s.sleeping + 1 } else none
  /- util.go:135 -/
  | .wake, s => if 0 < s.sleeping then
      some { s with sleeping := s.sleeping - 1, sending := s.sending + 1 } else none
  /- util.go:136, blocks while the channel is full -/
  | .send, s => if 0 < s.sending ∧ s.trigger = 0 then
      some { s with sending := s.sending - 1, trigger := 1 } else none
  /- util.go:142 -/
  | .recvTrigger, s => if s.main = .select ∧ 0 < s.trigger then
      some { s with main := .inF, trigger := s.trigger - 1 } else none
  /- util.go:144-145 -/
  | .recvStop, s => if s.main = .select ∧ 0 < s.stop then
      some { s with main := .done, stop := s.stop - 1 } else none
  /- util.go:143: f sends one keepalive (channel.go:107) and returns -/
  | .endF, s => if s.main = .inF then
      some { s with
        main := .top, after := if s.stopped then s.after + 1 else s.after,
        log := s.log ++ [.keepalive] } else none
  /- channel.go:95, once -/
  | .signal, s => if s.stopped = false then some { s with stopped := true, stop := s.stop + 1 } else none
  /- channel.go:97, after the stop signal, once -/
  | .answer, s => if s.stopped = true ∧ Ev.answer ∉ s.log then
      some { s with log := s.log ++ [.answer] } else none

inductive Reach : State → Prop
  | init : Reach State.init
  | step {s s' : State} {a : Act} (h : Reach s) (hs : act a s = some s') : Reach s'

end Recurring

/-! ## The U2F counter -/
namespace Counter

/-- Where a thread is in `NewAuthenticationCounterId` (fido_client.go:197-201):
`num := counter; counter++; return num`, where `counter++` reads and then writes. -/
inductive Phase where
  | start
  | gotNum (num : UInt32)
  | read (num tmp : UInt32)
  | returned (num : UInt32)
  deriving DecidableEq, Repr

structure State where
  counter : UInt32
  threads : Nat → Phase

/-- The next step of thread `t` (none once it has returned). -/
def act (t : Nat) (s : State) : Option State :=
  let upd (p : Phase) (c : UInt32) : Option State :=
    some ⟨c, fun u => if u = t then p else s.threads u⟩
  match s.threads t with
  | .start => upd (.gotNum s.counter) s.counter
  | .gotNum n => upd (.read n s.counter) s.counter
  | .read n tmp => upd (.returned n) (tmp + 1)
  | .returned _ => none

/-- A schedule: the threads in the order they step. -/
def run : List Nat → State → Option State
  | [], s => some s
  | t :: ts, s => (act t s).bind (run ts)

end Counter
end VF
