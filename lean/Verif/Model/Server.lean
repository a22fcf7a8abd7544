import Verif.Model.Stack
import Verif.Model.Live

/-!
# The device over USB/IP

A connection (`Verif.Model.Stack`) with the device at work behind it (`Verif.Model.Live`): the command loop, the
goroutines that handle reports, the operations of the authenticator, the sending of reports and the timers take
their steps in any order.  In `Verif.Model.Stack` a report is handled in one step; here nothing is.
-/

namespace VF.Server

open Fido

/-- A connection and the device behind it. -/
abbrev Conn := UsbIp.Conn (Stack.DevOf Live.State)

/-- What can happen next. -/
inductive Act where
  /-- an iteration of the command loop -/
  | command
  /-- a step inside the process: of a goroutine that handles a report, or of the authenticator -/
  | inside (e : Live.Event)
  /-- the HID server passes its next report to `responseHandler`; `choice` resolves the iteration over
  the map of waiting requests -/
  | send (choice : Nat)
  /-- a timer fires -/
  | timeout (i : Nat)

/-- usb_device.go:88: a goroutine is started for every report handed over. -/
def started (l : Live.State) (reports : List Bytes) : Live.State :=
  { l with hid := reports.foldl Reports.State.arrive l.hid }

/-- A panic ended the process. -/
def ended (l : Live.State) : Bool := l.hid.crashed || !l.proc.alive

/-- The command loop starts the goroutines for the reports it has handed over. -/
def spawn (c : Conn) : Conn :=
  { c with dev := { c.dev with hid := started c.dev.hid c.dev.usb.delivered, usb := { c.dev.usb with delivered := [] } } }

/-- ctap_hid.go:42-52: a packet is passed to `responseHandler`, which returns when the packet is in the request buffer
(usb_device.go:95-97); `responsesLock` is held meanwhile.  So no goroutine writes packets, takes the lock or gives it
back while one is being passed on. -/
def passing (c : Conn) (l : Live.State) : Bool :=
  !c.dev.outbox.isEmpty && !(l.hid.out.length == c.dev.hid.hid.out.length && l.hid.responses == c.dev.hid.hid.responses)

/-- A step inside the process; reports come from the command loop only. -/
def inside (E : Env) (cfg : Client.Config) (grow : Nat → Nat → Nat) (e : Live.Event) (c : Conn) : Option Conn :=
  match e with
  | .report _ => none
  | e =>
    match c.dev.hid.step E cfg grow e with
    | none => none
    | some l =>
      if passing c l then none
      else some { c with dev := { c.dev with
        hid := l
        outbox := c.dev.outbox ++ l.hid.out.drop c.dev.hid.hid.out.length
        crashed := ended l } }

/-- One step, `none` when it cannot be taken. -/
def step (net : UsbIp.Net) (E : Env) (cfg : Client.Config) (grow : Nat → Nat → Nat) (a : Act) (c : Conn) : Option Conn :=
  if c.dev.crashed then none
  else
    match a with
    | .command => some (spawn (UsbIp.try' (Stack.command net) c))
    | .inside e => inside E cfg grow e c
    | .send choice => Stack.send choice c
    | .timeout i => Stack.timeout i c

/-- A schedule: the steps taken one after the other; `none` when one of them cannot be taken. -/
def exec (net : UsbIp.Net) (E : Env) (cfg : Client.Config) (grow : Nat → Nat → Nat) : List Act → Conn → Option Conn
  | [], c => some c
  | a :: as, c => (step net E cfg grow a c).bind (exec net E cfg grow as)

end VF.Server
