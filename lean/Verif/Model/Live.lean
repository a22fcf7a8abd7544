import Verif.Model.Reports
import Verif.Model.Overlap

/-!
# The device at work

The goroutines that handle reports (`Verif.Model.Reports`) with the authenticator they call
(`Verif.Model.Overlap`): a call of `HandleMessage` (channel.go:89 and 94) begins an operation in the
authenticator, whose steps then interleave with everything else, and the goroutine goes on when
it has its result.  Meanwhile the program that embeds the device may call its API.
-/

namespace VF.Live

open Fido

/-- The HID server with its goroutines, and the process with the operations of the authenticator. -/
structure State where
  hid : Reports.State
  proc : Overlap.Process

/-- virtual_fido.go:16-19 and client_usbip.go:13-20: the server is made for a client that is loaded. -/
def State.start (p : Overlap.Process) : State := { hid := .new, proc := p }

/-- What can happen: a report comes in; goroutine `i` of the HID server does a step; operation `k` of the
authenticator does a step; the authenticator returns to goroutine `i`; a keepalive for the request of
goroutine `i`; the embedding program calls the API. -/
inductive Event where
  | report (bytes : Bytes)
  | step (i : Nat)
  | work (k : Nat)
  | return (i : Nat)
  | keepalive (i : Nat)
  | api (op : Op)

/-- channel.go:89 (`u2fServer`) and 94 (`ctapServer`): the operation a message is for. -/
def operation (command : UInt8) (payload : Bytes) : Op :=
  if command = Hid.cmdCBOR then .ctap payload else .u2f payload

/-- channel.go:89 and 94: if goroutine `i` has just called the authenticator, the operation begins. -/
def State.enter (E : Env) (cfg : Client.Config) (s : State) (i : Nat) : State :=
  match s.hid.routines[i]? with
  | some ⟨_, .calling _ _ _ command payload, _⟩ =>
    { s with proc := s.proc.step E cfg (.begin (operation command payload)) }
  | _ => s

/-- Operations the embedding program may call (fido_client.go). -/
def isApi : Op → Bool
  | .enablePIN => true
  | .disablePIN => true
  | .setPIN _ => true
  | .deleteIdentity _ => true
  | _ => false

/-- One event; `none` if it cannot happen, as after a panic anywhere, which ends the process. -/
def State.step (E : Env) (cfg : Client.Config) (grow : Nat → Nat → Nat) (s : State) (e : Event) :
    Option State :=
  if s.proc.alive then
    match e with
    | .report bytes => (s.hid.step grow (.arrive bytes)).map fun h => { s with hid := h }
    | .step i => (s.hid.step grow (.turn i s.proc.threads.length)).map fun h =>
        ({ s with hid := h } : State).enter E cfg i
    | .work k =>
      match s.proc.threads[k]? with
      | some (.working _ (.act _ _)) =>
        if s.hid.crashed then none else some { s with proc := s.proc.step E cfg (.turn k) }
      | _ => none
    | .return i =>
      match s.hid.routines[i]? with
      | some ⟨_, .calling _ k _ _ _, _⟩ =>
        match s.proc.threads[k]? with
        | some (.ready _ (.answer bytes)) =>
          (s.hid.step grow (.answer i (some bytes))).map fun h => { s with hid := h }
        | _ => none
      | _ => none
    | .keepalive i => (s.hid.step grow (.keepalive i)).map fun h => { s with hid := h }
    | .api op =>
      if isApi op && !s.hid.crashed then some { s with proc := s.proc.step E cfg (.begin op) } else none
  else none

/-- A history of events. -/
def State.run (E : Env) (cfg : Client.Config) (grow : Nat → Nat → Nat) : State → List Event → Option State
  | s, [] => some s
  | s, e :: es => (s.step E cfg grow e).bind fun s' => s'.run E cfg grow es

end VF.Live
