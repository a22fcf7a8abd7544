import Verif.Model.Usb

/-!
# The listening server and the demo that attaches to it

`Verif.Model.UsbIp` has what is done with one connection.  Here connections come in one after the other
(usbip_server.go:25-47), and the demo program runs the server and a command that connects to it side by side
(cmd/demo/server.go:74-96).
-/

namespace VF.UsbIp.Listener

/-- What `listener.Accept` (usbip_server.go:30) comes back with: an error, or a connection from `peer`, which sends
`bytes` and then closes its end or, with `closes` false, sends nothing more and leaves it open. -/
inductive Incoming where
  | error
  | client (peer : Peer) (bytes : Bytes) (closes : Bool)

/-- What becomes of a connection. -/
inductive Fate where
  /-- there was none: `Accept` failed -/
  | failed
  /-- closed at once -/
  | refused
  /-- served, with `out` written to it, until `handle` panicked and the server went on to the next one -/
  | over (out : Bytes)
  /-- served for ever in the loop of `handle`, which waits for more to read -/
  | idle (out : Bytes)
  /-- served for ever in `handleCommands`, having been given a device -/
  | given (out : Bytes)
  /-- never accepted -/
  | queued
  deriving DecidableEq, Repr

/-- What was written to a connection up to and including the answer to an import. -/
def Fate.written : Fate → Bytes
  | .over out => out
  | .idle out => out
  | .given out => out
  | _ => []

/-- Whether the server never comes back from this connection. -/
def Fate.stays : Fate → Bool
  | .idle _ => true
  | .given _ => true
  | .queued => true
  | _ => false

section
variable {D : Type}

/-- usbip_server.go:74-100 `handle` for `n` iterations of its loop, up to an import.  A read for which there is not
enough panics (util.go:59, 97) if the client closed its end; if it did not, it waits for ever. -/
def handleOpen (net : Net) (devices : List (Device D)) (closes : Bool) : Nat → Conn D → Fate
  | 0, c => .idle c.out
  | n + 1, c =>
    match control net devices c with
    | (.panic .checkErr, c) => if closes then .over c.out else .idle c.out
    | (.panic _, c) => .over c.out
    | (.ok none, c) => handleOpen net devices closes n c
    | (.ok (some _), c) => .given c.out

/-- usbip_server.go:30-46, one iteration of the loop of `Start`.  Every iteration of the loop of `handle` but the
last takes eight bytes, so there are no more than there are bytes. -/
def serve (net : Net) (devices : List (Device D)) (d : D) : Incoming → Fate
  | .error => .failed
  | .client peer bytes closes =>
    if accepted peer then handleOpen net devices closes (bytes.length + 1) ⟨bytes, 0, [], d, []⟩ else .refused

/-- usbip_server.go:29-46, the loop of `Start`, for the connections that come in; the network may behave
differently for each.  The device state is that of the start: nothing before an import touches it. -/
def loop (devices : List (Device D)) (d : D) : (net : Nat → Net) → List Incoming → List Fate
  | _, [] => []
  | net, i :: rest =>
    let f := serve (net 0) devices d i
    if f.stays then f :: rest.map (fun _ => Fate.queued)
    else f :: loop devices d (fun k => net (k + 1)) rest

end

end VF.UsbIp.Listener

namespace VF.Demo.Run

open VF.UsbIp VF.UsbIp.Listener

/-- The systems the demo is built for. -/
inductive System where
  | linux
  | windows
  | mac
  deriving DecidableEq, Repr

/-- cmd/demo/exec_linux.go:8-10, exec_windows.go:8-12, exec_macos.go:7-9 `platformUSBIPExec`: the program and its
arguments.  Left out: the directory it is run in on Windows. -/
def platformUSBIPExec : System → Option (List String)
  | .linux => some ["sudo", "usbip", "attach", "-r", "127.0.0.1", "-b", "2-2"]
  | .windows => some [".\\usbip.exe", "attach", "-r", "127.0.0.1", "-b", "2-2"]
  | .mac => none

/-- Where the two goroutines of `runServer` are, and who connected. -/
structure State where
  /-- `net.Listen` was called, and succeeded (usbip_server.go:27) -/
  listening : Bool := false
  /-- the first goroutine returned (server.go:79) -/
  returned : Bool := false
  /-- the second goroutine came to line 83 -/
  launched : Bool := false
  /-- the second goroutine returned (server.go:93) -/
  finished : Bool := false
  /-- the process ended by a panic -/
  dead : Bool := false
  /-- who connected, in order; `Accept` has them in this order -/
  incoming : List Incoming := []
  /-- which of them is the command's connection -/
  own : Option Nat := none
  /-- errors of the command printed (server.go:90) -/
  errors : Nat := 0

/-- What happens next. -/
inductive Event where
  /-- the first goroutine gets to `net.Listen`, which works or not -/
  | listen (ok : Bool)
  /-- somebody else connects, or an accept fails -/
  | arrive (i : Incoming)
  /-- the second goroutine has slept and runs the command, which connects with `i` if somebody is listening -/
  | launch (i : Incoming)
  /-- the command ends, well or not -/
  | exit (ok : Bool)
  /-- on macOS, `C.start_device` returns (mac/mac.go:35) -/
  | stop

/-- cmd/demo/server.go:74-96 `runServer`, one event.  Simplified: the command connects when it is started, or fails
when nobody is listening; the sleep of half a second is any time. -/
def step (sys : System) (s : State) (e : Event) : State :=
  if s.dead then s else
  match e with
  | .listen ok =>
    if s.listening || s.returned || sys = .mac then s
    else if ok then { s with listening := true } else { s with dead := true }
  | .arrive i => if s.listening then { s with incoming := s.incoming ++ [i] } else s
  | .launch i =>
    if s.launched then s
    else match platformUSBIPExec sys with
      | none => { s with launched := true, finished := true }
      | some _ =>
        if s.listening then
          { s with launched := true, incoming := s.incoming ++ [i], own := some s.incoming.length }
        else { s with launched := true, finished := true, errors := s.errors + 1 }
  | .exit ok =>
    if s.launched && !s.finished then { s with finished := true, errors := s.errors + (if ok then 0 else 1) } else s
  | .stop => if sys = .mac then { s with returned := true } else s

/-- A run of the demo. -/
def run (sys : System) (s : State) (evs : List Event) : State := evs.foldl (step sys) s

/-- server.go:95: `wg.Wait()` comes back, and with it `runServer`. -/
def State.done (s : State) : Bool := !s.dead && s.returned && s.finished

end VF.Demo.Run
