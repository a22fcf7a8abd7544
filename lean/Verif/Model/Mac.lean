import Verif.Model.Live

/-!
# The device on macOS

mac/ has a driver, to which hosts send reports, a library that talks to it, and the Go code that calls
the library.  The driver keeps the reports and sends a notification for each; the run loop of the Go process takes
one notification at a time, fetches a report and calls `HandleMessage`, which returns when the report has been
dealt with.  So here, unlike in `Verif.Model.Live`, a report is not looked at before the one before it is done.

Simplified: the driver is connected and started (USBDriverLib.c:115-136); its methods are atomic; its linked list
(util.cpp:24-76) is a list.  Reports have at most 64 bytes, the size the report descriptor gives (USBDevice.cpp:27);
newHIDFrame does not check it before it copies the report into a frame of 64 bytes (USBUserClient.cpp:197-198).
-/

namespace VF.Mac

open Fido

/-- USBUserClient.cpp:21 `MAX_SAVED_FRAMES` -/
def maxSavedFrames : Nat := 16

/-- USBDevice.cpp:27 `fidoReportDescriptor` and :46-49 `newReportDescriptor` -/
def reportDescriptor : Bytes :=
  [6, 208, 241, 9, 1, 161, 1, 9, 32, 20, 37, 255, 117, 8, 149, 64, 129, 2, 9, 33, 20, 37, 255, 117, 8, 149, 64,
    145, 2, 192]

/-- The driver and the process. -/
structure State where
  /-- the process: the HID server and the authenticator; its goroutines are the calls of `HandleMessage` -/
  live : Live.State
  /-- USBUserClient.cpp:64 `saved_frames`, oldest first -/
  saved : List Bytes
  /-- notifications sent (USBUserClient.cpp:202) that the run loop has not yet taken -/
  notices : Nat

/-- client_mac.go:15-20 and mac.go:32-36 `Start` -/
def State.start (p : Overlap.Process) : State := { live := .start p, saved := [], notices := 0 }

/-- What can happen: a host sends a report; the run loop takes a notification; a step inside the process. -/
inductive Event where
  | setReport (bytes : Bytes)
  | notice
  | inside (e : Live.Event)

/-- USBDevice.cpp:132-143 `setReport` and USBUserClient.cpp:179-203 `newHIDFrame` -/
def State.setReport (s : State) (bytes : Bytes) : State :=
  { s with
    saved := (if s.saved.length > maxSavedFrames then s.saved.tail else s.saved) ++ [bytes]
    notices := s.notices + 1 }

/-- The run loop (USBDriverLib.c:138) is not in a callback. -/
def State.waits (s : State) : Bool :=
  s.live.hid.routines.all fun r => match r.phase with
    | .done => true
    | _ => false

/-- USBDriverLib.c:37-51 `notify_frame`, USBUserClient.cpp:209-220 `HandleGetFrame`, client.c:7-9 `receive_data`
and mac.go:26-30 `receiveDataCallback`, which calls `HandleMessage` -/
def State.notice (E : Env) (cfg : Client.Config) (grow : Nat → Nat → Nat) (s : State) : Option State :=
  if s.notices = 0 ∨ s.waits = false then none else
  match s.saved with
  | [] => some { s with notices := s.notices - 1 }
  | frame :: rest =>
    (s.live.step E cfg grow (.report frame)).map fun l => { live := l, saved := rest, notices := s.notices - 1 }

/-- Only the run loop brings in reports. -/
def isReport : Live.Event → Bool
  | .report _ => true
  | _ => false

/-- One event; `none` if it cannot happen. -/
def State.step (E : Env) (cfg : Client.Config) (grow : Nat → Nat → Nat) (s : State) : Event → Option State
  | .setReport bytes => some (s.setReport bytes)
  | .notice => s.notice E cfg grow
  | .inside e =>
    if isReport e then none else (s.live.step E cfg grow e).map fun l => { s with live := l }

/-- A history of events. -/
def State.run (E : Env) (cfg : Client.Config) (grow : Nat → Nat → Nat) : State → List Event → Option State
  | s, [] => some s
  | s, e :: es => (s.step E cfg grow e).bind fun s' => s'.run E cfg grow es

/-- mac.go:19-24 `handleResponse`, client.c:11-16 `send_data` (the length becomes a `uint8_t`, USBDriverShared.h:12)
and USBUserClient.cpp:150-163 `HandleSendFrame`: what the host is sent for a packet.  Simplified: of a packet
longer than 64 bytes, which `send_data` would copy over the end of the frame, nothing is sent. -/
def sendFrame (packet : Bytes) : Option Bytes :=
  if packet.length > 0 then
    if (UInt8.ofNat packet.length).toNat ≤ 0 ∨ (UInt8.ofNat packet.length).toNat > 64 ∨ packet.length > 64 then none
    else some (packet.take (UInt8.ofNat packet.length).toNat)
  else none

/-- What hosts have been sent. -/
def State.input (s : State) : List Bytes := s.live.hid.out.filterMap sendFrame

end VF.Mac
