import Verif.Model.HidServer

/-!
# Reports handled at the same time

`usb_device.go:88` handles every report in a goroutine of its own.  Here the goroutines
take their steps one by one in any order: looking up the channel, waiting for its `messageLock`
(channel.go:27-28), collecting the report, waiting for the authenticator, waiting for `responsesLock`
(ctap_hid.go:44-45) and sending the packets of an answer one by one.

Simplified: the response handler is set (usb_device.go:29 and mac.go:33 set it before any report comes in) and
sending one packet is one step.  Looking up and adding an entry in the `channels` map is one step
each; in Go the map has no lock, and reading it while it is changed may end the process
("concurrent map read and map write"), as may anything after it, which the model does not show.
A keepalive is one step, locking, sending its only packet and unlocking, and may come at any time after
its request was handed to the authenticator, even after the answer (`Model.Recurring` has the
goroutine and the `stop` message in detail).
-/

namespace VF.Reports

open Util Hid

/-- channel.go:10-15 `ctapHIDChannel`; `holder` is the goroutine that has `messageLock`. -/
structure Chan where
  channelId : UInt32
  transaction : Option Transaction
  holder : Option Nat

/-- Where a goroutine is; `p` is the position of its channel in `State.chans`. -/
inductive Phase where
  /-- usb_device.go:88: started -/
  | arrived
  /-- channel.go:27, waiting for `messageLock` -/
  | waiting (p : Nat)
  /-- channel.go:29, with `messageLock` -/
  | inside (p : Nat)
  /-- channel.go:89 or 94, in the call of the authenticator, numbered `ticket` by it -/
  | calling (p ticket : Nat) (channelID : UInt32) (command : UInt8) (payload : Bytes)
  /-- ctap_hid.go:44, about to send these packets, waiting for `responsesLock` -/
  | sending (p : Option Nat) (packets : List Bytes)
  /-- ctap_hid.go:48-50, with `responsesLock` -/
  | writing (p : Option Nat) (packets : List Bytes)
  /-- ended -/
  | done

/-- A goroutine: its report, where it is, and the channel on which keepalives are sent for it. -/
structure Routine where
  report : Bytes
  phase : Phase
  keepalive : Option UInt32

/-- ctap_hid.go:16-23 `CTAPHIDServer` with its goroutines, oldest first (those that ended stay). -/
structure State where
  maxChannelID : UInt32
  /-- the map `channels`, of pointers into `chans` -/
  table : UInt32 → Option Nat
  chans : List Chan
  /-- the goroutine that has `responsesLock` -/
  responses : Option Nat
  /-- reports passed to `responseHandler`, oldest first -/
  out : List Bytes
  routines : List Routine
  /-- a goroutine panicked, which ended the process -/
  crashed : Bool

/-- ctap_hid.go:25-36 `NewCTAPHIDServer` -/
def State.new : State where
  maxChannelID := 0
  table := fun id => if id = broadcastChannel then some 0 else none
  chans := [⟨broadcastChannel, none, none⟩]
  responses := none
  out := []
  routines := []
  crashed := false

/-- usb_device.go:88: a report comes in and a goroutine is started for it. -/
def State.arrive (s : State) (report : Bytes) : State :=
  { s with routines := s.routines ++ [⟨report, .arrived, none⟩] }

/-- Goroutine `i` is now at `ph`. -/
def State.goes (s : State) (i : Nat) (ph : Phase) : State :=
  { s with routines := s.routines.modify i fun r => { r with phase := ph } }

/-- Keepalives are sent from now on for goroutine `i` (channel.go:93). -/
def State.keeping (s : State) (i : Nat) (channelId : UInt32) : State :=
  { s with routines := s.routines.modify i fun r => { r with keepalive := some channelId } }

/-- A panic ends the process. -/
def State.crash (s : State) : State := { s with crashed := true }

/-- Assignment to `channel.transaction`. -/
def State.setTx (s : State) (p : Nat) (t : Option Transaction) : State :=
  { s with chans := s.chans.modify p fun c => { c with transaction := t } }

/-- Locking and unlocking `messageLock`. -/
def State.setHolder (s : State) (p : Nat) (h : Option Nat) : State :=
  { s with chans := s.chans.modify p fun c => { c with holder := h } }

/-- channel.go:40-42 (transaction removed, unlocked on return); the goroutine ends.  Without a
channel (ctap_hid.go:58-61) there is nothing to unlock. -/
def State.leave (s : State) (i : Nat) : Option Nat → State
  | none => s.goes i .done
  | some p => ((s.setTx p none).setHolder p none).goes i .done

/-- ctap_hid.go:65-70 `newChannel` -/
def State.alloc (s : State) : State :=
  { s with
    maxChannelID := s.maxChannelID + 1
    table := fun c => if c = s.maxChannelID + 1 then some s.chans.length else s.table c
    chans := s.chans ++ [⟨s.maxChannelID + 1, none, none⟩] }

/-- channel.go:63-84 `handleBroadcastMessage`, up to sending -/
def State.broadcast (s : State) (i p : Nat) (header : Header) (payload : Slice) : State :=
  if header.command = cmdInit then
    match payload.upTo 8 with
    | .panic _ => s.alloc.crash
    | .ok nonce => s.alloc.goes i (.sending (some p) (createResponsePackets broadcastChannel cmdInit
        (pad nonce.data 8 ++ toLE32 (s.maxChannelID + 1) ++ [2, 0, 0, 1, capabilityCBOR])))
  else if header.command = cmdPing then
    s.goes i (.sending (some p) (createResponsePackets broadcastChannel cmdPing payload.data))
  else s.crash

/-- channel.go:86-103 `handleDataMessage`, up to the call of the authenticator or sending -/
def State.data (s : State) (i p ticket : Nat) (channelId : UInt32) (header : Header) (payload : Slice) : State :=
  if header.command = cmdMsg then
    s.goes i (.calling p ticket header.channelID cmdMsg payload.data)
  else if header.command = cmdCBOR then
    (s.keeping i channelId).goes i (.calling p ticket header.channelID cmdCBOR payload.data)
  else if header.command = cmdPing then
    s.goes i (.sending (some p) (createResponsePackets header.channelID cmdPing payload.data))
  else s.crash

/-- channel.go:29-33: start a transaction or add to the open one. -/
def collect (grow : Nat → Nat → Nat) (t : Option Transaction) (report : Bytes) : Res Transaction :=
  match t with
  | none => newTransaction report
  | some t => t.addMessage grow report

/-- channel.go:29-41 `handleMessage` of the goroutine that has the lock: start a transaction or add to
it, and what follows if it is done. -/
def State.handle (grow : Nat → Nat → Nat) (s : State) (i p ticket : Nat) (c : Chan) (report : Bytes) : State :=
  match collect grow c.transaction report with
  | .panic _ => s.crash
  | .ok t =>
    if t.done then
      if t.errorCode ≠ 0 then
        (s.setTx p (some t)).goes i
          (.sending (some p) (createResponsePackets c.channelId cmdError [t.errorCode]))
      else if t.cancelled then (s.setTx p (some t)).leave i (some p)
      else match t.result with
        | none => s.crash
        | some result =>
          -- channel.go:46-50
          if c.channelId = broadcastChannel then
            (s.setTx p (some t)).broadcast i p result.header result.payload
          else (s.setTx p (some t)).data i p ticket c.channelId result.header result.payload
    else ((s.setTx p (some t)).setHolder p none).goes i .done

/-- What can happen.  `turn i ticket`: goroutine `i` does its next step, and if it calls the
authenticator the call is numbered `ticket`; `answer i a`: the authenticator returns `a` (`none`: it
panics) to goroutine `i`; `keepalive i`: a keepalive for the request of goroutine `i`. -/
inductive Event where
  | arrive (report : Bytes)
  | turn (i ticket : Nat)
  | answer (i : Nat) (a : Option Bytes)
  | keepalive (i : Nat)

/-- The next step of goroutine `i`, which is `r`; `none` if it has to wait or has ended. -/
def State.turn (grow : Nat → Nat → Nat) (s : State) (i ticket : Nat) (r : Routine) : Option State :=
  match r.phase with
  | .arrived =>
    -- ctap_hid.go:55-63
    match readLE32 r.report with
    | .panic _ => some s.crash
    | .ok (channelId, _) =>
      match s.table channelId with
      | none => some (s.goes i (.sending none (createResponsePackets channelId cmdError [errInvalidChannel])))
      | some p => some (s.goes i (.waiting p))
  | .waiting p =>
    match s.chans[p]? with
    | none => none
    | some c => if c.holder = none then some ((s.setHolder p (some i)).goes i (.inside p)) else none
  | .inside p =>
    match s.chans[p]? with
    | none => none
    | some c => some (s.handle grow i p ticket c r.report)
  | .calling .. => none
  | .sending p packets =>
    if s.responses = none then some ({ s with responses := some i }.goes i (.writing p packets)) else none
  | .writing p (x :: xs) => some ({ s with out := s.out ++ [x] }.goes i (.writing p xs))
  | .writing p [] => some ({ s with responses := none }.leave i p)
  | .done => none

/-- One event; `none` if it cannot happen. -/
def State.step (grow : Nat → Nat → Nat) (s : State) (e : Event) : Option State :=
  if s.crashed then none else
  match e with
  | .arrive report => some (s.arrive report)
  | .turn i ticket =>
    match s.routines[i]? with
    | none => none
    | some r => s.turn grow i ticket r
  | .answer i a =>
    match s.routines[i]? with
    | some ⟨_, .calling p _ channelID command _, _⟩ =>
      match a with
      | none => some s.crash
      -- channel.go:91 and 97
      | some bytes => some (s.goes i (.sending (some p) (createResponsePackets channelID command bytes)))
    | _ => none
  | .keepalive i =>
    match s.routines[i]? with
    | some ⟨_, _, some channelId⟩ =>
      -- channel.go:93 and 105-109
      if s.responses = none then
        some { s with out := s.out ++ createResponsePackets channelId cmdKeepalive [statusUpneeded] }
      else none
    | _ => none

/-- A history of events. -/
def State.run (grow : Nat → Nat → Nat) : State → List Event → Option State
  | s, [] => some s
  | s, e :: es => (s.step grow e).bind fun s' => s'.run grow es

end VF.Reports
