import Verif.Base.Bytes
import Verif.Base.Go

/-!
# Model of util/request_buffer.go and of the interrupt-IN part of usb/usb_device.go

Callbacks are represented by tokens of a type `K`; calling one is an event.  The iteration order
of a Go map is arbitrary, so `Respond` takes the position of the request it happens to meet first
as an extra argument.
-/

namespace VF.Buf

/-- request_buffer.go:5-9 `RequestBuffer`; the map is a list of key/value pairs with distinct keys
(see `setWaiting`). -/
structure Buffer (K : Type) where
  waiting : List (UInt32 × K)
  responses : List Bytes

/-- request_buffer.go:11-18 `MakeRequestBuffer` -/
def Buffer.make (K : Type) : Buffer K := ⟨[], []⟩

section
variable {K : Type}

/-- Go `delete(m, id)` -/
def remove (id : UInt32) (m : List (UInt32 × K)) : List (UInt32 × K) := m.filter (fun e => e.1 != id)

/-- Go `m[id] = k` -/
def setWaiting (id : UInt32) (k : K) (m : List (UInt32 × K)) : List (UInt32 × K) := (id, k) :: remove id m

/-- request_buffer.go:20-32 `Request`.  The second component is the data the callback is called
with (under the lock), if it is; the Go result is whether that happened. -/
def request (id : UInt32) (k : K) (b : Buffer K) : Buffer K × Option Bytes :=
  match b.responses with
  | r :: rs => ({ b with responses := rs }, some r)
  | [] => ({ b with waiting := setWaiting id k b.waiting }, none)

/-- request_buffer.go:34-43 `CancelRequest`.  The second component is the callback removed; the Go
result is whether there was one. -/
def cancelRequest (id : UInt32) (b : Buffer K) : Buffer K × Option K :=
  match b.waiting.find? (fun e => e.1 == id) with
  | some e => ({ b with waiting := remove id b.waiting }, some e.2)
  | none => (b, none)

/-- request_buffer.go:45-61 `Respond`, the part under the lock (46-55 or 46-47, 58-59).  The second
component is the request whose callback is then called, after the unlock, with `data`.  `choice`
selects the entry the `range` loop of line 51 meets first. -/
def respondLocked (data : Bytes) (choice : Nat) (b : Buffer K) : Buffer K × Option (UInt32 × K) :=
  match b.waiting[choice % b.waiting.length]? with
  | some e => ({ b with waiting := remove e.1 b.waiting }, some e)
  | none => ({ b with responses := b.responses ++ [data] }, none)

/-- One call of the API of the buffer. -/
inductive Op (K : Type) where
  | request (id : UInt32) (k : K)
  | cancel (id : UInt32)
  | respond (data : Bytes) (choice : Nat)

/-- One call, not interrupted; second component: the callbacks called and with what. -/
def step (op : Op K) (b : Buffer K) : Buffer K × List (K × Bytes) :=
  match op with
  | .request id k => let p := request id k b; (p.1, p.2.toList.map (fun d => (k, d)))
  | .cancel id => ((cancelRequest id b).1, [])
  | .respond data choice =>
    let p := respondLocked data choice b; (p.1, p.2.toList.map (fun e => (e.2, data)))

/-- A history of calls; second component: all callback calls in order. -/
def run : List (Op K) → Buffer K → Buffer K × List (K × Bytes)
  | [], b => (b, [])
  | op :: ops, b => let p := step op b; let q := run ops p.1; (q.1, p.2 ++ q.2)

end

/-! ## The device around it, in small steps

Every interrupt-IN transfer gets the number of its submission as its token. -/

/-- What can be observed. -/
inductive Ev where
  /-- transfer `k` submitted with sequence number `id` -/
  | submitted (id : UInt32) (k : Nat)
  /-- `data` was assigned to transfer `k` -/
  | served (id : UInt32) (k : Nat) (data : Bytes)
  /-- the completion callback of transfer `k` ran; `none` is nil -/
  | called (k : Nat) (data : Option Bytes)
  /-- RemoveWaitingRequest(id) returned; `some k`: true, and `k` was the waiting transfer -/
  | unlinked (id : UInt32) (removed : Option Nat)
  /-- the timer of transfer `k` fired; its CancelRequest removed transfer `removed` -/
  | timedOut (id : UInt32) (k : Nat) (removed : Option Nat)
  /-- Respond(data) was entered -/
  | responded (data : Bytes)
  deriving DecidableEq, Repr

/-- The device with the calls in progress. -/
structure State where
  buf : Buffer Nat
  /-- number of transfers submitted -/
  next : Nat
  /-- Respond calls between unlock and callback (request_buffer.go:55-56) -/
  pending : List (UInt32 × Nat × Bytes)
  /-- timers that may still fire (usb_device.go:79) -/
  timers : List (UInt32 × Nat)
  /-- timers between CancelRequest and onFinish(nil) (usb_device.go:81-82) -/
  pendingNil : List Nat
  /-- events so far, oldest first -/
  trace : List Ev

/-- usb_device.go:24-33 `NewUSBDevice` -/
def State.init : State := ⟨Buffer.make Nat, 0, [], [], [], []⟩

/-- Atomic steps of the goroutines. -/
inductive Act where
  | submit (id : UInt32)
  | unlink (id : UInt32)
  | respond (data : Bytes) (choice : Nat)
  | callback (i : Nat)
  | fire (i : Nat)
  | callbackNil (i : Nat)

/-- One atomic step; `none` when it cannot be taken. -/
def act : Act → State → Option State
  /- usb_device.go:77-84: Request, then SetTimeout (arming the timer is taken together with it) -/
  | .submit id, s =>
    let p := request id s.next s.buf
    some { s with
      buf := p.1, next := s.next + 1, timers := s.timers ++ [(id, s.next)],
      trace := s.trace ++ [.submitted id s.next] ++
        (match p.2 with
         | some d => [.served id s.next d, .called s.next (some d)]
         | none => []) }
  /- usb_device.go:66-68 -/
  | .unlink id, s =>
    let p := cancelRequest id s.buf
    some { s with buf := p.1, trace := s.trace ++ [.unlinked id p.2] }
  /- usb_device.go:95-97, request_buffer.go:45-55/59 -/
  | .respond data choice, s =>
    let p := respondLocked data choice s.buf
    match p.2 with
    | some e => some { s with
        buf := p.1, pending := s.pending ++ [(e.1, e.2, data)],
        trace := s.trace ++ [.responded data, .served e.1 e.2 data] }
    | none => some { s with buf := p.1, trace := s.trace ++ [.responded data] }
  /- request_buffer.go:56 -/
  | .callback i, s =>
    match s.pending[i]? with
    | some (_, k, d) => some { s with
        pending := s.pending.eraseIdx i, trace := s.trace ++ [.called k (some d)] }
    | none => none
  /- usb_device.go:81 -/
  | .fire i, s =>
    match s.timers[i]? with
    | some (id, k) =>
      let p := cancelRequest id s.buf
      some { s with
        buf := p.1, timers := s.timers.eraseIdx i,
        pendingNil := if p.2.isSome then s.pendingNil ++ [k] else s.pendingNil,
        trace := s.trace ++ [.timedOut id k p.2] }
    | none => none
  /- usb_device.go:82 -/
  | .callbackNil i, s =>
    match s.pendingNil[i]? with
    | some k => some { s with
        pendingNil := s.pendingNil.eraseIdx i, trace := s.trace ++ [.called k none] }
    | none => none

/-- The states reachable by any schedule.  `serial`: Respond calls do not overlap (ctap_hid.go:44
holds a lock around them).  `fresh`: a sequence number is not submitted again while the timer of an
earlier transfer with it may still fire. -/
inductive Reach (serial fresh : Bool) : State → Prop
  | init : Reach serial fresh State.init
  | step {s s' : State} {a : Act} (h : Reach serial fresh s) (hs : act a s = some s')
      (hserial : serial = true → ∀ data choice, a = .respond data choice → s.pending = [])
      (hfresh : fresh = true → ∀ id, a = .submit id → ∀ t ∈ s.timers, t.1 ≠ id) :
      Reach serial fresh s'

end VF.Buf
