import Verif.Model.Usb
import Verif.Model.HidServer

/-!
# Model of the whole transport: client_usbip.go, usbip_server.go, usb_device.go and ctap_hid.go
put together

A connection in the command phase with the device behind it.  What the other models leave to their
parameters is filled in here: the callback of a submitted transfer writes to the connection, a report
handed to the delegate is handled by the HID server in a goroutine of its own, and what that sends
goes through the request buffer back to the connection.
-/

namespace VF.Stack

/-- usbip_server.go:129-149: the closure `onReturnSubmit`, that is the variables it captures.  The
buffer is as it was when the closure was made: only the closure itself writes to it, and a
transfer whose number is not used again is completed at most once (C17). -/
structure Callback where
  header : UsbIp.MsgHeader
  buffer : Bytes
  deriving DecidableEq, Repr

/-- usbip_server.go:130-148: what a call of the closure writes -/
def Callback.reply (k : Callback) (response : Option Bytes) : Bytes :=
  UsbIp.returnSubmit k.header k.buffer response

/-- usb_device.go:19-22 `USBDevice` with its delegate (ctap_hid.go:16-23), whose state is of type `H`. -/
structure DevOf (H : Type) where
  usb : Usb.State Callback
  hid : H
  /-- reports the HID server has sent, waiting for `responseHandler` (ctap_hid.go:42-52) -/
  outbox : List Bytes
  /-- a goroutine panicked, which ends the process (nothing recovers: usb_device.go:88) -/
  crashed : Bool

/-- The device where one report is handled in one step. -/
abbrev Dev (W : Type) := DevOf (Hid.World W)

/-- client_usbip.go:13-19 `startClient` and the constructors it calls; `up` is the state of the CTAP2 and U2F layers. -/
def Dev.init {W : Type} (up : W) : Dev W := ⟨Usb.State.init, Hid.World.new true up, [], false⟩

section
variable {W H : Type}

/-- Run a call to the USB device on its part of the state. -/
def onUsb {α : Type} (x : Go (Usb.State Callback) α) : Go (DevOf H) α := fun d =>
  ((x d.usb).1, { d with usb := (x d.usb).2 })

/-- The device as the command loop sees it while it handles a message with the given header: the
callback it passes captures the header and the transfer buffer, which is also the data passed. -/
def device (header : UsbIp.MsgHeader) : UsbIp.Device (DevOf H) where
  busID := ascii "2-2"
  summary := Usb.summary
  submit id endpoint setup data := onUsb ((Usb.device ⟨header, data⟩).submit id endpoint setup data)
  unlink id := onUsb (Usb.removeWaitingRequest id)

/-- usbip_server.go:105-113, the body of the command loop -/
def command (net : UsbIp.Net) : Go (UsbIp.Conn (DevOf H)) Unit := do
  let header ← UsbIp.readMsgHeader
  if header.command = UsbIp.cmdSubmit then UsbIp.handleCommandSubmit net (device header) header
  else if header.command = UsbIp.cmdUnlink then UsbIp.handleCommandUnlink (device header) header
  else pure ()

/-- What can happen next. -/
inductive Act where
  /-- an iteration of the command loop -/
  | command
  /-- the goroutine for the `i`-th report still unhandled runs (usb_device.go:88).  What it does to
  the HID server is one step. -/
  | run (i : Nat)
  /-- the HID server passes its next report to `responseHandler`; `choice` resolves the iteration over
  the map of waiting requests -/
  | send (choice : Nat)
  /-- a timer fires -/
  | timeout (i : Nat)
  deriving DecidableEq, Repr

/-- ctap_hid.go:54-63 in a goroutine: handle one report -/
def runReport (rt : Hid.Runtime) (up : Hid.Upper W) (report : Bytes) (d : Dev W) : Dev W :=
  let p := Hid.handleMessage rt up report d.hid
  { d with
    hid := p.2
    outbox := d.outbox ++ p.2.out.drop d.hid.out.length
    crashed := match p.1 with
      | .ok _ => false
      | .panic _ => true }

/-- ctap_hid.go:48-50, usb_device.go:95-97: the HID server passes its next report to `responseHandler` -/
def send (choice : Nat) (c : UsbIp.Conn (DevOf H)) : Option (UsbIp.Conn (DevOf H)) :=
  match c.dev.outbox with
  | [] => none
  | p :: ps =>
    let q := Usb.handleResponse p choice c.dev.usb
    some { c with
      out := c.out ++ (match q.2 with
        | some k => k.reply (some p)
        | none => [])
      dev := { c.dev with usb := q.1, outbox := ps } }

/-- usb_device.go:79-84: a timer fires -/
def timeout (i : Nat) (c : UsbIp.Conn (DevOf H)) : Option (UsbIp.Conn (DevOf H)) :=
  match Usb.timeout i c.dev.usb with
  | none => none
  | some (usb, k) => some { c with
      out := c.out ++ (match k with
        | some k => k.reply none
        | none => [])
      dev := { c.dev with usb := usb } }

/-- One step, `none` when it cannot be taken. -/
def step (net : UsbIp.Net) (rt : Hid.Runtime) (up : Hid.Upper W) (a : Act) (c : UsbIp.Conn (Dev W)) :
    Option (UsbIp.Conn (Dev W)) :=
  if c.dev.crashed then none
  else
    match a with
    | .command => some (UsbIp.try' (command net) c)
    | .run i =>
      match c.dev.usb.delivered[i]? with
      | none => none
      | some report => some { c with
          dev := runReport rt up report
            { c.dev with usb := { c.dev.usb with delivered := c.dev.usb.delivered.eraseIdx i } } }
    | .send choice => send choice c
    | .timeout i => timeout i c

/-- A schedule: the steps taken one after the other; `none` when one of them cannot be taken. -/
def exec (net : UsbIp.Net) (rt : Hid.Runtime) (up : Hid.Upper W) :
    List Act → UsbIp.Conn (Dev W) → Option (UsbIp.Conn (Dev W))
  | [], c => some c
  | a :: as, c => (step net rt up a c).bind (exec net rt up as)

end
end VF.Stack
