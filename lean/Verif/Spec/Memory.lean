import Verif.Model.Server
import Verif.Spec.UsbIp

/-!
# Specification: the transfer buffers a connection makes the server hold

A transfer buffer is made for every CMD_SUBMIT, of the length that the client declares (usbip_server.go:123).  For a poll it is
held by the closure that will answer it, and this closure by the timer started with it (usb_device.go:76-84) until it fires, and
by the request buffer while the poll waits.
-/

namespace VF.Spec.Memory

open VF.Stack

/-- The bytes of the buffers that timers hold. -/
def held {H : Type} (c : UsbIp.Conn (DevOf H)) : Nat := (c.dev.usb.timers.map fun t => t.2.buffer.length).sum

/-- The polls that wait, with their closures. -/
def waiting {H : Type} (c : UsbIp.Conn (DevOf H)) : List (UInt32 × Callback) := c.dev.usb.buf.waiting

/-- The polls whose timers have not fired. -/
def timed {H : Type} (c : UsbIp.Conn (DevOf H)) : List (UInt32 × Callback) := c.dev.usb.timers

/-- The longest buffer that can be declared. -/
def longest : Nat := 4294967295

/-- A poll that declares a buffer of `length` bytes. -/
def poll (length seq : UInt32) : Spec.UsbIp.Cmd := .inp seq 0 1 0 length 0 0 0 (List.replicate 8 0)

/-- Nothing but the firing of timers. -/
def OnlyTimers (acts : List Server.Act) : Prop := ∀ a ∈ acts, ∃ i, a = .timeout i

end VF.Spec.Memory
