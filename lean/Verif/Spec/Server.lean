import Verif.Model.Server
import Verif.Spec.Live

/-!
# Words for statements about the device over USB/IP
-/

namespace VF.Spec.Server

open VF.Fido VF.Server Spec.UsbIp Spec.Stack

/-- A client has attached the device of the process `p`, and sends these commands. -/
def start (cmds : List Cmd) (p : Overlap.Process) : Conn :=
  { stream := (cmds.map Cmd.wire).flatten
    pos := 0
    out := []
    dev := ⟨Usb.State.init, .start p, [], !p.alive⟩
    calls := [] }

/-- The reports for which a goroutine has been started, in this order. -/
def given (c : Conn) : List Bytes := c.dev.hid.hid.routines.map (·.report)

/-- The input reports the client has received. -/
def received (cmds : List Cmd) (c : Conn) : List Bytes := reports (replies cmds c.out)

/-- Without those on channel 0, which is reserved: a transfer not answered for a second is completed with a report of
zeros. -/
def seen (cmds : List Cmd) (c : Conn) : List Bytes := (received cmds c).filter fun p => Ctaphid.channelOf p != some 0

/-- The client has been sent an answer to INIT that names this channel. -/
def Announced (cmds : List Cmd) (c : Conn) (cid : UInt32) : Prop :=
  ∃ nonce : Bytes, nonce.length = 8 ∧ Ctaphid.initAnswer nonce cid ∈ received cmds c

/-- Packets the HID server has written that the client has not received: in the request buffer, until the client
asks for a report, or on their way there. -/
def held (c : Conn) : List Bytes := c.dev.usb.buf.responses ++ c.dev.outbox

/-- Until the client sends a command, a timer fires, the embedding program calls the API or a keepalive is sent,
nothing more happens. -/
def AtRest (net : UsbIp.Net) (E : Env) (cfg : Client.Config) (grow : Nat → Nat → Nat) (c : Conn) : Prop :=
  (∀ choice, step net E cfg grow (.send choice) c = none) ∧
  ∀ e, (∀ op, e ≠ .api op) → (∀ i, e ≠ .keepalive i) → step net E cfg grow (.inside e) c = none

/-- The server reads a report on this channel only when those before it on the channel have been dealt with. -/
def OneByOne (net : UsbIp.Net) (E : Env) (cfg : Client.Config) (grow : Nat → Nat → Nat) (c : Conn) (acts : List Act)
    (cid : UInt32) : Prop :=
  ∀ acts1 acts2 c1 c2 m, acts = acts1 ++ .command :: acts2 → exec net E cfg grow acts1 c = some c1 →
    step net E cfg grow .command c1 = some c2 → given c2 = given c1 ++ [m] → Ctaphid.channelOf m = some cid →
    ∀ r ∈ c1.dev.hid.hid.routines, Ctaphid.channelOf r.report = some cid → r.phase = .done

end VF.Spec.Server
