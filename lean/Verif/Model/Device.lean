import Verif.Model.Ctap
import Verif.Model.U2f

/-!
# The device over time

What a process does with the client: `channel.go:86-104` hands messages to
`CTAPServer.HandleMessage` and `U2FServer.HandleMessage`, the program that embeds the client calls its API, and the process may be
ended and started again at any time.

Simplified: operations do not overlap (for overlapping ones see `Verif.Model.Overlap`).  A
panic in a handler ends the process, since it happens in a goroutine that does not recover
(usb_device.go:88); what was saved survives.
-/

namespace VF.Fido

/-- What the outside can do. -/
inductive Op where
  /-- a CTAP2 message (channel.go:92-97) -/
  | ctap (message : Bytes)
  /-- a U2F message (channel.go:88-91) -/
  | u2f (message : Bytes)
  /-- fido_client.go:140-148, 158-161, 278-284 -/
  | enablePIN
  | disablePIN
  | setPIN (pin : Bytes)
  | deleteIdentity (id : Bytes)
  /-- end the process, if it still runs, and call `NewDefaultClient` in a new one with the same
  arguments -/
  | restart
  deriving DecidableEq, Repr

/-- What comes back. -/
inductive Reply where
  | answer (b : Bytes)
  | done
  | deleted (b : Bool)
  | started
  | panicked
  /-- there is no process -/
  | nothing
  deriving DecidableEq, Repr

/-- The client with its surroundings, and whether the process is running. -/
structure Device where
  world : World
  alive : Bool
  deriving DecidableEq, Repr

namespace Device

/-- One operation of a running process. -/
def perform (E : Env) : Op → Go World Reply
  | .ctap m => do
    let b ← Ctap.handleMessage E m
    pure (.answer b)
  | .u2f m => do
    let b ← U2f.handleMessage E m
    pure (.answer b)
  | .enablePIN => do
    Client.enablePIN E
    pure .done
  | .disablePIN => do
    Client.disablePIN E
    pure .done
  | .setPIN pin => do
    Client.setPIN E pin
    pure .done
  | .deleteIdentity id => do
    let b ← Client.deleteIdentity E id
    pure (.deleted b)
  | .restart => pure .started

/-- One event.  A start uses two random draws (fido_client.go:71-72). -/
def step (E : Env) (cfg : Client.Config) (d : Device) (op : Op) : Reply × Device :=
  match op with
  | .restart =>
    match Client.start E cfg d.world.store d.world.rnd with
    | .ok c => (.started, ⟨{ d.world with client := c, rnd := d.world.rnd + 2 }, true⟩)
    | .panic _ => (.panicked, ⟨{ d.world with rnd := d.world.rnd + 2 }, false⟩)
  | op =>
    if d.alive then
      match perform E op d.world with
      | (.ok r, w') => (r, ⟨w', true⟩)
      | (.panic _, w') => (.panicked, ⟨w', false⟩)
    else (.nothing, d)

/-- A history: the replies and the device after it. -/
def run (E : Env) (cfg : Client.Config) (d : Device) : List Op → List Reply × Device
  | [] => ([], d)
  | op :: ops =>
    let (r, d') := step E cfg d op
    let (rs, d'') := run E cfg d' ops
    (r :: rs, d'')

/-- The device after a history. -/
def after (E : Env) (cfg : Client.Config) (d : Device) (ops : List Op) : Device :=
  (run E cfg d ops).2

/-- The device after the first start, with nothing saved. -/
def boot (E : Env) (cfg : Client.Config) : Device :=
  { world := { client := Client.fresh E cfg 0, store := none, rnd := 2, asks := [] }, alive := true }

end Device
end VF.Fido
