import Verif.Model.Demo

/-!
# The demo program from start to start

`demo start` and the other commands create a client each time they are run (cmd/demo/demo.go:30, 39, 66, 72,
89, 95), with a certificate authority made on the spot (lines 101-104); what the file holds then replaces it
(fido_client.go:248-261).  In `Verif.Model.Device` a program calls `NewDefaultClient` with the same arguments
each time; here the arguments are those of the demo.
-/

namespace VF.Fido.Launch

/-- cmd/demo/demo.go:99-114 `createClient`: the arguments of `NewDefaultClient`, with two draws from `rnd` on.
`none`: the certificate could not be made (the error is not looked at, line 103). -/
def config (E : Env) (rnd : Nat) : Res (Option Client.Config) := do
  let key := Cose.createCAPrivateKey E rnd
  match ← Cose.createSelfSignedCA E key (rnd + 1) with
  | none => .ok none
  | some cert => .ok (some { cert := cert, certKey := key, deviceKey := E.sha256 (ascii "test"), enablePIN := false })

/-- One event: a start of the program, for `.restart`, or what `Device.step` does.  Simplified: a program that
could not make its certificate is taken to panic at once (it does so when it needs the certificate). -/
def step (E : Env) (d : Device) (op : Op) : Reply × Device :=
  match op with
  | .restart =>
    match config E d.world.rnd with
    | .ok (some cfg) =>
      match Client.start E cfg d.world.store (d.world.rnd + 2) with
      | .ok c => (.started, ⟨{ d.world with client := c, rnd := d.world.rnd + 4 }, true⟩)
      | .panic _ => (.panicked, ⟨{ d.world with rnd := d.world.rnd + 4 }, false⟩)
    | _ => (.panicked, ⟨{ d.world with rnd := d.world.rnd + 2 }, false⟩)
  | op =>
    if d.alive then
      match Device.perform E op d.world with
      | (.ok r, w') => (r, ⟨w', true⟩)
      | (.panic _, w') => (.panicked, ⟨w', false⟩)
    else (.nothing, d)

/-- A history: the replies and the device after it. -/
def run (E : Env) (d : Device) : List Op → List Reply × Device
  | [] => ([], d)
  | op :: ops =>
    let (r, d') := step E d op
    let (rs, d'') := run E d' ops
    (r :: rs, d'')

/-- The device after a history. -/
def after (E : Env) (d : Device) (ops : List Op) : Device := (run E d ops).2

end VF.Fido.Launch
