import Verif.Model.Demo

/-!
# Several processes, one file

The demo program keeps everything in one file (cmd/demo/demo.go:112 and 123), which `demo start` reads once,
when it creates the client (demo.go:94-114, fido_client.go:79 and 263-268), and then writes whenever
something is to be saved.  Other commands (`demo delete`, `demo pin ...`, demo.go:38-92) run in processes of
their own and may do so while the device is running.
-/

namespace VF.Fido.Processes

/-- What happens to a running device and its file. -/
inductive Event where
  /-- a request to the running device, or a call of its API -/
  | own (op : Op)
  /-- another process writes the file (cmd/demo/server.go:52-57) -/
  | wrote (data : Bytes)
  deriving DecidableEq, Repr

/-- cmd/demo/server.go:52-57 `SaveData` in another process: the file is replaced, and nothing in this
process is told so.  Simplified: a file is written in one step (for interrupted writing see `Demo.saveData`). -/
def wrote (data : Bytes) (d : Device) : Device := { d with world := { d.world with store := some data } }

/-- A history: the replies of the running device, and the device after it. -/
def run (E : Env) (cfg : Client.Config) (d : Device) : List Event → List Reply × Device
  | [] => ([], d)
  | .own op :: evs =>
    let (r, d') := Device.step E cfg d op
    let (rs, d'') := run E cfg d' evs
    (r :: rs, d'')
  | .wrote data :: evs => run E cfg (wrote data d) evs

end VF.Fido.Processes
