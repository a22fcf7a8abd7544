import Verif.Base.Bytes
import Verif.Base.Go

/-!
# Model of util/log.go

Simplified: one thread at a time uses the loggers (the code has no lock around `setOutput`; each
`log.Logger` has its own).  Writers accept everything.  The writers an application can set are
numbered; `none` stands for the nil writer.
-/

namespace VF.Log

/-- util/log.go:13-18 the levels a logger can have.  `NewLogger` (72-82) takes every level other
than 1, 2 and 3 for Unsafe. -/
inductive Level
  | unsafeL | trace | debug | enabled
  deriving DecidableEq, Repr

/-- util/log.go:72-82 `NewLogger`, as far as the choice of the output is concerned -/
def ofByte (level : UInt8) : Level :=
  if level = 3 then .enabled else if level = 2 then .debug else if level = 1 then .trace else .unsafeL

/-- util/log.go:22-25 and 50-53: the four `logBuffer`s.  The output of the lower three is nil or the
next higher one (59-70), so it is a flag here. `writes` are the calls of `Write` on outputs set by the
application, in order. -/
structure State where
  unsafeBuf : Bytes := []
  unsafeOut : Bool := false
  traceBuf : Bytes := []
  traceOut : Bool := false
  debugBuf : Bytes := []
  debugOut : Bool := false
  enabledBuf : Bytes := []
  enabledOut : Option Nat := none
  writes : List (Nat × Bytes) := []
  deriving DecidableEq, Repr

/-- util/log.go:34-40 `Write` of the four buffers -/
def writeEnabled (p : Bytes) (s : State) : State :=
  match s.enabledOut with
  | none => { s with enabledBuf := s.enabledBuf ++ p }
  | some w => { s with writes := s.writes ++ [(w, p)] }

def writeDebug (p : Bytes) (s : State) : State :=
  if s.debugOut then writeEnabled p s else { s with debugBuf := s.debugBuf ++ p }

def writeTrace (p : Bytes) (s : State) : State :=
  if s.traceOut then writeDebug p s else { s with traceBuf := s.traceBuf ++ p }

def writeUnsafe (p : Bytes) (s : State) : State :=
  if s.unsafeOut then writeTrace p s else { s with unsafeBuf := s.unsafeBuf ++ p }

/-- util/log.go:42-48 `setOutput` of the four buffers: what is buffered is written to the new output
(line 45), which is then used for everything that follows. -/
def openUnsafe (s : State) : State :=
  let s := if s.unsafeBuf = [] then s else writeTrace s.unsafeBuf { s with unsafeBuf := [] }
  { s with unsafeOut := true }

def openTrace (s : State) : State :=
  let s := if s.traceBuf = [] then s else writeDebug s.traceBuf { s with traceBuf := [] }
  { s with traceOut := true }

def openDebug (s : State) : State :=
  let s := if s.debugBuf = [] then s else writeEnabled s.debugBuf { s with debugBuf := [] }
  { s with debugOut := true }

/-- util/log.go:55-57 `SetLogOutput`; writing to a nil writer panics (line 45). -/
def setLogOutput (out : Option Nat) (s : State) : Res State :=
  if s.enabledBuf = [] then .ok { s with enabledOut := out }
  else
    match out with
    | none => .panic .nilDeref
    | some w =>
      .ok { s with enabledBuf := [], writes := s.writes ++ [(w, s.enabledBuf)], enabledOut := some w }

/-- Go's `log.Logger` with flags 0: prefix, message, and a newline unless the message ends with
one. -/
def format (pre message : Bytes) : Bytes :=
  pre ++ message ++ (if message.getLast? = some 10 then [] else [10])

/-- A message of a logger of the given level: one `Write`. -/
def print (level : Level) (pre message : Bytes) (s : State) : State :=
  match level with
  | .unsafeL => writeUnsafe (format pre message) s
  | .trace => writeTrace (format pre message) s
  | .debug => writeDebug (format pre message) s
  | .enabled => writeEnabled (format pre message) s

/-- util/log.go:69 the message `SetLogLevel` itself logs -/
def levelPrefix : Bytes := ascii "[LOG] "
def levelMessage (level : UInt8) : Bytes := ascii s!"Log Level Set: {level.toNat}\n"

/-- util/log.go:59-70 `SetLogLevel` -/
def setLogLevel (level : UInt8) (s : State) : State :=
  let s := if level ≤ 0 then openUnsafe s else s
  let s := if level ≤ 1 then openTrace s else s
  let s := if level ≤ 2 then openDebug s else s
  print .enabled levelPrefix (levelMessage level) s

/-- What an application and the code do with the log. -/
inductive Op
  | print (level : UInt8) (pre message : Bytes)
  | setLevel (level : UInt8)
  | setOutput (out : Option Nat)
  deriving DecidableEq, Repr

/-- One call. -/
def step (s : State) : Op → Res State
  | .print level pre message => .ok (print (ofByte level) pre message s)
  | .setLevel level => .ok (setLogLevel level s)
  | .setOutput out => setLogOutput out s

/-- A history. -/
def run (s : State) : List Op → Res State
  | [] => .ok s
  | op :: ops => do run (← step s op) ops

end VF.Log
