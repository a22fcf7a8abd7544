import Verif.Model.Util

/-!
# Model of usbip/usbip.go and usbip/usbip_server.go

A TCP connection is the list of bytes the client sends before closing, together with an oracle for
how many bytes one `Read` call returns.  The exported devices are parameters acting on a state `D`.
Log output is left out.
-/

namespace VF.UsbIp

open Util

/-- usbip.go:119-125 `usbipMessageHeader` -/
structure MsgHeader where
  command : UInt32
  seq : UInt32
  deviceId : UInt32
  direction : UInt32
  endpoint : UInt32
  deriving DecidableEq, Repr

/-- usbip.go:155-162 `usbipCommandSubmitBody` -/
structure SubmitBody where
  flags : UInt32
  bufferLength : UInt32
  startFrame : UInt32
  numberOfPackets : UInt32
  interval : UInt32
  setup : Bytes
  deriving DecidableEq, Repr

/-- usbip.go:55-59 `usbipControlHeader` -/
structure ControlHeader where
  version : UInt16
  command : UInt16
  status : UInt32
  deriving DecidableEq, Repr

/-- usbip.go:202-217 `USBIPDeviceSummaryHeader`; `path` and `busID` are the 256 and 32 byte arrays. -/
structure SummaryHeader where
  path : Bytes
  busID : Bytes
  busnum : UInt32
  devnum : UInt32
  speed : UInt32
  idVendor : UInt16
  idProduct : UInt16
  bcdDevice : UInt16
  deviceClass : UInt8
  deviceSubclass : UInt8
  deviceProtocol : UInt8
  configurationValue : UInt8
  numConfigurations : UInt8
  numInterfaces : UInt8
  deriving DecidableEq, Repr

/-- usbip.go:244-249 `USBIPDevice`.  `submit` returns the calls of `onFinish` made before it
returns (`none` is nil); later calls are the subject of the request buffer model.  A device that
panics is taken to have made no such call, which is so for usb_device.go:70-93. -/
structure Device (D : Type) where
  busID : Bytes
  summary : SummaryHeader
  submit : (id endpoint : UInt32) → (setup data : Bytes) → Go D (List (Option Bytes))
  unlink : (id : UInt32) → Go D Bool

/-- What the device layer is asked to do. -/
inductive Call where
  | submit (id endpoint : UInt32) (setup data : Bytes)
  | unlink (id : UInt32)
  deriving DecidableEq, Repr

/-- A connection: `stream` are the bytes the client will still deliver before it closes, `pos` how
many it has delivered, `out` the bytes written to it, `calls` the calls made to the device. -/
structure Conn (D : Type) where
  stream : Bytes
  pos : Nat
  out : Bytes
  dev : D
  calls : List Call

/-- Network oracle: how many bytes `Read` for `n` bytes returns at position `pos` (at least one, at
most `n` and at most what is left). -/
abbrev Net := (pos n : Nat) → Nat

section
variable {D : Type}

/-- `binary.Read` from the connection: `io.ReadFull`; on end of file everything left was consumed and
util.go:59 panics. -/
def readFull (n : Nat) : Go (Conn D) Bytes := fun c =>
  if n ≤ c.stream.length then
    (.ok (c.stream.take n), { c with stream := c.stream.drop n, pos := c.pos + n })
  else (.panic .checkErr, { c with stream := [], pos := c.pos + c.stream.length })

/-- A single `conn.Read` into a zeroed buffer of `n > 0` bytes followed by `CheckErr`: util.go:94-99
`Read` and usbip_server.go:125-126. -/
def readOnce (net : Net) (n : Nat) : Go (Conn D) Bytes := fun c =>
  if c.stream.isEmpty then (.panic .checkErr, c)
  else
    let k := min (max 1 (net c.pos n)) (min n c.stream.length)
    (.ok (pad (c.stream.take k) n), { c with stream := c.stream.drop k, pos := c.pos + k })

/-- usbip_server.go:174-178 `writeResponse` (writing is assumed to succeed) -/
def writeResponse (data : Bytes) : Go (Conn D) Unit :=
  Go.modify (fun c => { c with out := c.out ++ data })

/-- util.go:76-80 `ToBE[usbipMessageHeader]` -/
def MsgHeader.toBE (h : MsgHeader) : Bytes :=
  toBE32 h.command ++ toBE32 h.seq ++ toBE32 h.deviceId ++ toBE32 h.direction ++ toBE32 h.endpoint

/-- util.go:76-80 `ToBE[usbipControlHeader]` -/
def ControlHeader.toBE (h : ControlHeader) : Bytes := toBE16 h.version ++ toBE16 h.command ++ toBE32 h.status

/-- util.go:76-80 `ToBE[USBIPDeviceSummaryHeader]` -/
def SummaryHeader.toBE (s : SummaryHeader) : Bytes :=
  s.path ++ s.busID ++ toBE32 s.busnum ++ toBE32 s.devnum ++ toBE32 s.speed ++
  toBE16 s.idVendor ++ toBE16 s.idProduct ++ toBE16 s.bcdDevice ++
  [s.deviceClass, s.deviceSubclass, s.deviceProtocol, s.configurationValue, s.numConfigurations,
    s.numInterfaces]

/-- util.go:56-61 `ReadBE[usbipMessageHeader]` (20 bytes) -/
def readMsgHeader : Go (Conn D) MsgHeader := do
  let b ← readFull 20
  let (command, b) ← Go.lift (readBE32 b)
  let (seq, b) ← Go.lift (readBE32 b)
  let (deviceId, b) ← Go.lift (readBE32 b)
  let (direction, b) ← Go.lift (readBE32 b)
  let (endpoint, _) ← Go.lift (readBE32 b)
  pure { command, seq, deviceId, direction, endpoint }

/-- util.go:56-61 `ReadBE[usbipCommandSubmitBody]` (28 bytes) -/
def readSubmitBody : Go (Conn D) SubmitBody := do
  let b ← readFull 28
  let (flags, b) ← Go.lift (readBE32 b)
  let (bufferLength, b) ← Go.lift (readBE32 b)
  let (startFrame, b) ← Go.lift (readBE32 b)
  let (numberOfPackets, b) ← Go.lift (readBE32 b)
  let (interval, b) ← Go.lift (readBE32 b)
  pure { flags, bufferLength, startFrame, numberOfPackets, interval, setup := b }

/-- util.go:56-61 `ReadBE[usbipCommandUnlinkBody]` (28 bytes); the padding is not used. -/
def readUnlinkBody : Go (Conn D) UInt32 := do
  let b ← readFull 28
  let (seq, _) ← Go.lift (readBE32 b)
  pure seq

/-- util.go:56-61 `ReadBE[usbipControlHeader]` (8 bytes) -/
def readControlHeader : Go (Conn D) ControlHeader := do
  let b ← readFull 8
  let (version, b) ← Go.lift (readBE16 b)
  let (command, b) ← Go.lift (readBE16 b)
  let (status, _) ← Go.lift (readBE32 b)
  pure { version, command, status }

/-- usbip.go:42-45 -/
def cmdSubmit : UInt32 := 1
def cmdUnlink : UInt32 := 2
def retSubmit : UInt32 := 3
def retUnlink : UInt32 := 4
/-- usbip.go:14-15 -/
def dirOut : UInt32 := 0
def dirIn : UInt32 := 1

/-- usbip.go:138-153 `replyHeader` -/
def MsgHeader.replyHeader (h : MsgHeader) : MsgHeader where
  command := if h.command = cmdSubmit then retSubmit else if h.command = cmdUnlink then retUnlink else 0
  seq := h.seq
  deviceId := 0
  direction := 0
  endpoint := 0

/-- Go `copy(dst, src)`: overwrite the beginning. -/
def copyInto (dst src : Bytes) : Bytes := src.take dst.length ++ dst.drop src.length

/-- usbip_server.go:130-132: the transfer buffer after the callback stored `response` in it -/
def storeResponse (transferBuffer : Bytes) : Option Bytes → Bytes
  | some r => copyInto transferBuffer r
  | none => transferBuffer

/-- usbip_server.go:133-147: the reply for the transfer buffer as it then is -/
def submitReply (header : MsgHeader) (transferBuffer : Bytes) : Bytes :=
  let body := toBE32 0 ++ toBE32 (UInt32.ofNat transferBuffer.length) ++ toBE32 0 ++ toBE32 0 ++ toBE32 0 ++
    List.replicate 8 0
  let reply := concat [header.replyHeader.toBE, body]
  if header.direction = dirIn then reply ++ transferBuffer else reply

/-- usbip_server.go:129-149 the callback `onReturnSubmit`: the bytes it writes when called with
`response` while the transfer buffer has the given contents. -/
def returnSubmit (header : MsgHeader) (transferBuffer : Bytes) (response : Option Bytes) : Bytes :=
  submitReply header (storeResponse transferBuffer response)

/-- usbip_server.go:129-149: what successive calls of the callback write; they share the buffer. -/
def returnSubmits (header : MsgHeader) : (transferBuffer : Bytes) → List (Option Bytes) → Bytes
  | _, [] => []
  | buf, r :: rs => returnSubmit header buf r ++ returnSubmits header (storeResponse buf r) rs

/-- Run a device call, logging it. -/
def callDevice (call : Call) {α : Type} (x : Go D α) : Go (Conn D) α := fun c =>
  let c := { c with calls := c.calls ++ [call] }
  match x c.dev with
  | (r, d) => (r, { c with dev := d })

/-- usbip_server.go:120-151 `handleCommandSubmit` -/
def handleCommandSubmit (net : Net) (device : Device D) (header : MsgHeader) : Go (Conn D) Unit := do
  let command ← readSubmitBody
  let n := command.bufferLength.toNat
  let transferBuffer ←
    if header.direction = dirOut ∧ command.bufferLength > 0 then readOnce net n
    else pure (List.replicate n 0)
  let responses ← callDevice (.submit header.seq header.endpoint command.setup transferBuffer)
    (device.submit header.seq header.endpoint command.setup transferBuffer)
  writeResponse (returnSubmits header transferBuffer responses)

/-- usbip_server.go:157-161: `-ECONNRESET` = -104, `-ENOENT` = -2, as two's complement -/
def unlinkStatus (removed : Bool) : UInt32 := if removed then 0 - 104 else 0 - 2

/-- usbip_server.go:153-172 `handleCommandUnlink` -/
def handleCommandUnlink (device : Device D) (header : MsgHeader) : Go (Conn D) Unit := do
  let seq ← readUnlinkBody
  let removed ← callDevice (.unlink seq) (device.unlink seq)
  writeResponse (concat [header.replyHeader.toBE, toBE32 (unlinkStatus removed) ++ List.replicate 24 0])

/-- usbip_server.go:105-113, the body of the command loop -/
def command (net : Net) (device : Device D) : Go (Conn D) Unit := do
  let header ← readMsgHeader
  if header.command = cmdSubmit then handleCommandSubmit net device header
  else if header.command = cmdUnlink then handleCommandUnlink device header
  else pure ()

/-- util.go:34-41 `Try` with a handler that only logs: the panic is forgotten, the state stays. -/
def try' (x : Go (Conn D) Unit) : Conn D → Conn D := fun c => (x c).2

/-- usbip_server.go:102-118 `handleCommands`, `n` iterations of the endless loop -/
def handleCommands (net : Net) (device : Device D) : Nat → Conn D → Conn D
  | 0, c => c
  | n + 1, c => handleCommands net device n (try' (command net device) c)

/-- usbip_server.go:49-58 `getDevice` -/
def getDevice (devices : List (Device D)) (busID : Bytes) : Option (Device D) :=
  devices.find? (fun d => d.busID == busID)

/-- usbip.go:8 -/
def usbipVersion : UInt16 := 0x0111
/-- usbip.go:26-29 -/
def opReqDevlist : UInt16 := 0x8005
def opReqImport : UInt16 := 0x8003
def opRepImport : UInt16 := 0x0003

/-- usbip.go:69-89 with util.go:76-80: the reply structure contains a slice, so `binary.Write` fails
and `ToBE` yields no bytes, whatever the devices. -/
def devlistReply (_devices : List (Device D)) : Bytes := toBENotFixedSize

/-- usbip.go:100-109 `newOpRepImport`, encoded -/
def importReply (device : Device D) : Bytes :=
  ControlHeader.toBE ⟨usbipVersion, opRepImport, 0⟩ ++ device.summary.toBE

/-- usbip.go:111-117 `opRepImportError`, encoded -/
def importError (status : UInt32) : Bytes := ControlHeader.toBE ⟨usbipVersion, opRepImport, status⟩

/-- usbip_server.go:76-97, one iteration of `handle`; the result is the device imported, if
`handleCommands` is entered. -/
def control (net : Net) (devices : List (Device D)) : Go (Conn D) (Option (Device D)) := do
  let header ← readControlHeader
  if header.command = opReqDevlist then
    writeResponse (devlistReply devices)
    pure none
  else if header.command = opReqImport then
    let busIDData ← readOnce net 32
    let busID ← Go.lift (cStringToString busIDData)
    match getDevice devices busID with
    | none =>
      writeResponse (importError 1)
      pure none
    | some device =>
      writeResponse (importReply device)
      pure (some device)
  else pure none

/-- How `handle` (usbip_server.go:74-100) stands after some number of loop iterations. -/
inductive Served where
  /-- it panicked, so `Start` (usbip_server.go:41-45) goes on to the next connection -/
  | ended
  /-- it is still in its loop -/
  | control
  /-- it is in the command loop of an imported device -/
  | commands
  deriving DecidableEq, Repr

/-- usbip_server.go:74-100 `handle`, run for `n` iterations in all (of the outer or inner loop). -/
def handle (net : Net) (devices : List (Device D)) : Nat → Conn D → Served × Conn D
  | 0, c => (.control, c)
  | n + 1, c =>
    match control net devices c with
    | (.panic _, c) => (.ended, c)
    | (.ok none, c) => handle net devices n c
    | (.ok (some device), c) => (.commands, handleCommands net device n c)

/-- Whether `Start` (usbip_server.go:29-46) gets to call `Accept` again after serving a connection:
only when `handle` ended within the `n` iterations it was given. -/
def acceptsNext (net : Net) (devices : List (Device D)) (n : Nat) (c : Conn D) : Bool :=
  (handle net devices n c).1 == .ended

end

/-! ## The address filter of `Start` -/

/-- Decimal digits of an octet, as Go prints IPv4 addresses. -/
def decimal (n : UInt8) : Bytes :=
  let d (k : Nat) : UInt8 := UInt8.ofNat (48 + k)
  if n.toNat < 10 then [d n.toNat]
  else if n.toNat < 100 then [d (n.toNat / 10), d (n.toNat % 10)]
  else [d (n.toNat / 100), d (n.toNat / 10 % 10), d (n.toNat % 10)]

/-- Go `net.TCPAddr.String` for an IPv4 peer: "a.b.c.d:port"; for IPv6 "[...]:port". -/
inductive Peer where
  | v4 (a b c d : UInt8) (port : Bytes)
  | v6 (text : Bytes)

def Peer.render : Peer → Bytes
  | .v4 a b c d port => decimal a ++ [46] ++ decimal b ++ [46] ++ decimal c ++ [46] ++ decimal d ++ [58] ++ port
  | .v6 text => [91] ++ text

/-- usbip_server.go:35 `strings.HasPrefix(addr, "127.0.0.1")` -/
def accepted (p : Peer) : Bool := (ascii "127.0.0.1").isPrefixOf p.render

end VF.UsbIp
