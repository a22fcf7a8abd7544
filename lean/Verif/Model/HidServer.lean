import Verif.Model.HidTransaction

/-!
# Model of ctap_hid/channel.go and ctap_hid/ctap_hid.go

The upper layers (CTAP2 and U2F servers) are parameters acting on their own state `W`.
-/

namespace VF.Hid

open Util

/-- channel.go:10-15 `ctapHIDChannel` (the mutex serialises `handleMessage` per channel; the
model runs it as one step). -/
structure Channel where
  channelId : UInt32
  transaction : Option Transaction
  deriving DecidableEq, Repr

/-- ctap_hid.go:12-14 `CTAPHIDClient`, the two servers above the HID layer. -/
structure Upper (W : Type) where
  ctap : Bytes → Go W Bytes
  u2f : Bytes → Go W Bytes

/-- What the Go runtime decides. -/
structure Runtime where
  /-- extra capacity chosen by `append` -/
  grow : Nat → Nat → Nat
  /-- how many keepalive reports (channel.go:93) are sent before the answer to the n-th CBOR
  request.  Keepalives sent after the answer are treated separately (model `Recurring`). -/
  keepalives : Nat → Nat

/-- ctap_hid.go:16-23 `CTAPHIDServer` with the state above it and what it has sent. -/
structure World (W : Type) where
  maxChannelID : UInt32
  channels : UInt32 → Option Channel
  /-- `responseHandler` is set (ctap_hid.go:38) -/
  handlerSet : Bool
  /-- reports passed to `responseHandler`, oldest first -/
  out : List Bytes
  /-- the log line of channel.go:45, `FINALIZED MESSAGE`: channel, command, payload of every
  request acted on, oldest first -/
  finalized : List (UInt32 × UInt8 × Bytes)
  /-- number of CBOR requests handled -/
  cborCount : Nat
  up : W

/-- ctap_hid.go:25-36 `NewCTAPHIDServer` -/
def World.new {W : Type} (handlerSet : Bool) (up : W) : World W where
  maxChannelID := 0
  channels := fun id => if id = broadcastChannel then some ⟨broadcastChannel, none⟩ else none
  handlerSet := handlerSet
  out := []
  finalized := []
  cborCount := 0
  up := up

section
variable {W : Type}

/-- ctap_hid.go:82-106 `createResponsePackets`, the loop.  `fuel` bounds the iterations; every
iteration consumes payload, so `payload.length` iterations suffice. -/
def responseLoop (channelId : UInt32) (command : UInt8) :
    (fuel : Nat) → (sequence : Int) → (payload : Bytes) → List Bytes
  | 0, _, _ => []
  | fuel + 1, sequence, payload =>
    if payload.length > 0 then
      let packet :=
        if sequence < 0 then
          toLE32 channelId ++ [command] ++ toBE16 (UInt16.ofNat payload.length)
        else
          toLE32 channelId ++ [UInt8.ofNat sequence.toNat]
      let bytesLeft := maxPacketSize - packet.length
      let bytesLeft := if bytesLeft > payload.length then payload.length else bytesLeft
      let packet := packet ++ payload.take bytesLeft
      pad packet maxPacketSize ::
        responseLoop channelId command fuel (sequence + 1) (payload.drop bytesLeft)
    else []

/-- ctap_hid.go:82-106 `createResponsePackets` -/
def createResponsePackets (channelId : UInt32) (command : UInt8) (payload : Bytes) : List Bytes :=
  responseLoop channelId command payload.length (-1) payload

/-- ctap_hid.go:42-52 `sendResponsePackets` -/
def sendResponsePackets (packets : List Bytes) : Go (World W) Unit :=
  Go.modify fun w => if w.handlerSet then { w with out := w.out ++ packets } else w

/-- ctap_hid.go:72-75 `sendResponse` -/
def sendResponse (channelID : UInt32) (command : UInt8) (payload : Bytes) : Go (World W) Unit :=
  sendResponsePackets (createResponsePackets channelID command payload)

/-- ctap_hid.go:77-80 `sendError`, data.go:72-75 `ctapHidError` -/
def sendError (channelID : UInt32) (errorCode : UInt8) : Go (World W) Unit :=
  sendResponsePackets (createResponsePackets channelID cmdError [errorCode])

/-- ctap_hid.go:65-70 `newChannel` -/
def newChannel : Go (World W) UInt32 := do
  let w ← Go.get
  let id := w.maxChannelID + 1
  Go.modify fun w => { w with
    maxChannelID := w.maxChannelID + 1
    channels := fun c => if c = id then some ⟨id, none⟩ else w.channels c }
  return id

/-- Run an upper layer on its part of the state. -/
def callUpper (f : Go W Bytes) : Go (World W) Bytes := fun w =>
  let (r, up) := f w.up
  (r, { w with up := up })

/-- channel.go:93 and 105-109: the keepalive reports sent while a CBOR request is handled. -/
def sendKeepalives (channelId : UInt32) : Nat → Go (World W) Unit
  | 0 => pure ()
  | n + 1 => do
    sendResponse channelId cmdKeepalive [statusUpneeded]
    sendKeepalives channelId n

/-- channel.go:63-84 `handleBroadcastMessage` -/
def handleBroadcastMessage (header : Header) (payload : Slice) : Go (World W) Unit := do
  if header.command = cmdInit then
    let newId ← newChannel
    let nonce ← Go.lift (payload.upTo 8)
    -- channel.go:53-61,68-76: `ctapHIDInitResponse` in little-endian
    sendResponse broadcastChannel cmdInit
      (pad nonce.data 8 ++ toLE32 newId ++ [2, 0, 0, 1, capabilityCBOR])
  else if header.command = cmdPing then
    sendResponse broadcastChannel cmdPing payload.data
  else
    Go.throw .explicit

/-- channel.go:86-103 `handleDataMessage` -/
def handleDataMessage (rt : Runtime) (up : Upper W) (channelId : UInt32) (header : Header)
    (payload : Slice) : Go (World W) Unit := do
  if header.command = cmdMsg then
    let response ← callUpper (up.u2f payload.data)
    sendResponse header.channelID cmdMsg response
  else if header.command = cmdCBOR then
    let w ← Go.get
    Go.modify fun w => { w with cborCount := w.cborCount + 1 }
    sendKeepalives channelId (rt.keepalives w.cborCount)
    let response ← callUpper (up.ctap payload.data)
    sendResponse header.channelID cmdCBOR response
  else if header.command = cmdPing then
    sendResponse header.channelID cmdPing payload.data
  else
    Go.throw .explicit

/-- channel.go:44-51 `handleFinalizedMessage` (line 45 is the log line recorded in `finalized`). -/
def handleFinalizedMessage (rt : Runtime) (up : Upper W) (channelId : UInt32) (header : Header)
    (payload : Slice) : Go (World W) Unit := do
  Go.modify fun w => { w with
    finalized := w.finalized ++ [(header.channelID, header.command, payload.data)] }
  if channelId = broadcastChannel then handleBroadcastMessage header payload
  else handleDataMessage rt up channelId header payload

/-- Assignment to `channel.transaction`. -/
def setTransaction (id : UInt32) (t : Option Transaction) : Go (World W) Unit :=
  Go.modify fun w => { w with
    channels := fun c => if c = id then some ⟨id, t⟩ else w.channels c }

/-- channel.go:29-33: start a transaction or add to the open one -/
def transactionStep (rt : Runtime) (t : Option Transaction) (message : Bytes) : Res Transaction :=
  match t with
  | none => newTransaction message
  | some t => t.addMessage rt.grow message

/-- channel.go:26-42 `handleMessage` -/
def Channel.handleMessage (rt : Runtime) (up : Upper W) (channel : Channel) (message : Bytes) :
    Go (World W) Unit := do
  let t ← Go.lift (transactionStep rt channel.transaction message)
  setTransaction channel.channelId (some t)
  if t.done then
    if t.errorCode ≠ 0 then
      sendError channel.channelId t.errorCode
    else if !t.cancelled then
      match t.result with
      | none => Go.throw .nilDeref
      | some result =>
        handleFinalizedMessage rt up channel.channelId result.header result.payload
    setTransaction channel.channelId none

/-- ctap_hid.go:54-63 `HandleMessage` -/
def handleMessage (rt : Runtime) (up : Upper W) (message : Bytes) : Go (World W) Unit := do
  let (channelId, _) ← Go.lift (readLE32 message)
  let w ← Go.get
  match w.channels channelId with
  | none => sendError channelId errInvalidChannel
  | some channel => channel.handleMessage rt up message

/-- A history of reports, handled one after the other; stops at the first panic, which ends the
process (usb_device.go:88 runs `HandleMessage` in a goroutine without recover). -/
def handleAll (rt : Runtime) (up : Upper W) : List Bytes → Go (World W) Unit
  | [] => pure ()
  | m :: ms => do
    handleMessage rt up m
    handleAll rt up ms

end
end VF.Hid
