import Verif.Model.UsbIp
import Verif.Model.RequestBuffer

/-!
# Model of usb/usb.go and usb/usb_device.go
-/

namespace VF.Usb

open Util

/-- usb.go:148-154 `usbSetupPacket` -/
structure Setup where
  bmRequestType : UInt8
  bRequest : UInt8
  wValue : UInt16
  wIndex : UInt16
  wLength : UInt16
  deriving DecidableEq, Repr

/-- util.go:63-68 `ReadLE[usbSetupPacket]` -/
def readSetup (b : Bytes) : Res Setup := do
  let (bmRequestType, b) ← readLE8 b
  let (bRequest, b) ← readLE8 b
  let (wValue, b) ← readLE16 b
  let (wIndex, b) ← readLE16 b
  let (wLength, _) ← readLE16 b
  pure { bmRequestType, bRequest, wValue, wIndex, wLength }

/-- usb.go:177-179 `direction` -/
def Setup.direction (s : Setup) : UInt8 := (s.bmRequestType >>> 7) &&& 1

/-- usb.go:181-184 `setDirection` -/
def Setup.setDirection (direction : UInt8) (s : Setup) : Setup :=
  { s with bmRequestType := (s.bmRequestType &&& ~~~((1 : UInt8) <<< 7)) ||| (direction <<< 7) }

/-- usb.go:186-188 `requestClass` -/
def Setup.requestClass (s : Setup) : UInt8 := (s.bmRequestType >>> 4) &&& 0b11

/-- usb.go:190-193 `setRequestClass` -/
def Setup.setRequestClass (cls : UInt8) (s : Setup) : Setup :=
  { s with bmRequestType := (s.bmRequestType &&& ~~~((0b11 : UInt8) <<< 4)) ||| (cls <<< 4) }

/-- usb.go:195-197 `recipient` -/
def Setup.recipient (s : Setup) : UInt8 := s.bmRequestType &&& 0b1111

/-- usb.go:199-202 `setRecipient` -/
def Setup.setRecipient (recipient : UInt8) (s : Setup) : Setup :=
  { s with bmRequestType := (s.bmRequestType &&& ~~~(0b1111 : UInt8)) ||| recipient }

/-- usb.go:278-282 `getDescriptorTypeAndIndex` -/
def getDescriptorTypeAndIndex (wValue : UInt16) : UInt8 × UInt8 :=
  ((wValue >>> 8).toUInt8, (wValue &&& 0xFF).toUInt8)

/-- usb_device.go:248-251 `getHIDReport` -/
def hidReport : Bytes :=
  [6, 208, 241, 9, 1, 161, 1, 9, 32, 20, 37, 255, 117, 8, 149, 64, 129, 2, 9, 33, 20, 37, 255, 117, 8, 149, 64,
    145, 2, 192]

/-- util.go:116-121 `SizeOf` of the structures of usb.go:212-271 -/
def sizeOfDevice : UInt8 := 18
def sizeOfConfiguration : UInt8 := 9
def sizeOfInterface : UInt8 := 9
def sizeOfHID : UInt8 := 9
def sizeOfEndpoint : UInt8 := 7

/-- usb_device.go:189-206 `getDeviceDescriptor`, encoded by util.go:70-74 `ToLE` -/
def deviceDescriptor : Bytes :=
  [sizeOfDevice, 1] ++ toLE16 0x0110 ++ [0, 0, 0, 64] ++ toLE16 0 ++ toLE16 0 ++ toLE16 1 ++ [1, 2, 3, 1]

/-- usb_device.go:208-220 `getConfigurationDescriptor`, encoded -/
def configurationDescriptor (configLength : UInt16) : Bytes :=
  [sizeOfConfiguration, 2] ++ toLE16 (sizeOfConfiguration.toUInt16 + configLength) ++
  [1, 0, 4, 0b10000000 ||| 0b01000000, 0]

/-- usb_device.go:222-234 `getInterfaceDescriptor`, encoded -/
def interfaceDescriptor : Bytes := [sizeOfInterface, 4, 0, 0, 2, 3, 0, 0, 5]

/-- usb_device.go:236-246 `getHIDDescriptor`, encoded -/
def hidDescriptor (report : Bytes) : Bytes :=
  [sizeOfHID, 33] ++ toLE16 0x0101 ++ [0, 1, 34] ++ toLE16 (UInt16.ofNat report.length)

/-- usb_device.go:253-273 `getEndpointDescriptors`, encoded -/
def endpointDescriptors : List Bytes :=
  [[sizeOfEndpoint, 5, 0b10000001, 0b00000011] ++ toLE16 64 ++ [255],
   [sizeOfEndpoint, 5, 0b00000010, 0b00000011] ++ toLE16 64 ++ [255]]

/-- `utf16.Encode` of the standard library, for one character: itself below 0x10000, a surrogate pair
above. -/
def utf16 (c : Char) : List UInt16 :=
  if c.toNat < 0x10000 then [UInt16.ofNat c.toNat]
  else [UInt16.ofNat (0xD800 + (c.toNat - 0x10000) / 1024 % 1024), UInt16.ofNat (0xDC00 + (c.toNat - 0x10000) % 1024)]

/-- util.go:108-114 `Utf16encode` -/
def utf16encode (s : String) : Bytes := ((s.toList.map utf16).flatten.map toLE16).flatten

/-- usb_device.go:275-293 `getStringDescriptor` -/
def getStringDescriptor (index : UInt8) : Res Bytes :=
  if index = 0 then .ok (toLE16 0x0409)
  else if index = 1 then .ok (utf16encode "No Company")
  else if index = 2 then .ok (utf16encode "Virtual FIDO")
  else if index = 3 then .ok (utf16encode "No Serial Number")
  else if index = 4 then .ok (utf16encode "String 4")
  else if index = 5 then .ok (utf16encode "Default Interface")
  else .panic .explicit

/-- usb_device.go:160-173, the answer for `usbDescriptorConfiguration` -/
def configurationAnswer : Bytes :=
  let configBytes := interfaceDescriptor ++ hidDescriptor hidReport ++ endpointDescriptors.flatten
  concat [configurationDescriptor (UInt16.ofNat configBytes.length), configBytes]

/-- usb_device.go:152-187 `getDescriptor` -/
def getDescriptor (type index : UInt8) : Res Bytes :=
  if type = 1 then .ok deviceDescriptor
  else if type = 2 then .ok configurationAnswer
  else if type = 3 then do
    let message ← getStringDescriptor index
    .ok (concat [[2 + UInt8.ofNat message.length, 3], message])
  else .panic .explicit

/-- usb_device.go:111-127 `handleDeviceRequest` -/
def handleDeviceRequest (s : Setup) : Res (Option Bytes) :=
  if s.bRequest = 6 then do
    let (type, index) := getDescriptorTypeAndIndex s.wValue
    let d ← getDescriptor type index
    .ok (some d)
  else if s.bRequest = 9 then .ok none
  else if s.bRequest = 0 then .ok (some [1])
  else .panic .explicit

/-- usb_device.go:129-150 `handleInterfaceRequest` -/
def handleInterfaceRequest (s : Setup) : Res (Option Bytes) :=
  if s.bRequest = 10 then .ok none
  else if s.bRequest = 11 then .ok none
  else if s.bRequest = 6 then
    if (getDescriptorTypeAndIndex s.wValue).1 = 34 then .ok (some hidReport) else .panic .explicit
  else .panic .explicit

/-- usb_device.go:99-109 `handleControlMessage` -/
def handleControlMessage (s : Setup) : Res (Option Bytes) :=
  if s.recipient = 0 then handleDeviceRequest s
  else if s.recipient = 1 then handleInterfaceRequest s
  else .panic .explicit

/-- The device between two calls of its API: the request buffer, the reports handed to the delegate
by `go` statements, in order of start, and the timers armed (usb_device.go:79) that have not fired.
`K` stands for the completion callbacks. -/
structure State (K : Type) where
  buf : Buf.Buffer K
  delivered : List Bytes
  timers : List (UInt32 × K)

section
variable {K : Type}

/-- usb_device.go:24-33 `NewUSBDevice` -/
def State.init : State K := ⟨Buf.Buffer.make K, [], []⟩

/-- usb_device.go:70-93 `HandleMessage` with the callback `k`; the result are the calls of `k` made
before it returns.  Later calls of it come from the buffer (`Respond`) and from the timers. -/
def handleMessage (k : K) (id endpoint : UInt32) (setupBytes data : Bytes) : Go (State K) (List (Option Bytes)) := do
  let setup ← Go.lift (readSetup setupBytes)
  if endpoint = 0 then
    let reply ← Go.lift (handleControlMessage setup)
    pure [reply]
  else if endpoint = 1 then
    let s ← Go.get
    let p := Buf.request id k s.buf
    Go.modify (fun s => { s with buf := p.1, timers := s.timers ++ [(id, k)] })
    match p.2 with
    | some r => pure [some r]
    | none => pure []
  else if endpoint = 2 then
    Go.modify (fun s => { s with delivered := s.delivered ++ [data] })
    pure [none]
  else Go.throw .explicit

/-- usb_device.go:66-68 `RemoveWaitingRequest` -/
def removeWaitingRequest (id : UInt32) : Go (State K) Bool := do
  let s ← Go.get
  let p := Buf.cancelRequest id s.buf
  Go.modify (fun s => { s with buf := p.1 })
  pure p.2.isSome

/-- usb_device.go:79-84: timer `i` fires.  The result is the callback called with nil, if any:
the one given to `HandleMessage` with this timer, when a request with its number is waiting. -/
def timeout (i : Nat) (s : State K) : Option (State K × Option K) :=
  match s.timers[i]? with
  | none => none
  | some (id, k) =>
    let p := Buf.cancelRequest id s.buf
    some ({ s with buf := p.1, timers := s.timers.eraseIdx i }, if p.2.isSome then some k else none)

/-- usb_device.go:95-97 `handleResponse`: the result is the callback called with `data`, if any.  The
call is taken together with the part of `Respond` under the lock; RequestBuffer.lean has them apart. -/
def handleResponse (data : Bytes) (choice : Nat) (s : State K) : State K × Option K :=
  let p := Buf.respondLocked data choice s.buf
  ({ s with buf := p.1 }, p.2.map (·.2))

/-- usb_device.go:39-64 `DeviceSummary` (the header) -/
def summary : UsbIp.SummaryHeader where
  path := UsbIp.copyInto (List.replicate 256 0) (ascii "/device/0")
  busID := UsbIp.copyInto (List.replicate 32 0) (ascii "2-2")
  busnum := 2
  devnum := 2
  speed := 2
  idVendor := 0
  idProduct := 0
  bcdDevice := 0
  deviceClass := 0
  deviceSubclass := 0
  deviceProtocol := 0
  configurationValue := 0
  numConfigurations := 1
  numInterfaces := 1

/-- usb_device.go:24-97: the exported device, `k` being the callback it is given -/
def device (k : K) : UsbIp.Device (State K) where
  busID := ascii "2-2"
  summary := summary
  submit := handleMessage k
  unlink := removeWaitingRequest

end

end VF.Usb
