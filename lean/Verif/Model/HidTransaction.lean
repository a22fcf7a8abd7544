import Verif.Model.Util

/-!
# Model of ctap_hid/data.go and ctap_hid/transaction.go

One `Transaction` collects the reports of one CTAPHID request.
-/

namespace VF.Hid

open Util

/-- data.go:8 `ctapHIDMaxPacketSize` -/
def maxPacketSize : Nat := 64
/-- data.go:11 `ctapHIDStatusUpneeded` -/
def statusUpneeded : UInt8 := 2
/-- data.go:16 `ctapHIDBroadcastChannel` -/
def broadcastChannel : UInt32 := 0xFFFFFFFF

/-- data.go:23 -/
def cmdMsg : UInt8 := 0x83
/-- data.go:24 -/
def cmdCBOR : UInt8 := 0x90
/-- data.go:25 -/
def cmdInit : UInt8 := 0x86
/-- data.go:26 -/
def cmdPing : UInt8 := 0x81
/-- data.go:27 -/
def cmdCancel : UInt8 := 0x91
/-- data.go:28 -/
def cmdError : UInt8 := 0xBF
/-- data.go:29 -/
def cmdKeepalive : UInt8 := 0xBB

/-- data.go:49 -/
def errInvalidCommand : UInt8 := 0x01
/-- data.go:52 -/
def errInvalidSequence : UInt8 := 0x04
/-- data.go:56 -/
def errInvalidChannel : UInt8 := 0x0B
/-- data.go:57 -/
def errOther : UInt8 := 0x7F
/-- data.go:81 `ctapHIDCapabilityCBOR` -/
def capabilityCBOR : UInt8 := 0x4

/-- data.go:85-89 `ctapHIDMessageHeader` -/
structure Header where
  channelID : UInt32
  command : UInt8
  payloadLength : UInt16
  deriving DecidableEq, Repr

/-- A Go byte slice with the bytes between its length and its capacity.  Re-slicing beyond the
length (as `payload[:8]`, channel.go:67, may do) makes them visible. -/
structure Slice where
  data : Bytes
  spare : Bytes
  deriving DecidableEq, Repr

namespace Slice

/-- Go `s[:n]`: panics if `n` exceeds the capacity. -/
def upTo (s : Slice) (n : Nat) : Res Slice :=
  if n ≤ s.data.length + s.spare.length then
    .ok ⟨(s.data ++ s.spare).take n, (s.data ++ s.spare).drop n⟩
  else .panic .bounds

/-- Go `append(s, bs...)`: in place if the capacity suffices, otherwise into a new array whose
extra capacity `grow oldCap newLen` is chosen by the runtime and zeroed. -/
def append (grow : Nat → Nat → Nat) (s : Slice) (bs : Bytes) : Slice :=
  if bs.length ≤ s.spare.length then ⟨s.data ++ bs, s.spare.drop bs.length⟩
  else ⟨s.data ++ bs,
    List.replicate (grow (s.data.length + s.spare.length) (s.data.length + bs.length)) 0⟩

end Slice

/-- transaction.go:9-13 `transactionResult` -/
structure TResult where
  header : Header
  sequenceNumber : UInt8
  payload : Slice
  deriving DecidableEq, Repr

/-- transaction.go:16-21 `ctapHIDTransaction` -/
structure Transaction where
  done : Bool := false
  cancelled : Bool := false
  errorCode : UInt8 := 0
  result : Option TResult := none
  deriving DecidableEq, Repr

/-- transaction.go:101-106 `error` -/
def Transaction.error (t : Transaction) (code : UInt8) : Transaction :=
  { t with done := true, errorCode := code, result := none }

/-- transaction.go:108-113 `cancel` -/
def Transaction.cancel (t : Transaction) : Transaction :=
  { t with done := true, cancelled := true, result := none }

/-- transaction.go:97-99 `finish` -/
def Transaction.finish (t : Transaction) : Transaction := { t with done := true }

/-- transaction.go:23-58 `newCTAPHIDTransaction`.  The report slice has no spare capacity: it is
allocated with exactly the transfer length (usbip_server.go:123). -/
def newTransaction (message : Bytes) : Res Transaction := do
  let (channelId, buffer) ← readLE32 message
  let (command, buffer) ← readLE8 buffer
  if command &&& 0x80 = 0 then
    return ({} : Transaction).error errInvalidCommand
  else if command = cmdCancel then
    return ({} : Transaction).cancel
  else
    let (payloadLength, buffer) ← readBE16 buffer
    let header : Header := ⟨channelId, command, payloadLength⟩
    let payload : Slice := ⟨buffer, []⟩
    if payload.data.length ≥ payloadLength.toNat then
      let payload ← payload.upTo payloadLength.toNat
      return Transaction.finish { result := some ⟨header, 0, payload⟩ }
    else
      return { result := some ⟨header, 0, payload⟩ }

/-- transaction.go:60-95 `addMessage` -/
def Transaction.addMessage (grow : Nat → Nat → Nat) (t : Transaction) (message : Bytes) :
    Res Transaction :=
  if t.done then .ok (t.error errOther)
  else do
    let (channelId, buffer) ← readLE32 message
    match t.result with
    | none => .panic .nilDeref
    | some result =>
      if channelId ≠ result.header.channelID then return t.error errInvalidChannel
      else
        let (sequenceNumber, buffer) ← readLE8 buffer
        if sequenceNumber = cmdCancel then return t.cancel
        else if sequenceNumber &&& 0x80 ≠ 0 then return t.error errInvalidSequence
        else if sequenceNumber ≠ result.sequenceNumber then return t.error errInvalidSequence
        else
          let payload := result.payload.append grow buffer
          if payload.data.length ≥ result.header.payloadLength.toNat then
            let payload ← payload.upTo result.header.payloadLength.toNat
            return Transaction.finish { t with result := some { result with payload := payload } }
          else
            let result := { result with
              payload := payload, sequenceNumber := result.sequenceNumber + 1 }
            return { t with result := some result }

end VF.Hid
