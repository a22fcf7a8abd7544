import Verif.Model.Client

/-!
# Model of u2f/u2f.go

With `DefaultFIDOClient` as the client.  Log statements are left out here; they are in
`Verif.Model.Logged`.
-/

namespace VF.Fido.U2f

open Client

/-- u2f.go:35-42 status words -/
def swNoError : UInt16 := 0x9000
def swWrongLength : UInt16 := 0x6700
def swConditionsNotSatisfied : UInt16 := 0x6985
def swWrongData : UInt16 := 0x6A80

/-- u2f.go:52-57 `U2FMessageHeader` -/
structure Header where
  cla : UInt8
  command : UInt8
  param1 : UInt8
  param2 : UInt8
  deriving DecidableEq, Repr

/-- u2f.go:84-108 `decodeU2FMessage`: header, request data and response length. -/
def decodeMessage (b : Bytes) : Res (Header × Bytes × UInt16) :=
  match b with
  | cla :: command :: param1 :: param2 :: buffer =>
    let header : Header := { cla, command, param1, param2 }
    match buffer with
    | [] => .ok (header, [], 0)
    | z :: buffer =>
      if z ≠ 0 then .panic .explicit
      else do
        let (length, buffer) ← Util.readBE16 buffer
        if buffer.isEmpty then .ok (header, [], length)
        else do
          let (request, buffer) ← Util.bufRead length.toNat buffer
          if buffer.isEmpty then .ok (header, request, 0)
          else do
            let (responseLength, _) ← Util.readBE16 buffer
            .ok (header, request, responseLength)
  | _ => .panic .checkErr

/-- `MarshalCBOR` of a `KeyHandle` (webauthn.go:44-47) -/
def keyHandleItem (k : KeyHandle) : Cbor :=
  .map [(.int 1, Cose.bytesOrNull k.privateKey), (.int 2, .bytes k.applicationID)]

/-- `MarshalCBOR` of an `EncryptedBox` (crypto.go:118-121) -/
def boxItem (b : Box) : Cbor := .map [(.int 1, .bytes b.data), (.int 2, .bytes b.iv)]

/-- u2f.go:128-131 `sealKeyHandle` -/
def sealKeyHandle (E : Env) (k : KeyHandle) : Go World Bytes := do
  let w ← Go.get
  let n ← draw
  let (box, _) ← Go.lift (sealBox E w.client.deviceKey (Cbor.encode (keyHandleItem k)) n)
  pure (Cbor.encode (boxItem box))

/-- u2f.go:133-146 `openKeyHandle`; `none` is the returned error. -/
def openKeyHandle (E : Env) (c : Client) (b : Bytes) : Res (Option KeyHandle) :=
  match E.decodeBox b with
  | none => .ok none
  | some box => do
    let data ← openBox E c.deviceKey box
    .ok (E.decodeKeyHandle data)

/-- u2f.go:148-174 `handleU2FRegister` -/
def handleRegister (E : Env) (request : Bytes) : Go World Bytes :=
  if request.length < 32 then Go.throw .bounds
  else
    let challenge := request.take 32
    let application := request.drop 32
    if application.length ≠ 32 then Go.throw .explicit
    else do
      let key ← newPrivateKey E
      let pub := ellipticMarshal key.pub.x key.pub.y
      let plain : KeyHandle := { privateKey := some (ecToDER key), applicationID := application }
      let keyHandle ← sealKeyHandle E plain
      let approved ← approve E .u2fRegister [] []
      if approved = false then pure (Util.toBE16 swConditionsNotSatisfied)
      else do
        let cert ← createCertificate E { ecdsa := some key }
        let sig ← signWith E { ecdsa := some key }
          (Util.concat [[0], application, challenge, keyHandle, pub])
        pure (Util.concat [[5], pub, [UInt8.ofNat keyHandle.length], keyHandle, cert, sig,
          Util.toBE16 swNoError])

/-- u2f.go:176-184: the fields of an authentication request: challenge, application, key handle.
Short reads are padded with zeros (`util.Read`). -/
def decodeAuthenticate (request : Bytes) : Res (Bytes × Bytes × Bytes) := do
  let (challenge, r) ← Util.bufRead 32 request
  let (application, r) ← Util.bufRead 32 r
  let (len, r) ← Util.readLE8 r
  let (handle, _) ← Util.bufRead len.toNat r
  .ok (challenge, application, handle)

/-- u2f.go:205-208: count, sign and answer. -/
def finishAuthenticate (E : Env) (key : ECPriv) (application challenge : Bytes) :
    Go World Bytes := do
  let counter ← newAuthCounter
  let sig ← signWith E { ecdsa := some key }
    (Util.concat [application, [1], Util.toBE32 counter, challenge])
  pure (Util.concat [[1], Util.toBE32 counter, sig, Util.toBE16 swNoError])

/-- u2f.go:176-213 `handleU2FAuthenticate` -/
def handleAuthenticate (E : Env) (control : UInt8) (request : Bytes) : Go World Bytes := do
  let (challenge, application, handle) ← Go.lift (decodeAuthenticate request)
  let w ← Go.get
  let opened ← Go.lift (openKeyHandle E w.client handle)
  match opened with
  | none => pure (Util.toBE16 swWrongData)
  | some k =>
    match k.privateKey with
    | none => pure (Util.toBE16 swWrongData)
    | some der =>
      if k.applicationID ≠ application then pure (Util.toBE16 swWrongData)
      else
        match E.parseECDER der with
        | none => Go.throw .checkErr
        | some key =>
          if control = 0x07 then pure (Util.toBE16 swConditionsNotSatisfied)
          else if control = 0x03 then do
            let approved ← approve E .u2fAuthenticate [] []
            if approved = false then pure (Util.toBE16 swConditionsNotSatisfied)
            else finishAuthenticate E key application challenge
          else if control = 0x08 then finishAuthenticate E key application challenge
          else pure (Util.toBE16 swWrongLength)

/-- u2f.go:110-126 `HandleMessage` -/
def handleMessage (E : Env) (message : Bytes) : Go World Bytes := do
  let (header, request, _) ← Go.lift (decodeMessage message)
  if header.command = 0x03 then pure (ascii "U2F_V2" ++ Util.toBE16 swNoError)
  else if header.command = 0x01 then handleRegister E request
  else if header.command = 0x02 then handleAuthenticate E header.param1 request
  else Go.throw .explicit

end VF.Fido.U2f
