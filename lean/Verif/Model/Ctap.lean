import Verif.Model.Client

/-!
# Model of ctap/ctap.go

The server is modelled with `DefaultFIDOClient` as its client.  Log statements are left out here; they are in
`Verif.Model.Logged`.
-/

namespace VF.Fido.Ctap

open Client

/-- ctap.go:22 -/
def aaguid : Bytes := [117, 108, 90, 245, 236, 166, 1, 163, 47, 198, 211, 12, 226, 242, 1, 197]

/-- ctap.go:46-67 -/
def success : UInt8 := 0x00
def errInvalidCommand : UInt8 := 0x01
def errInvalidParameter : UInt8 := 0x02
def errInvalidCBOR : UInt8 := 0x12
def errMissingParam : UInt8 := 0x14
def errUnsupportedAlgorithm : UInt8 := 0x26
def errOperationDenied : UInt8 := 0x27
def errNoCredentials : UInt8 := 0x2E
def errPINInvalid : UInt8 := 0x31
def errPINBlocked : UInt8 := 0x32
def errPINAuthInvalid : UInt8 := 0x33
def errPINRequired : UInt8 := 0x36
def errPINPolicyViolation : UInt8 := 0x37

/-- ctap.go:126-131 -/
def flagUP : UInt8 := 0x01
def flagUV : UInt8 := 0x04
def flagAT : UInt8 := 0x40

/-- ctap.go:150-153 `makeAttestedCredentialData` -/
def makeAttestedCredentialData (s : Source) : Res Bytes := do
  let pub ← Cose.publicOf s.key
  let encoded ← Cose.marshalPublic pub
  .ok (Util.concat [aaguid, Util.toBE16 (UInt16.ofNat s.id.length), s.id, encoded])

/-- ctap.go:155-163 `makeAuthData`; `none` is the nil argument. -/
def makeAuthData (E : Env) (rpId : Bytes) (s : Source) (attested : Option Bytes) (flags : UInt8) :
    Bytes :=
  match attested with
  | some a => Util.concat [E.sha256 rpId, [flags ||| flagAT], Util.toBE32 s.counter, a]
  | none => Util.concat [E.sha256 rpId, [flags], Util.toBE32 s.counter, []]

/-- ctap.go:144-148, 197-201: the data item of `makeCredentialResponse` -/
def makeCredentialItem (authData sig cert : Bytes) : Cbor :=
  .map [(.int 1, .str "packed"), (.int 2, .bytes authData),
    (.int 3, .map [(.str "alg", .int Cose.algES256), (.str "sig", .bytes sig),
      (.str "x5c", .array [.bytes cert])])]

/-- ctap.go:435-439 `derivePINAuth` -/
def derivePINAuth (E : Env) (key data : Bytes) : Bytes := (E.hmac key data).take 16

/-- ctap.go:221-233: the PIN check of MakeCredential: an error code or the user-verified flag. -/
def makeCredentialPIN (E : Env) (c : Client) (args : MakeCredArgs) : Except UInt8 UInt8 :=
  if c.pinEnabled = false then .ok 0
  else
    match args.pinAuth with
    | some auth =>
      if args.pinProtocol = 1 then
        if derivePINAuth E c.pinToken args.clientDataHash = auth then .ok flagUV
        else .error errPINAuthInvalid
      else .error errPINAuthInvalid
    | none => if c.pinHash.isSome then .error errPINRequired else .ok 0

/-- ctap.go:203-264 `handleMakeCredential` -/
def handleMakeCredential (E : Env) (data : Bytes) : Go World Bytes :=
  match E.decodeMakeCred data with
  | none => Go.throw .checkErr
  | some args =>
    if supported args.params = false then pure [errUnsupportedAlgorithm]
    else do
      let w ← Go.get
      match makeCredentialPIN E w.client args with
      | .error e => pure [e]
      | .ok flags =>
        match args.rp with
        | none => Go.throw .nilDeref
        | some rp => do
          let approved ← approveAccountCreation E rp.name
          if approved = false then pure [errOperationDenied]
          else do
            let source ← newCredentialSource E args.params args.excludeList args.rp args.user
            match source with
            | none => pure [errUnsupportedAlgorithm]
            | some s => do
              let attested ← Go.lift (makeAttestedCredentialData s)
              let authData := makeAuthData E rp.id s (some attested) (flags ||| flagUP)
              let cert ← createCertificate E s.key
              let sig ← signWith E s.key (authData ++ args.clientDataHash)
              pure (success :: Cbor.encode (makeCredentialItem authData sig cert))

/-- ctap.go:266-281: the data item of `getInfoResponse`; `clientPin` is absent if PIN support is
off. -/
def getInfoItem (clientPin : Option Bool) : Cbor :=
  .map ([(.int 1, .array [.str "FIDO_2_0", .str "U2F_V2"]), (.int 3, .bytes aaguid),
    (.int 4, .map ([(.str "rk", .bool true), (.str "up", .bool true), (.str "plat", .bool false)] ++
      (match clientPin with | some b => [(.str "clientPin", .bool b)] | none => [])))] ++
    (match clientPin with | some _ => [(.int 6, .array [.int 1])] | none => []))

/-- ctap.go:283-301 `handleGetInfo` -/
def handleGetInfo : Go World Bytes := do
  let w ← Go.get
  pure (success :: Cbor.encode (getInfoItem
    (if w.client.pinEnabled then some w.client.pinHash.isSome else none)))

/-- ctap.go:317-323 and identity_vault.go:22-28: the data item of `getAssertionResponse`; the
descriptor's empty transports are left out. -/
def getAssertionItem (id authData sig : Bytes) : Cbor :=
  .map [(.int 1, .map [(.str "id", .bytes id), (.str "type", .str "public-key")]),
    (.int 2, .bytes authData), (.int 3, .bytes sig)]

/-- ctap.go:335-346: the PIN check of GetAssertion. -/
def getAssertionPIN (E : Env) (c : Client) (args : GetAssertionArgs) : Except UInt8 UInt8 :=
  if c.pinEnabled = false then .ok 0
  else
    match args.pinAuth with
    | none => .ok 0
    | some auth =>
      if args.pinProtocol ≠ 1 then .error errPINAuthInvalid
      else if derivePINAuth E c.pinToken args.clientDataHash = auth then .ok flagUV
      else .error errPINAuthInvalid

/-- ctap.go:363-377: sign and answer. -/
def finishAssertion (E : Env) (args : GetAssertionArgs) (s : Source) (flags : UInt8) :
    Go World Bytes := do
  let authData := makeAuthData E args.rpId s none flags
  let sig ← signWith E s.key (Util.concat [authData, args.clientDataHash])
  pure (success :: Cbor.encode (getAssertionItem s.id authData sig))

/-- ctap.go:325-378 `handleGetAssertion` -/
def handleGetAssertion (E : Env) (data : Bytes) : Go World Bytes :=
  match E.decodeGetAssertion data with
  | none => pure [errInvalidCBOR]
  | some args => do
    let w ← Go.get
    match getAssertionPIN E w.client args with
    | .error e => pure [e]
    | .ok flags => do
      let source ← getAssertionSource E args.rpId args.allowList
      match source with
      | none => pure [errNoCredentials]
      | some s =>
        if args.up = some false then finishAssertion E args s flags
        else do
          let approved ← approveAccountLogin E s
          if approved = false then pure [errOperationDenied]
          else finishAssertion E args s (flags ||| flagUP)

/-! ### ClientPIN -/

/-- ctap.go:430-433 `getPINSharedSecret` -/
def sharedSecret (E : Env) (c : Client) (k : EC2Key) : Res Bytes := do
  let s ← ecdhSecret E c.keyAgreement (BigInt.ofBytes (k.x.getD [])) (BigInt.ofBytes (k.y.getD []))
  .ok (E.sha256 s)

/-- ctap.go:445-455 `decryptPIN`: the decrypted bytes before the first zero byte, or nothing if
there is none. -/
def decryptPIN (E : Env) (secret enc : Bytes) : Res Bytes := do
  let padded ← decryptAESCBC E secret enc
  .ok (if padded.contains 0 then padded.takeWhile (· != 0) else [])

/-- ctap.go:417-421: data item of `clientPINResponse` -/
def retriesItem (n : UInt8) : Cbor := .map [(.int 3, .uint n.toNat)]
def pinTokenItem (token : Bytes) : Cbor :=
  .map (if token.isEmpty then [] else [(.int 2, .bytes token)])
def keyAgreementItem (k : EC2Key) : Cbor := .map [(.int 1, Cose.ec2Item k)]

/-- ctap.go:490-497 `handleGetRetries` -/
def handleGetRetries : Go World Bytes := do
  let n ← getPINRetries
  pure (success :: Cbor.encode (retriesItem (UInt8.ofInt n)))

/-- ctap.go:499-511 `handleGetKeyAgreement`; the curve field is left at 0. -/
def handleGetKeyAgreement : Go World Bytes := do
  let w ← Go.get
  let k := w.client.keyAgreement
  pure (success :: Cbor.encode (keyAgreementItem {
    kty := Cose.ktyEC2, alg := Cose.algECDH, crv := 0
    x := some (BigInt.toBytes k.x), y := some (BigInt.toBytes k.y), d := [] }))

/-- ctap.go:513-534 `handleSetPIN` -/
def handleSetPIN (E : Env) (args : ClientPINArgs) : Go World Bytes := do
  let w ← Go.get
  if w.client.pinHash.isSome then pure [errPINAuthInvalid]
  else
    match args.keyAgreement, args.pinAuth, args.newPinEnc with
    | some key, some auth, some enc => do
      let secret ← Go.lift (sharedSecret E w.client key)
      if derivePINAuth E secret enc ≠ auth then pure [errPINAuthInvalid]
      else do
        let pin ← Go.lift (decryptPIN E secret enc)
        if pin.length < 4 then pure [errPINPolicyViolation]
        else do
          setPINRetries 8
          setPINHash E (some ((E.sha256 pin).take 16))
          pure [success]
    | _, _, _ => pure [errMissingParam]

/-- ctap.go:536-562 `handleChangePIN`; missing encodings are empty slices, and an absent PIN
hash compares like an empty one (`bytes.Equal`). -/
def handleChangePIN (E : Env) (args : ClientPINArgs) : Go World Bytes :=
  match args.keyAgreement, args.pinAuth with
  | some key, some auth => do
    let n ← getPINRetries
    if n = 0 then pure [errPINBlocked]
    else do
      let w ← Go.get
      let secret ← Go.lift (sharedSecret E w.client key)
      if derivePINAuth E secret (args.newPinEnc.getD [] ++ args.pinHashEnc.getD []) ≠ auth then
        pure [errPINAuthInvalid]
      else do
        let n ← getPINRetries
        setPINRetries (n - 1)
        let hash ← Go.lift (decryptAESCBC E secret (args.pinHashEnc.getD []))
        let w ← Go.get
        if w.client.pinHash.getD [] ≠ hash then pure [errPINInvalid]
        else do
          setPINRetries 8
          let pin ← Go.lift (decryptPIN E secret (args.newPinEnc.getD []))
          if pin.length < 4 then pure [errPINPolicyViolation]
          else do
            setPINHash E (some ((E.sha256 pin).take 16))
            pure [success]
  | _, _ => pure [errMissingParam]

/-- ctap.go:564-586 `handleGetPINToken`; line 565 dereferences `KeyAgreement` only if a PIN hash
was sent. -/
def handleGetPINToken (E : Env) (args : ClientPINArgs) : Go World Bytes :=
  match args.pinHashEnc with
  | none => pure [errMissingParam]
  | some enc =>
    match args.keyAgreement with
    | none => Go.throw .nilDeref
    | some key =>
      if key.x = none then pure [errMissingParam]
      else do
        let n ← getPINRetries
        if n ≤ 0 then pure [errPINBlocked]
        else do
          let w ← Go.get
          let secret ← Go.lift (sharedSecret E w.client key)
          let n ← getPINRetries
          setPINRetries (n - 1)
          let hash ← Go.lift (decryptAESCBC E secret enc)
          let w ← Go.get
          if hash ≠ w.client.pinHash.getD [] then pure [errPINInvalid]
          else do
            setPINRetries 8
            let token ← Go.lift (encryptAESCBC E secret w.client.pinToken)
            pure (success :: Cbor.encode (pinTokenItem token))

/-- ctap.go:457-488 `handleClientPIN` -/
def handleClientPIN (E : Env) (data : Bytes) : Go World Bytes := do
  let w ← Go.get
  if w.client.pinEnabled = false then pure [errInvalidCommand]
  else
    match E.decodeClientPIN data with
    | none => pure [errInvalidCBOR]
    | some args =>
      if args.pinProtocol ≠ 1 then pure [errInvalidParameter]
      else if args.subCommand = 1 then handleGetRetries
      else if args.subCommand = 2 then handleGetKeyAgreement
      else if args.subCommand = 3 then handleSetPIN E args
      else if args.subCommand = 4 then handleChangePIN E args
      else if args.subCommand = 5 then handleGetPINToken E args
      else pure [errMissingParam]

/-- ctap.go:100-115 `HandleMessage` -/
def handleMessage (E : Env) (data : Bytes) : Go World Bytes :=
  match data with
  | [] => Go.throw .bounds
  | command :: body =>
    if command = 0x01 then handleMakeCredential E body
    else if command = 0x04 then handleGetInfo
    else if command = 0x02 then handleGetAssertion E body
    else if command = 0x06 then handleClientPIN E body
    else Go.throw .explicit

end VF.Fido.Ctap
