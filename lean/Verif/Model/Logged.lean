import Verif.Model.Device
import Verif.Model.Log

/-!
# The log statements of ctap/ctap.go, u2f/u2f.go and fido_client/fido_client.go

The handlers of `Verif.Model.Ctap` and `Verif.Model.U2f` once more, with their log statements.  That they are the same
apart from these is proved (`Verif.Proofs.Logged`).  What `Printf` makes of the values is left open: a line has its level
(`Verif.Model.Log` has what becomes of the lines of each level), its text, and the values in it.

Simplified: pointers inside of values are printed as addresses by `%#v`; here a value is the whole of it.  The values of the
types of responses are represented by their encodings.
-/

namespace VF.Fido.Logged

open Client Log

/-- A value in a line. -/
inductive Datum where
  | command (c : UInt8)
  | makeArgs (args : MakeCredArgs)
  | getArgs (args : GetAssertionArgs)
  | pinArgs (args : ClientPINArgs)
  /-- the error for data that cannot be decoded -/
  | undecodable (data : Bytes)
  /-- a response, by its encoding -/
  | response (b : Bytes)
  | bytes (b : Bytes)
  | number (n : Nat)
  | source (s : Option Source)
  | keyHandle (k : KeyHandle)
  | header (h : U2f.Header)
  deriving DecidableEq, Repr

/-- A line. -/
structure Line where
  level : Level
  text : String
  data : List Datum
  deriving DecidableEq, Repr

/-- The state, and all that was logged. -/
structure LWorld where
  world : World
  lines : List Line
  deriving DecidableEq, Repr

/-- Code that logs nothing. -/
def quiet {α : Type} (x : Go World α) : Go LWorld α := fun w => ((x w.world).1, { w with world := (x w.world).2 })

/-- `Printf` of a logger. -/
def log (level : Level) (text : String) (data : List Datum) : Go LWorld Unit :=
  Go.modify (fun w => { w with lines := w.lines ++ [⟨level, text, data⟩] })

/-- ctap.go:19-20: `ctapLogger`, `unsafeCtapLogger` -/
def ctapLog := log .debug
def unsafeCtapLog := log .unsafeL
/-- u2f.go:17 `u2fLogger` -/
def u2fLog := log .debug
/-- fido_client.go:29 `clientLogger` -/
def clientLog := log .debug

/-! ### CTAP2 -/

/-- ctap.go:203-264 `handleMakeCredential` -/
def handleMakeCredential (E : Env) (data : Bytes) : Go LWorld Bytes :=
  match E.decodeMakeCred data with
  | none => Go.throw .checkErr
  | some args => do
    ctapLog "MAKE CREDENTIAL" [.makeArgs args]
    if supported args.params = false then do
      ctapLog "ERROR: Unsupported Algorithm" []
      pure [Ctap.errUnsupportedAlgorithm]
    else do
      let w ← quiet Go.get
      match Ctap.makeCredentialPIN E w.client args with
      | .error e => pure [e]
      | .ok flags =>
        match args.rp with
        | none => Go.throw .nilDeref
        | some rp => do
          let approved ← quiet (approveAccountCreation E rp.name)
          if approved = false then do
            ctapLog "ERROR: Unapproved action (Create account)" []
            pure [Ctap.errOperationDenied]
          else do
            let source ← quiet (newCredentialSource E args.params args.excludeList args.rp args.user)
            match source with
            | none => do
              ctapLog "ERROR: Unsupported Algorithm" []
              pure [Ctap.errUnsupportedAlgorithm]
            | some s => do
              let attested ← quiet (Go.lift (Ctap.makeAttestedCredentialData s))
              let authData := Ctap.makeAuthData E rp.id s (some attested) (flags ||| Ctap.flagUP)
              let cert ← quiet (createCertificate E s.key)
              let sig ← quiet (signWith E s.key (authData ++ args.clientDataHash))
              let response := Cbor.encode (Ctap.makeCredentialItem authData sig cert)
              ctapLog "MAKE CREDENTIAL RESPONSE" [.response response]
              pure (Ctap.success :: response)

/-- ctap.go:283-301 `handleGetInfo` -/
def handleGetInfo : Go LWorld Bytes := do
  let w ← quiet Go.get
  let response := Cbor.encode (Ctap.getInfoItem (if w.client.pinEnabled then some w.client.pinHash.isSome else none))
  ctapLog "GET_INFO RESPONSE" [.response response]
  pure (Ctap.success :: response)

/-- ctap.go:363-377: sign and answer. -/
def finishAssertion (E : Env) (args : GetAssertionArgs) (s : Source) (flags : UInt8) : Go LWorld Bytes := do
  let authData := Ctap.makeAuthData E args.rpId s none flags
  let sig ← quiet (signWith E s.key (Util.concat [authData, args.clientDataHash]))
  let response := Cbor.encode (Ctap.getAssertionItem s.id authData sig)
  ctapLog "GET ASSERTION RESPONSE" [.response response]
  pure (Ctap.success :: response)

/-- fido_client.go:107-119 `GetAssertionSource` -/
def getAssertionSource (E : Env) (rpId : Bytes) (allowList : Option (List Descriptor)) : Go LWorld (Option Source) := do
  let w ← quiet Go.get
  let matching ← quiet (Go.lift (Vault.getMatching rpId allowList 0 w.client.vault))
  match matching with
  | [] => do
    clientLog "ERROR: No Credentials" []
    pure none
  | i :: _ => do
    quiet (update (fun c => { c with vault := bump c.vault i }))
    quiet (saveData E)
    let w ← quiet Go.get
    pure w.client.vault[i]?

/-- ctap.go:325-378 `handleGetAssertion` -/
def handleGetAssertion (E : Env) (data : Bytes) : Go LWorld Bytes :=
  match E.decodeGetAssertion data with
  | none => do
    ctapLog "ERROR" [.undecodable data]
    pure [Ctap.errInvalidCBOR]
  | some args => do
    ctapLog "GET ASSERTION" [.getArgs args]
    let w ← quiet Go.get
    match Ctap.getAssertionPIN E w.client args with
    | .error e => pure [e]
    | .ok flags => do
      let source ← getAssertionSource E args.rpId args.allowList
      unsafeCtapLog "CREDENTIAL SOURCE" [.source source]
      match source with
      | none => do
        ctapLog "ERROR: No Credentials" []
        pure [Ctap.errNoCredentials]
      | some s =>
        if args.up = some false then finishAssertion E args s flags
        else do
          let approved ← quiet (approveAccountLogin E s)
          if approved = false then do
            ctapLog "ERROR: Unapproved action (Account login)" []
            pure [Ctap.errOperationDenied]
          else finishAssertion E args s (flags ||| Ctap.flagUP)

/-- ctap.go:490-497 `handleGetRetries` -/
def handleGetRetries : Go LWorld Bytes := do
  let n ← quiet getPINRetries
  let response := Cbor.encode (Ctap.retriesItem (UInt8.ofInt n))
  ctapLog "CLIENT_PIN_GET_RETRIES" [.response response]
  pure (Ctap.success :: response)

/-- ctap.go:499-511 `handleGetKeyAgreement` -/
def handleGetKeyAgreement : Go LWorld Bytes := do
  let w ← quiet Go.get
  let k := w.client.keyAgreement
  let response := Cbor.encode (Ctap.keyAgreementItem {
    kty := Cose.ktyEC2, alg := Cose.algECDH, crv := 0
    x := some (BigInt.toBytes k.x), y := some (BigInt.toBytes k.y), d := [] })
  ctapLog "CLIENT_PIN_GET_KEY_AGREEMENT RESPONSE" [.response response]
  pure (Ctap.success :: response)

/-- ctap.go:513-534 `handleSetPIN` -/
def handleSetPIN (E : Env) (args : ClientPINArgs) : Go LWorld Bytes := do
  let w ← quiet Go.get
  if w.client.pinHash.isSome then pure [Ctap.errPINAuthInvalid]
  else
    match args.keyAgreement, args.pinAuth, args.newPinEnc with
    | some key, some auth, some enc => do
      let secret ← quiet (Go.lift (Ctap.sharedSecret E w.client key))
      if Ctap.derivePINAuth E secret enc ≠ auth then pure [Ctap.errPINAuthInvalid]
      else do
        let pin ← quiet (Go.lift (Ctap.decryptPIN E secret enc))
        if pin.length < 4 then pure [Ctap.errPINPolicyViolation]
        else do
          quiet (setPINRetries 8)
          quiet (setPINHash E (some ((E.sha256 pin).take 16)))
          ctapLog "SETTING PIN HASH" [.bytes ((E.sha256 pin).take 16)]
          pure [Ctap.success]
    | _, _, _ => pure [Ctap.errMissingParam]

/-- ctap.go:564-586 `handleGetPINToken` -/
def handleGetPINToken (E : Env) (args : ClientPINArgs) : Go LWorld Bytes :=
  match args.pinHashEnc with
  | none => pure [Ctap.errMissingParam]
  | some enc =>
    match args.keyAgreement with
    | none => Go.throw .nilDeref
    | some key =>
      if key.x = none then pure [Ctap.errMissingParam]
      else do
        let n ← quiet getPINRetries
        if n ≤ 0 then pure [Ctap.errPINBlocked]
        else do
          let w ← quiet Go.get
          let secret ← quiet (Go.lift (Ctap.sharedSecret E w.client key))
          let n ← quiet getPINRetries
          quiet (setPINRetries (n - 1))
          let hash ← quiet (Go.lift (decryptAESCBC E secret enc))
          ctapLog "TRYING PIN HASH" [.bytes hash]
          let w ← quiet Go.get
          if hash ≠ w.client.pinHash.getD [] then do
            ctapLog "MISMATCH: Provided PIN doesn't match stored PIN" [.bytes hash, .bytes (w.client.pinHash.getD [])]
            pure [Ctap.errPINInvalid]
          else do
            quiet (setPINRetries 8)
            let token ← quiet (Go.lift (encryptAESCBC E secret w.client.pinToken))
            let response := Cbor.encode (Ctap.pinTokenItem token)
            ctapLog "GET_PIN_TOKEN RESPONSE" [.response response]
            pure (Ctap.success :: response)

/-- ctap.go:486-487: the response of a subcommand is logged and returned. -/
def respond (x : Go LWorld Bytes) : Go LWorld Bytes := do
  let response ← x
  ctapLog "CLIENT_PIN RESPONSE" [.bytes response]
  pure response

/-- ctap.go:457-488 `handleClientPIN`; `handleChangePIN` (536-562) logs nothing. -/
def handleClientPIN (E : Env) (data : Bytes) : Go LWorld Bytes := do
  let w ← quiet Go.get
  if w.client.pinEnabled = false then pure [Ctap.errInvalidCommand]
  else
    match E.decodeClientPIN data with
    | none => do
      ctapLog "ERROR" [.undecodable data]
      pure [Ctap.errInvalidCBOR]
    | some args =>
      if args.pinProtocol ≠ 1 then pure [Ctap.errInvalidParameter]
      else do
        ctapLog "CLIENT_PIN" [.pinArgs args]
        if args.subCommand = 1 then respond handleGetRetries
        else if args.subCommand = 2 then respond handleGetKeyAgreement
        else if args.subCommand = 3 then respond (handleSetPIN E args)
        else if args.subCommand = 4 then respond (quiet (Ctap.handleChangePIN E args))
        else if args.subCommand = 5 then respond (handleGetPINToken E args)
        else pure [Ctap.errMissingParam]

/-- ctap.go:100-115 `HandleMessage` -/
def ctapMessage (E : Env) (data : Bytes) : Go LWorld Bytes :=
  match data with
  | [] => Go.throw .bounds
  | command :: body => do
    ctapLog "CTAP COMMAND" [.command command]
    if command = 0x01 then handleMakeCredential E body
    else if command = 0x04 then handleGetInfo
    else if command = 0x02 then handleGetAssertion E body
    else if command = 0x06 then handleClientPIN E body
    else Go.throw .explicit

/-! ### U2F -/

/-- u2f.go:148-174 `handleU2FRegister` -/
def handleRegister (E : Env) (request : Bytes) : Go LWorld Bytes :=
  if request.length < 32 then Go.throw .bounds
  else
    let challenge := request.take 32
    let application := request.drop 32
    if application.length ≠ 32 then Go.throw .explicit
    else do
      let key ← quiet (newPrivateKey E)
      let pub := ellipticMarshal key.pub.x key.pub.y
      let plain : KeyHandle := { privateKey := some (ecToDER key), applicationID := application }
      let keyHandle ← quiet (U2f.sealKeyHandle E plain)
      u2fLog "KEY HANDLE" [.number keyHandle.length, .bytes keyHandle]
      let approved ← quiet (approve E .u2fRegister [] [])
      if approved = false then pure (Util.toBE16 U2f.swConditionsNotSatisfied)
      else do
        let cert ← quiet (createCertificate E { ecdsa := some key })
        let sig ← quiet (signWith E { ecdsa := some key } (Util.concat [[0], application, challenge, keyHandle, pub]))
        pure (Util.concat [[5], pub, [UInt8.ofNat keyHandle.length], keyHandle, cert, sig, Util.toBE16 U2f.swNoError])

/-- u2f.go:176-213 `handleU2FAuthenticate` -/
def handleAuthenticate (E : Env) (control : UInt8) (request : Bytes) : Go LWorld Bytes := do
  let (challenge, application, handle) ← quiet (Go.lift (U2f.decodeAuthenticate request))
  let w ← quiet Go.get
  let opened ← quiet (Go.lift (U2f.openKeyHandle E w.client handle))
  match opened with
  | none => do
    u2fLog "U2F AUTHENTICATE: Invalid key handle given" [.undecodable handle, .bytes handle]
    pure (Util.toBE16 U2f.swWrongData)
  | some k =>
    match k.privateKey with
    | none => do
      u2fLog "U2F AUTHENTICATE: Invalid input data" [.keyHandle k]
      pure (Util.toBE16 U2f.swWrongData)
    | some der =>
      if k.applicationID ≠ application then do
        u2fLog "U2F AUTHENTICATE: Invalid input data" [.keyHandle k]
        pure (Util.toBE16 U2f.swWrongData)
      else
        match E.parseECDER der with
        | none => Go.throw .checkErr
        | some key =>
          if control = 0x07 then pure (Util.toBE16 U2f.swConditionsNotSatisfied)
          else if control = 0x03 then do
            let approved ← quiet (approve E .u2fAuthenticate [] [])
            if approved = false then pure (Util.toBE16 U2f.swConditionsNotSatisfied)
            else quiet (U2f.finishAuthenticate E key application challenge)
          else if control = 0x08 then quiet (U2f.finishAuthenticate E key application challenge)
          else pure (Util.toBE16 U2f.swWrongLength)

/-- u2f.go:117-123: the choice of the handler. -/
def u2fCommand (E : Env) (header : U2f.Header) (request : Bytes) : Go LWorld Bytes :=
  if header.command = 0x03 then pure (ascii "U2F_V2" ++ Util.toBE16 U2f.swNoError)
  else if header.command = 0x01 then handleRegister E request
  else if header.command = 0x02 then handleAuthenticate E header.param1 request
  else Go.throw .explicit

/-- u2f.go:110-126 `HandleMessage` -/
def u2fMessage (E : Env) (message : Bytes) : Go LWorld Bytes := do
  let (header, request, responseLength) ← quiet (Go.lift (U2f.decodeMessage message))
  u2fLog "MESSAGE" [.header header, .bytes request, .number responseLength.toNat]
  let response ← u2fCommand E header request
  u2fLog "RESPONSE" [.bytes response]
  pure response

/-! ### The device over time -/

/-- One operation of a running process; the calls of the API log nothing. -/
def perform (E : Env) : Op → Go LWorld Reply
  | .ctap m => do
    let b ← ctapMessage E m
    pure (.answer b)
  | .u2f m => do
    let b ← u2fMessage E m
    pure (.answer b)
  | op => quiet (Device.perform E op)

/-- What one event logs; a start logs nothing. -/
def printed (E : Env) (d : Device) : Op → List Line
  | .restart => []
  | op => if d.alive then (perform E op ⟨d.world, []⟩).2.lines else []

/-- What a history logs. -/
def logOf (E : Env) (cfg : Client.Config) : Device → List Op → List Line
  | _, [] => []
  | d, op :: ops => printed E d op ++ logOf E cfg (Device.step E cfg d op).2 ops

end VF.Fido.Logged
