import Verif.Model.Device

/-!
# Overlapping requests

`usb_device.go:88` handles every report in a goroutine of its own and `channel.go:27-28` locks one
channel only, so requests on different channels are handled at the same time on the same
`DefaultFIDOClient`, which has no lock.  Here the handlers of `ctap.go`, `u2f.go` and
`fido_client.go` are written again with one atomic step for each access to shared memory, and any
number of them run interleaved in any order.

`Verif.Props.Overlap` proves that a handler running alone does what `Verif.Model.Device` says.

Simplified: accesses are sequentially consistent.  Fields that do not change while the
process runs (keys, certificate, id and relying party of a credential) are read together with others.
The array behind the slice of credentials is not shared between old and new versions of the slice.
The question to the user and the answer are one step.
-/

namespace VF.Fido

/-- The memory of the process.  `world` has all but the credentials (`world.client.vault` is not
used); `heap` has the `CredentialSource` structures (identity_vault.go:12-19), a pointer being a
position in it; `slots` is `IdentityVault.CredentialSources` (identity_vault.go:30-32). -/
structure Mem where
  world : World
  heap : List Source
  slots : List Nat

/-- A handler at some point of its work: finished, panicked, or about to do an atomic step, which
changes the memory by `upd` and goes on depending on what the memory was. -/
inductive Prog (α : Type) where
  | ret (a : α)
  | fail (c : Cause)
  | act (upd : Mem → Mem) (next : Mem → Prog α)

namespace Prog

variable {α β : Type}

/-- Sequencing. -/
def bind : Prog α → (α → Prog β) → Prog β
  | ret a, f => f a
  | fail c, _ => fail c
  | act upd next, f => act upd (fun m => (next m).bind f)

instance : Monad Prog where
  pure := Prog.ret
  bind := Prog.bind

/-- Local computation. -/
def lift : Res α → Prog α
  | .ok a => ret a
  | .panic c => fail c

/-- Read. -/
def look (f : Mem → α) : Prog α := act id (fun m => ret (f m))

/-- Read a field of the client. -/
def field (f : Client → α) : Prog α := look (fun m => f m.world.client)

/-- Write. -/
def write (f : Mem → Mem) : Prog Unit := act f (fun _ => ret ())

/-- Write a field of the client. -/
def setField (f : Client → Client) : Prog Unit :=
  write (fun m => { m with world := { m.world with client := f m.world.client } })

/-- Run without interruption. -/
def run : Prog α → Mem → Res α × Mem
  | ret a, m => (.ok a, m)
  | fail c, m => (.panic c, m)
  | act upd next, m => (next m).run (upd m)

end Prog

namespace Overlap

open Prog

/-- A random draw. -/
def draw : Prog Nat :=
  act (fun m => { m with world := { m.world with rnd := m.world.rnd + 1 } }) (fun m => ret m.world.rnd)

/-- Follow a pointer to a credential. -/
def deref (p : Nat) : Prog Source :=
  act id (fun m =>
    match m.heap[p]? with
    | some s => ret s
    | none => fail .nilDeref)

/-- fido_client.go:31-33: ask the user. -/
def approve (E : Env) (action : Action) (rp user : Bytes) : Prog Bool :=
  act (fun m => { m with world := { m.world with
      asks := m.world.asks ++ [{ action, rp, user, answer := E.approve m.world.asks action rp user }] } })
    (fun m => ret (E.approve m.world.asks action rp user))

/-- identity_vault.go:89-104 `Export`: each credential is read by itself. -/
def exportSources : List Nat → Prog (List SavedSource)
  | [] => pure []
  | p :: rest => do
    let s ← deref p
    let key ← lift (Cose.marshalPrivate s.key)
    match s.rp, s.user with
    | some rp, some user => do
      let tail ← exportSources rest
      pure ({ type := s.type, id := s.id, key := key, rp := rp, user := user,
              counter := s.counter } :: tail)
    | _, _ => fail .nilDeref

/-- fido_client.go:219-230: collect the state to be saved. -/
def exportState : Prog SavedState := do
  let certKey ← field (·.certKey)
  let key ← lift (Cose.marshalPrivate certKey)
  let slots ← look (·.slots)
  let sources ← exportSources slots
  let deviceKey ← field (·.deviceKey)
  let cert ← field (·.cert)
  let authCounter ← field (·.authCounter)
  let pinEnabled ← field (·.pinEnabled)
  let pinHash ← field (·.pinHash)
  pure { encryptionKey := deviceKey, cert := cert, certKey := key, authCounter := authCounter,
         pinEnabled := pinEnabled, pinHash := pinHash, sources := sources }

/-- fido_client.go:231-233: encrypt it; the random draws are taken together. -/
def encryptState (E : Env) (state : SavedState) : Prog Bytes :=
  act (fun m =>
      match Saved.encryptState E state E.passphrase m.world.rnd with
      | none => m
      | some (_, rnd) => { m with world := { m.world with rnd := rnd } })
    (fun m =>
      match Saved.encryptState E state E.passphrase m.world.rnd with
      | none => fail .checkErr
      | some (data, _) => ret data)

/-- fido_client.go:260: hand it to the data saver. -/
def putData (data : Bytes) : Prog Unit :=
  write (fun m => { m with world := { m.world with store := some data } })

/-- fido_client.go:258-261 `saveData` -/
def saveData (E : Env) : Prog Unit := do
  let state ← exportState
  let data ← encryptState E state
  putData data

/-- identity_vault.go:43-50: a new structure. -/
def alloc (s : Source) : Prog Nat :=
  act (fun m => { m with heap := m.heap ++ [s] }) (fun m => ret m.heap.length)

/-- identity_vault.go:55-57 `AddIdentity`: the slice is read, and the longer slice is written. -/
def addIdentity (p : Nat) : Prog Unit := do
  let slots ← look (·.slots)
  write (fun m => { m with slots := slots ++ [p] })

/-- fido_client.go:87-105 `NewCredentialSource`, identity_vault.go:39-53 `NewIdentity`: a pointer to
the new credential. -/
def newCredentialSource (E : Env) (params : List CredParam) (_excludeList : List Descriptor)
    (rp : Option RPEntity) (user : Option UserEntity) : Prog (Option Nat) :=
  if Client.supported params = false then pure none
  else do
    let n ← draw
    let k ← draw
    let p ← alloc { type := ascii "public-key", id := E.rand n 16,
                    key := { ecdsa := some (E.genEC k) }, rp := rp, user := user, counter := 0 }
    addIdentity p
    saveData E
    pure (some p)

/-- identity_vault.go:70-87 `GetMatchingCredentialSources`: pointers. -/
def getMatching (rpId : Bytes) (allowList : Option (List Descriptor)) : List Nat → Prog (List Nat)
  | [] => pure []
  | p :: rest => do
    let s ← deref p
    match s.rp with
    | none => fail .nilDeref
    | some rp => do
      let tail ← getMatching rpId allowList rest
      if rp.id = rpId ∧ Vault.allowed allowList s.id = true then pure (p :: tail) else pure tail

/-- fido_client.go:116 `credentialSource.SignatureCounter++`: a read and a write. -/
def bump (p : Nat) : Prog Unit := do
  let s ← deref p
  write (fun m => { m with heap := m.heap.modify p (fun t => { t with counter := s.counter + 1 }) })

/-- fido_client.go:107-119 `GetAssertionSource` -/
def getAssertionSource (E : Env) (rpId : Bytes) (allowList : Option (List Descriptor)) :
    Prog (Option Nat) := do
  let slots ← look (·.slots)
  let matching ← getMatching rpId allowList slots
  match matching with
  | [] => pure none
  | p :: _ => do
    bump p
    saveData E
    pure (some p)

/-- fido_client.go:121-126 `ApproveAccountCreation` -/
def approveAccountCreation (E : Env) (rpName : Bytes) : Prog Bool :=
  approve E .makeCredential rpName []

/-- fido_client.go:128-134 `ApproveAccountLogin` -/
def approveAccountLogin (E : Env) (p : Nat) : Prog Bool := do
  let s ← deref p
  match s.rp, s.user with
  | some rp, some user => approve E .getAssertion rp.name user.name
  | _, _ => fail .nilDeref

/-- fido_client.go:140-143 `EnablePIN` -/
def enablePIN (E : Env) : Prog Unit := do
  setField (fun c => { c with pinEnabled := true })
  saveData E

/-- fido_client.go:145-148 `DisablePIN` -/
def disablePIN (E : Env) : Prog Unit := do
  setField (fun c => { c with pinEnabled := false })
  saveData E

/-- fido_client.go:163-166 `SetPINHash` -/
def setPINHash (E : Env) (hash : Option Bytes) : Prog Unit := do
  setField (fun c => { c with pinHash := hash })
  saveData E

/-- fido_client.go:158-161 `SetPIN` -/
def setPIN (E : Env) (pin : Bytes) : Prog Unit :=
  setPINHash E (some ((E.sha256 pin).take 16))

/-- fido_client.go:168-171 `PINRetries`: the counter is read three times. -/
def getPINRetries : Prog Int := do
  let n ← field (·.pinRetries)
  if 0 < n then do
    let n ← field (·.pinRetries)
    if n ≤ 8 then field (·.pinRetries) else fail .explicit
  else fail .explicit

/-- fido_client.go:173-175 `SetPINRetries` -/
def setPINRetries (n : Int) : Prog Unit := setField (fun c => { c with pinRetries := n })

/-- fido_client.go:193-195 `NewPrivateKey` -/
def newPrivateKey (E : Env) : Prog ECPriv := do
  let n ← draw
  pure (E.genEC n)

/-- fido_client.go:197-201 `NewAuthenticationCounterId`: the counter is read, and then read and
written by `++`. -/
def newAuthCounter : Prog UInt32 := do
  let num ← field (·.authCounter)
  let n ← field (·.authCounter)
  setField (fun c => { c with authCounter := n + 1 })
  pure num

/-- fido_client.go:203-207 `CreateAttestationCertificiate` -/
def createCertificate (E : Env) (k : PrivKey) : Prog Bytes := do
  let n ← draw
  let cert ← field (·.cert)
  let certKey ← field (·.certKey)
  let cert ← lift (Cose.createAttestationCert E cert certKey k n)
  match cert with
  | some c => pure c
  | none => fail .checkErr

/-- cose.go:88-98 `Sign` -/
def signWith (E : Env) (k : PrivKey) (data : Bytes) : Prog Bytes := do
  let n ← draw
  lift (Cose.sign E k data n)

/-- identity_vault.go:59-68 `DeleteIdentity`: the pointers before the one found. -/
def findIdentity (id : Bytes) : List Nat → Prog (Option Nat)
  | [] => pure none
  | p :: rest => do
    let s ← deref p
    if s.id = id then pure (some 0)
    else do
      let i ← findIdentity id rest
      pure (i.map (· + 1))

/-- fido_client.go:278-284 `DeleteIdentity` and identity_vault.go:59-68 -/
def deleteIdentity (E : Env) (id : Bytes) : Prog Bool := do
  let slots ← look (·.slots)
  let found ← findIdentity id slots
  match found, slots.getLast? with
  | some i, some last => do
    write (fun m => { m with slots := (slots.set i last).dropLast })
    saveData E
    pure true
  | _, _ => pure false

/-! ### ctap.go -/

open Ctap (success errInvalidCommand errInvalidParameter errInvalidCBOR errMissingParam
  errUnsupportedAlgorithm errOperationDenied errNoCredentials errPINInvalid errPINBlocked
  errPINAuthInvalid errPINRequired errPINPolicyViolation flagUP flagUV derivePINAuth)

/-- ctap.go:221-233 -/
def makeCredentialPIN (E : Env) (args : MakeCredArgs) : Prog (Except UInt8 UInt8) := do
  let enabled ← field (·.pinEnabled)
  if enabled = false then pure (.ok 0)
  else
    match args.pinAuth with
    | some auth =>
      if args.pinProtocol = 1 then do
        let token ← field (·.pinToken)
        if derivePINAuth E token args.clientDataHash = auth then pure (.ok flagUV)
        else pure (.error errPINAuthInvalid)
      else pure (.error errPINAuthInvalid)
    | none => do
      let hash ← field (·.pinHash)
      if hash.isSome then pure (.error errPINRequired) else pure (.ok 0)

/-- ctap.go:246-263: attest the new credential. -/
def attest (E : Env) (args : MakeCredArgs) (rp : RPEntity) (flags : UInt8) (p : Nat) : Prog Bytes := do
  let s ← deref p
  let attested ← lift (Ctap.makeAttestedCredentialData s)
  let authData := Ctap.makeAuthData E rp.id s (some attested) (flags ||| flagUP)
  let cert ← createCertificate E s.key
  let sig ← signWith E s.key (authData ++ args.clientDataHash)
  pure (success :: Cbor.encode (Ctap.makeCredentialItem authData sig cert))

/-- ctap.go:203-264 `handleMakeCredential` -/
def handleMakeCredential (E : Env) (data : Bytes) : Prog Bytes :=
  match E.decodeMakeCred data with
  | none => fail .checkErr
  | some args =>
    if Client.supported args.params = false then pure [errUnsupportedAlgorithm]
    else do
      let pin ← makeCredentialPIN E args
      match pin with
      | .error e => pure [e]
      | .ok flags =>
        match args.rp with
        | none => fail .nilDeref
        | some rp => do
          let approved ← approveAccountCreation E rp.name
          if approved = false then pure [errOperationDenied]
          else do
            let source ← newCredentialSource E args.params args.excludeList args.rp args.user
            match source with
            | none => pure [errUnsupportedAlgorithm]
            | some p => attest E args rp flags p

/-- ctap.go:283-301 `handleGetInfo` -/
def handleGetInfo : Prog Bytes := do
  let enabled ← field (·.pinEnabled)
  if enabled then do
    let hash ← field (·.pinHash)
    pure (success :: Cbor.encode (Ctap.getInfoItem (some hash.isSome)))
  else pure (success :: Cbor.encode (Ctap.getInfoItem none))

/-- ctap.go:335-346 -/
def getAssertionPIN (E : Env) (args : GetAssertionArgs) : Prog (Except UInt8 UInt8) := do
  let enabled ← field (·.pinEnabled)
  if enabled = false then pure (.ok 0)
  else
    match args.pinAuth with
    | none => pure (.ok 0)
    | some auth =>
      if args.pinProtocol ≠ 1 then pure (.error errPINAuthInvalid)
      else do
        let token ← field (·.pinToken)
        if derivePINAuth E token args.clientDataHash = auth then pure (.ok flagUV)
        else pure (.error errPINAuthInvalid)

/-- ctap.go:363-377; the counter is read here. -/
def finishAssertion (E : Env) (args : GetAssertionArgs) (p : Nat) (flags : UInt8) : Prog Bytes := do
  let s ← deref p
  let authData := Ctap.makeAuthData E args.rpId s none flags
  let sig ← signWith E s.key (Util.concat [authData, args.clientDataHash])
  pure (success :: Cbor.encode (Ctap.getAssertionItem s.id authData sig))

/-- ctap.go:325-378 `handleGetAssertion` -/
def handleGetAssertion (E : Env) (data : Bytes) : Prog Bytes :=
  match E.decodeGetAssertion data with
  | none => pure [errInvalidCBOR]
  | some args => do
    let pin ← getAssertionPIN E args
    match pin with
    | .error e => pure [e]
    | .ok flags => do
      let source ← getAssertionSource E args.rpId args.allowList
      match source with
      | none => pure [errNoCredentials]
      | some p =>
        if args.up = some false then finishAssertion E args p flags
        else do
          let approved ← approveAccountLogin E p
          if approved = false then pure [errOperationDenied]
          else finishAssertion E args p (flags ||| flagUP)

/-- ctap.go:430-433 `getPINSharedSecret` -/
def sharedSecret (E : Env) (k : EC2Key) : Prog Bytes := do
  let own ← field (·.keyAgreement)
  let s ← lift (ecdhSecret E own (BigInt.ofBytes (k.x.getD [])) (BigInt.ofBytes (k.y.getD [])))
  pure (E.sha256 s)

/-- ctap.go:490-497 `handleGetRetries` -/
def handleGetRetries : Prog Bytes := do
  let n ← getPINRetries
  pure (success :: Cbor.encode (Ctap.retriesItem (UInt8.ofInt n)))

/-- ctap.go:499-511 `handleGetKeyAgreement` -/
def handleGetKeyAgreement : Prog Bytes := do
  let k ← field (·.keyAgreement)
  pure (success :: Cbor.encode (Ctap.keyAgreementItem {
    kty := Cose.ktyEC2, alg := Cose.algECDH, crv := 0
    x := some (BigInt.toBytes k.x), y := some (BigInt.toBytes k.y), d := [] }))

/-- ctap.go:513-534 `handleSetPIN` -/
def handleSetPIN (E : Env) (args : ClientPINArgs) : Prog Bytes := do
  let hash ← field (·.pinHash)
  if hash.isSome then pure [errPINAuthInvalid]
  else
    match args.keyAgreement, args.pinAuth, args.newPinEnc with
    | some key, some auth, some enc => do
      let secret ← sharedSecret E key
      if derivePINAuth E secret enc ≠ auth then pure [errPINAuthInvalid]
      else do
        let pin ← lift (Ctap.decryptPIN E secret enc)
        if pin.length < 4 then pure [errPINPolicyViolation]
        else do
          setPINRetries 8
          setPINHash E (some ((E.sha256 pin).take 16))
          pure [success]
    | _, _, _ => pure [errMissingParam]

/-- ctap.go:536-562 `handleChangePIN` -/
def handleChangePIN (E : Env) (args : ClientPINArgs) : Prog Bytes :=
  match args.keyAgreement, args.pinAuth with
  | some key, some auth => do
    let n ← getPINRetries
    if n = 0 then pure [errPINBlocked]
    else do
      let secret ← sharedSecret E key
      if derivePINAuth E secret (args.newPinEnc.getD [] ++ args.pinHashEnc.getD []) ≠ auth then
        pure [errPINAuthInvalid]
      else do
        let n ← getPINRetries
        setPINRetries (n - 1)
        let hash ← lift (decryptAESCBC E secret (args.pinHashEnc.getD []))
        let own ← field (·.pinHash)
        if own.getD [] ≠ hash then pure [errPINInvalid]
        else do
          setPINRetries 8
          let pin ← lift (Ctap.decryptPIN E secret (args.newPinEnc.getD []))
          if pin.length < 4 then pure [errPINPolicyViolation]
          else do
            setPINHash E (some ((E.sha256 pin).take 16))
            pure [success]
  | _, _ => pure [errMissingParam]

/-- ctap.go:571-585: count the attempt, compare, and answer. -/
def attempt (E : Env) (secret enc : Bytes) (n : Int) : Prog Bytes := do
  setPINRetries (n - 1)
  let hash ← lift (decryptAESCBC E secret enc)
  let own ← field (·.pinHash)
  if hash ≠ own.getD [] then pure [errPINInvalid]
  else do
    setPINRetries 8
    let token ← field (·.pinToken)
    let sent ← lift (encryptAESCBC E secret token)
    pure (success :: Cbor.encode (Ctap.pinTokenItem sent))

/-- ctap.go:564-586 `handleGetPINToken` -/
def handleGetPINToken (E : Env) (args : ClientPINArgs) : Prog Bytes :=
  match args.pinHashEnc with
  | none => pure [errMissingParam]
  | some enc =>
    match args.keyAgreement with
    | none => fail .nilDeref
    | some key =>
      if key.x = none then pure [errMissingParam]
      else do
        let n ← getPINRetries
        if n ≤ 0 then pure [errPINBlocked]
        else do
          let secret ← sharedSecret E key
          let n ← getPINRetries
          attempt E secret enc n

/-- ctap.go:457-488 `handleClientPIN` -/
def handleClientPIN (E : Env) (data : Bytes) : Prog Bytes := do
  let enabled ← field (·.pinEnabled)
  if enabled = false then pure [errInvalidCommand]
  else
    match E.decodeClientPIN data with
    | none => pure [errInvalidCBOR]
    | some args =>
      if args.pinProtocol ≠ 1 then pure [errInvalidParameter]
      else if args.subCommand = 1 then handleGetRetries
      else if args.subCommand = 2 then handleGetKeyAgreement
      else if args.subCommand = 3 then handleSetPIN E args
      else if args.subCommand = 4 then handleChangePIN E args
      else if args.subCommand = 5 then handleGetPINToken E args
      else pure [errMissingParam]

/-- ctap.go:100-115 `HandleMessage` -/
def handleCtap (E : Env) (data : Bytes) : Prog Bytes :=
  match data with
  | [] => fail .bounds
  | command :: body =>
    if command = 0x01 then handleMakeCredential E body
    else if command = 0x04 then handleGetInfo
    else if command = 0x02 then handleGetAssertion E body
    else if command = 0x06 then handleClientPIN E body
    else fail .explicit

/-! ### u2f.go -/

open U2f (swNoError swWrongLength swConditionsNotSatisfied swWrongData)

/-- u2f.go:128-131 `sealKeyHandle` -/
def sealKeyHandle (E : Env) (k : KeyHandle) : Prog Bytes := do
  let key ← field (·.deviceKey)
  let n ← draw
  let (box, _) ← lift (sealBox E key (Cbor.encode (U2f.keyHandleItem k)) n)
  pure (Cbor.encode (U2f.boxItem box))

/-- u2f.go:133-146 `openKeyHandle` -/
def openKeyHandle (E : Env) (b : Bytes) : Prog (Option KeyHandle) :=
  match E.decodeBox b with
  | none => pure none
  | some box => do
    let key ← field (·.deviceKey)
    let data ← lift (openBox E key box)
    pure (E.decodeKeyHandle data)

/-- u2f.go:148-174 `handleU2FRegister` -/
def handleRegister (E : Env) (request : Bytes) : Prog Bytes :=
  if request.length < 32 then fail .bounds
  else
    let challenge := request.take 32
    let application := request.drop 32
    if application.length ≠ 32 then fail .explicit
    else do
      let key ← newPrivateKey E
      let pub := ellipticMarshal key.pub.x key.pub.y
      let plain : KeyHandle := { privateKey := some (ecToDER key), applicationID := application }
      let keyHandle ← sealKeyHandle E plain
      let approved ← approve E .u2fRegister [] []
      if approved = false then pure (Util.toBE16 swConditionsNotSatisfied)
      else do
        let cert ← createCertificate E { ecdsa := some key }
        let sig ← signWith E { ecdsa := some key }
          (Util.concat [[0], application, challenge, keyHandle, pub])
        pure (Util.concat [[5], pub, [UInt8.ofNat keyHandle.length], keyHandle, cert, sig,
          Util.toBE16 swNoError])

/-- u2f.go:205-208 -/
def finishAuthenticate (E : Env) (key : ECPriv) (application challenge : Bytes) : Prog Bytes := do
  let counter ← newAuthCounter
  let sig ← signWith E { ecdsa := some key }
    (Util.concat [application, [1], Util.toBE32 counter, challenge])
  pure (Util.concat [[1], Util.toBE32 counter, sig, Util.toBE16 swNoError])

/-- u2f.go:176-213 `handleU2FAuthenticate` -/
def handleAuthenticate (E : Env) (control : UInt8) (request : Bytes) : Prog Bytes := do
  let (challenge, application, handle) ← lift (U2f.decodeAuthenticate request)
  let opened ← openKeyHandle E handle
  match opened with
  | none => pure (Util.toBE16 swWrongData)
  | some k =>
    match k.privateKey with
    | none => pure (Util.toBE16 swWrongData)
    | some der =>
      if k.applicationID ≠ application then pure (Util.toBE16 swWrongData)
      else
        match E.parseECDER der with
        | none => fail .checkErr
        | some key =>
          if control = 0x07 then pure (Util.toBE16 swConditionsNotSatisfied)
          else if control = 0x03 then do
            let approved ← approve E .u2fAuthenticate [] []
            if approved = false then pure (Util.toBE16 swConditionsNotSatisfied)
            else finishAuthenticate E key application challenge
          else if control = 0x08 then finishAuthenticate E key application challenge
          else pure (Util.toBE16 swWrongLength)

/-- u2f.go:110-126 `HandleMessage` -/
def handleU2f (E : Env) (message : Bytes) : Prog Bytes := do
  let (header, request, _) ← lift (U2f.decodeMessage message)
  if header.command = 0x03 then pure (ascii "U2F_V2" ++ Util.toBE16 swNoError)
  else if header.command = 0x01 then handleRegister E request
  else if header.command = 0x02 then handleAuthenticate E header.param1 request
  else fail .explicit

/-! ### The process -/

/-- One operation, as in `Device.perform`. -/
def perform (E : Env) : Op → Prog Reply
  | .ctap m => do
    let b ← handleCtap E m
    pure (.answer b)
  | .u2f m => do
    let b ← handleU2f E m
    pure (.answer b)
  | .enablePIN => do
    enablePIN E
    pure .done
  | .disablePIN => do
    disablePIN E
    pure .done
  | .setPIN pin => do
    setPIN E pin
    pure .done
  | .deleteIdentity id => do
    let b ← deleteIdentity E id
    pure (.deleted b)
  | .restart => pure .started

/-- A goroutine with the operation it was started for: it works, has its result, or was ended by a
panic or the end of the process. -/
inductive Thread where
  | working (op : Op) (p : Prog Reply)
  | ready (op : Op) (r : Reply)
  | gone (op : Op)

/-- The process with its goroutines, oldest first; those that ended stay in the list. -/
structure Process where
  mem : Mem
  threads : List Thread
  alive : Bool

/-- What can happen: an operation begins, a goroutine does a step, the process is ended (if
running) and started again. -/
inductive Event where
  | begin (op : Op)
  | turn (i : Nat)
  | restart

/-- The memory after a start, with the credentials of the client loaded. -/
def load (w : World) : Mem :=
  { world := w, heap := w.client.vault, slots := List.range w.client.vault.length }

/-- What becomes of a goroutine after a step. -/
def settle (op : Op) : Prog Reply → Thread
  | .ret r => .ready op r
  | .fail _ => .gone op
  | p => .working op p

/-- A goroutine when the process ends. -/
def Thread.ended : Thread → Thread
  | .working op _ => .gone op
  | t => t

/-- Goroutine `i`, which is at `p`, has taken its step; a panic ends the process, since no
goroutine recovers. -/
def Process.moved (s : Process) (i : Nat) (op : Op) (mem : Mem) (p : Prog Reply) : Process :=
  match p with
  | .fail _ => { mem := mem, threads := (s.threads.set i (.gone op)).map Thread.ended, alive := false }
  | p => { s with mem := mem, threads := s.threads.set i (settle op p) }

/-- One event. -/
def Process.step (E : Env) (cfg : Client.Config) (s : Process) : Event → Process
  | .begin op =>
    if s.alive ∧ op ≠ .restart then
      ({ s with threads := s.threads ++ [Thread.gone op] } : Process).moved s.threads.length op s.mem
        (perform E op)
    else s
  | .turn i =>
    match s.threads[i]? with
    | some (.working op (.act upd next)) =>
      if s.alive then s.moved i op (upd s.mem) (next s.mem) else s
    | _ => s
  | .restart =>
    match Client.start E cfg s.mem.world.store s.mem.world.rnd with
    | .ok c =>
      { mem := load { s.mem.world with client := c, rnd := s.mem.world.rnd + 2 }
        threads := s.threads.map Thread.ended, alive := true }
    | .panic _ =>
      { mem := { s.mem with world := { s.mem.world with rnd := s.mem.world.rnd + 2 } }
        threads := s.threads.map Thread.ended, alive := false }

/-- A history of events. -/
def Process.run (E : Env) (cfg : Client.Config) (s : Process) (evs : List Event) : Process :=
  evs.foldl (Process.step E cfg) s

/-- The process after the first start. -/
def boot (E : Env) (cfg : Client.Config) : Process :=
  { mem := load (Device.boot E cfg).world, threads := [], alive := true }

end Overlap
end VF.Fido
