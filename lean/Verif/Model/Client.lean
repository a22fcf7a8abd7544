import Verif.Model.SavedState

/-!
# Model of fido_client/fido_client.go
-/

namespace VF.Fido

/-- fido_client.go:41-56 `DefaultFIDOClient` (without the approver and the data saver).  The
certificate is its raw bytes. -/
structure Client where
  deviceKey : Bytes
  cert : Bytes
  certKey : PrivKey
  authCounter : UInt32
  pinEnabled : Bool
  pinToken : Bytes
  keyAgreement : ECDHKey
  pinRetries : Int
  pinHash : Option Bytes
  vault : List Source
  deriving DecidableEq, Repr

/-- The running device with its surroundings: the client, what the data saver holds, the number
of random draws so far, and the questions asked so far (latest last). -/
structure World where
  client : Client
  store : Option Bytes
  rnd : Nat
  asks : List Ask
  deriving DecidableEq, Repr

namespace Client

/-- Use a random draw. -/
def draw : Go World Nat := fun w => (.ok w.rnd, { w with rnd := w.rnd + 1 })

/-- Update the client. -/
def update (f : Client → Client) : Go World Unit :=
  Go.modify (fun w => { w with client := f w.client })

/-- fido_client.go:219-230 the state `exportData` saves -/
def exportState (c : Client) : Res SavedState := do
  let key ← Cose.marshalPrivate c.certKey
  let sources ← Vault.exportSources c.vault
  .ok { encryptionKey := c.deviceKey, cert := c.cert, certKey := key,
        authCounter := c.authCounter, pinEnabled := c.pinEnabled, pinHash := c.pinHash,
        sources := sources }

/-- fido_client.go:219-234 `exportData` and 258-261 `saveData` -/
def saveData (E : Env) : Go World Unit := fun w =>
  match exportState w.client with
  | .panic c => (.panic c, w)
  | .ok state =>
    match Saved.encryptState E state E.passphrase w.rnd with
    | none => (.panic .checkErr, w)
    | some (data, rnd) => (.ok (), { w with store := some data, rnd := rnd })

/-- fido_client.go:236-256 `importData` on the given client: the new client.  The error of
`vault.Import` is ignored (line 254). -/
def importData (E : Env) (data : Bytes) (c : Client) : Res Client := do
  match ← Saved.decryptState E data E.passphrase with
  | none => .panic .checkErr
  | some state =>
    if E.parseCert state.cert = false then .panic .checkErr
    else
      match ← Vault.importKey E state.certKey with
      | none => .panic .checkErr
      | some key => do
        let (vault, _) ← Vault.importSources E [] state.sources
        .ok { c with
              deviceKey := state.encryptionKey
              cert := state.cert
              certKey := key
              authCounter := state.authCounter
              pinEnabled := state.pinEnabled
              pinHash := state.pinHash
              vault := vault }

/-- What `NewDefaultClient` is called with (fido_client.go:58-62). -/
structure Config where
  cert : Bytes
  certKey : PrivKey
  deviceKey : Bytes
  enablePIN : Bool

/-- fido_client.go:65-78: the client before `loadData`, using two draws from `rnd` on. -/
def fresh (E : Env) (cfg : Config) (rnd : Nat) : Client :=
  { deviceKey := cfg.deviceKey, cert := cfg.cert, certKey := cfg.certKey, authCounter := 1,
    pinEnabled := cfg.enablePIN, pinToken := E.rand rnd 16, keyAgreement := E.genECDH (rnd + 1),
    pinRetries := 8, pinHash := none, vault := [] }

/-- fido_client.go:58-81 `NewDefaultClient` and 263-268 `loadData`. -/
def start (E : Env) (cfg : Config) (store : Option Bytes) (rnd : Nat) : Res Client :=
  match store with
  | none => .ok (fresh E cfg rnd)
  | some data => importData E data (fresh E cfg rnd)

/-- fido_client.go:31-33: ask the approver and remember the question. -/
def approve (E : Env) (action : Action) (rp user : Bytes) : Go World Bool := fun w =>
  let answer := E.approve w.asks action rp user
  (.ok answer, { w with asks := w.asks ++ [{ action, rp, user, answer }] })

/-- fido_client.go:92-98 (and the same loop in ctap.go:210-215) -/
def supported (params : List CredParam) : Bool :=
  params.any (fun p => p.alg == Cose.algES256 && p.type == ascii "public-key")

/-- fido_client.go:87-105 `NewCredentialSource` -/
def newCredentialSource (E : Env) (params : List CredParam) (_excludeList : List Descriptor)
    (rp : Option RPEntity) (user : Option UserEntity) : Go World (Option Source) :=
  if supported params = false then pure none
  else do
    let n ← draw
    let _ ← draw
    let s := Vault.newIdentity E rp user n
    update (fun c => { c with vault := Vault.addIdentity c.vault s })
    saveData E
    pure (some s)

/-- fido_client.go:116: increment the counter of the credential at position `i`. -/
def bump (vault : List Source) (i : Nat) : List Source :=
  vault.modify i (fun s => { s with counter := s.counter + 1 })

/-- fido_client.go:107-119 `GetAssertionSource`: the first matching credential, as it is after
the counter was incremented. -/
def getAssertionSource (E : Env) (rpId : Bytes) (allowList : Option (List Descriptor)) :
    Go World (Option Source) := do
  let w ← Go.get
  let matching ← Go.lift (Vault.getMatching rpId allowList 0 w.client.vault)
  match matching with
  | [] => pure none
  | i :: _ => do
    update (fun c => { c with vault := bump c.vault i })
    saveData E
    let w ← Go.get
    pure w.client.vault[i]?

/-- fido_client.go:121-126 `ApproveAccountCreation` -/
def approveAccountCreation (E : Env) (rpName : Bytes) : Go World Bool :=
  approve E .makeCredential rpName []

/-- fido_client.go:128-134 `ApproveAccountLogin` -/
def approveAccountLogin (E : Env) (s : Source) : Go World Bool :=
  match s.rp, s.user with
  | some rp, some user => approve E .getAssertion rp.name user.name
  | _, _ => Go.throw .nilDeref

/-- fido_client.go:140-143 `EnablePIN` -/
def enablePIN (E : Env) : Go World Unit := do
  update (fun c => { c with pinEnabled := true })
  saveData E

/-- fido_client.go:145-148 `DisablePIN` -/
def disablePIN (E : Env) : Go World Unit := do
  update (fun c => { c with pinEnabled := false })
  saveData E

/-- fido_client.go:163-166 `SetPINHash` -/
def setPINHash (E : Env) (hash : Option Bytes) : Go World Unit := do
  update (fun c => { c with pinHash := hash })
  saveData E

/-- fido_client.go:158-161 `SetPIN` -/
def setPIN (E : Env) (pin : Bytes) : Go World Unit :=
  setPINHash E (some ((E.sha256 pin).take 16))

/-- fido_client.go:168-171 `PINRetries` -/
def getPINRetries : Go World Int := do
  let w ← Go.get
  if 0 < w.client.pinRetries ∧ w.client.pinRetries ≤ 8 then pure w.client.pinRetries
  else Go.throw .explicit

/-- fido_client.go:173-175 `SetPINRetries` -/
def setPINRetries (n : Int) : Go World Unit := update (fun c => { c with pinRetries := n })

/-- fido_client.go:193-195 `NewPrivateKey` -/
def newPrivateKey (E : Env) : Go World ECPriv := do
  let n ← draw
  pure (E.genEC n)

/-- fido_client.go:197-201 `NewAuthenticationCounterId` -/
def newAuthCounter : Go World UInt32 := do
  let w ← Go.get
  update (fun c => { c with authCounter := c.authCounter + 1 })
  pure w.client.authCounter

/-- fido_client.go:203-207 `CreateAttestationCertificiate` -/
def createCertificate (E : Env) (k : PrivKey) : Go World Bytes := do
  let n ← draw
  let w ← Go.get
  let cert ← Go.lift (Cose.createAttestationCert E w.client.cert w.client.certKey k n)
  match cert with
  | some c => pure c
  | none => Go.throw .checkErr

/-- cose.go:88-98 `Sign`, using a draw. -/
def signWith (E : Env) (k : PrivKey) (data : Bytes) : Go World Bytes := do
  let n ← draw
  Go.lift (Cose.sign E k data n)

/-- fido_client.go:270-276 `Identities` -/
def identities (c : Client) : List Source := c.vault

/-- fido_client.go:278-284 `DeleteIdentity` -/
def deleteIdentity (E : Env) (id : Bytes) : Go World Bool := do
  let w ← Go.get
  let r := Vault.deleteIdentity w.client.vault id
  update (fun c => { c with vault := r.1 })
  if r.2 then do
    saveData E
    pure true
  else pure false

end Client
end VF.Fido
