import Verif.Model.Vault

/-!
# Model of identities/saved_state.go
-/

namespace VF.Fido.Saved

/-- saved_state.go:41-68 `EncryptWithPassphrase`: four random draws (salt, data key, and one
nonce in each `Encrypt`); `none` is the returned error. -/
def encryptWithPassphrase (E : Env) (passphrase data : Bytes) (rnd : Nat) :
    Option (Bytes × Nat) := do
  let salt := E.rand rnd 16
  let kek := E.scrypt passphrase salt
  let key := E.rand (rnd + 1) 32
  let (encKey, keyNonce, rnd) ← encrypt E kek key (rnd + 2)
  let (encData, dataNonce, rnd) ← encrypt E key data rnd
  some (E.renderBlob { salt := salt, encryptionKey := encKey, keyNonce := keyNonce,
                       encryptedData := encData, dataNonce := dataNonce }, rnd)

/-- saved_state.go:70-87 `DecryptWithPassphrase` -/
def decryptWithPassphrase (E : Env) (passphrase data : Bytes) : Res (Option Bytes) :=
  match E.parseBlob data with
  | none => .ok none
  | some blob => do
    let kek := E.scrypt passphrase blob.salt
    match ← decrypt E kek blob.encryptionKey blob.keyNonce with
    | none => .ok none
    | some key => decrypt E key blob.encryptedData blob.dataNonce

/-- saved_state.go:89-99 `EncryptFIDOState` -/
def encryptState (E : Env) (s : SavedState) (passphrase : Bytes) (rnd : Nat) :
    Option (Bytes × Nat) :=
  encryptWithPassphrase E passphrase (E.renderState s) rnd

/-- saved_state.go:101-112 `DecryptFIDOState` -/
def decryptState (E : Env) (data passphrase : Bytes) : Res (Option SavedState) := do
  match ← decryptWithPassphrase E passphrase data with
  | none => .ok none
  | some b => .ok (E.parseState b)

end VF.Fido.Saved
