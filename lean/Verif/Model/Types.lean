import Verif.Base.Go
import Verif.Base.Cbor

/-!
# Data types of the authenticator

Byte slices are lists; where the Go code tells a nil slice from an empty one, or a nil pointer
from a value, the model uses `Option`.  Go strings are byte strings.  `big.Int` values are
natural numbers (the code never uses negative ones).
-/

namespace VF.Fido

/-- `ecdsa.PublicKey`.  `p256` says whether `Curve == elliptic.P256()`. -/
structure ECPub where
  p256 : Bool
  x : Nat
  y : Nat
  deriving DecidableEq, Repr

/-- `ecdsa.PrivateKey` -/
structure ECPriv where
  pub : ECPub
  d : Nat
  deriving DecidableEq, Repr

/-- `rsa.PublicKey` -/
structure RSAPub where
  n : Nat
  e : Int
  deriving DecidableEq, Repr

/-- `rsa.PrivateKey`.  `precomp` holds `Precomputed.Dp/Dq/Qinv` once `Precompute` was called. -/
structure RSAPriv where
  pub : RSAPub
  d : Nat
  primes : List Nat
  precomp : Option (Nat × Nat × Nat)
  deriving DecidableEq, Repr

/-- cose.go:43-47 `SupportedCOSEPrivateKey`; an `ed25519.PrivateKey` is its 64 bytes. -/
structure PrivKey where
  ecdsa : Option ECPriv := none
  ed25519 : Option Bytes := none
  rsa : Option RSAPriv := none
  deriving DecidableEq, Repr

/-- cose.go:100-104 `SupportedCOSEPublicKey` -/
structure PubKey where
  ecdsa : Option ECPub := none
  ed25519 : Option Bytes := none
  rsa : Option RSAPub := none
  deriving DecidableEq, Repr

/-- crypto.go:163-166 `ECDHKey` -/
structure ECDHKey where
  priv : Bytes
  x : Nat
  y : Nat
  deriving DecidableEq, Repr

/-- webauthn.go:10-13 -/
structure RPEntity where
  id : Bytes
  name : Bytes
  deriving DecidableEq, Repr

/-- webauthn.go:20-24 -/
structure UserEntity where
  id : Bytes
  displayName : Bytes
  name : Bytes
  deriving DecidableEq, Repr

/-- webauthn.go:33-37 -/
structure Descriptor where
  type : Bytes
  id : Bytes
  transports : List Bytes
  deriving DecidableEq, Repr

/-- webauthn.go:39-42; `COSEAlgorithmID` is an `int32`. -/
structure CredParam where
  type : Bytes
  alg : Int
  deriving DecidableEq, Repr

/-- webauthn.go:44-47; u2f.go:189 tells a nil `PrivateKey` from an empty one. -/
structure KeyHandle where
  privateKey : Option Bytes
  applicationID : Bytes
  deriving DecidableEq, Repr

/-- cose.go:142-149 `COSEEC2Key`; ctap.go:565 tells a nil `X` from an empty one; an absent `D` is
empty (`omitempty`). -/
structure EC2Key where
  kty : Int
  alg : Int
  crv : Int
  x : Option Bytes
  y : Option Bytes
  d : Bytes
  deriving DecidableEq, Repr

/-- cose.go:235-241 `COSEOKPKey` -/
structure OKPKey where
  kty : Int
  alg : Int
  crv : Int
  x : Option Bytes
  d : Bytes
  deriving DecidableEq, Repr

/-- cose.go:280-291 `COSERSAKey`; `E` may be nil (see `encodeRSAPublicKey`). -/
structure RSAKey where
  kty : Int
  alg : Int
  n : Option Bytes
  e : Option Bytes
  d : Bytes
  p : Bytes
  q : Bytes
  dp : Bytes
  dq : Bytes
  qinv : Bytes
  deriving DecidableEq, Repr

/-- crypto.go:118-121 `EncryptedBox` -/
structure Box where
  data : Bytes
  iv : Bytes
  deriving DecidableEq, Repr

/-- identity_vault.go:13-20 `CredentialSource`.  The signature counter is an `int32`; it is kept
as its 32-bit pattern, which is what goes into the authenticator data. -/
structure Source where
  type : Bytes
  id : Bytes
  key : PrivKey
  rp : Option RPEntity
  user : Option UserEntity
  counter : UInt32
  deriving DecidableEq, Repr

/-- saved_state.go:14-21 `SavedCredentialSource` -/
structure SavedSource where
  type : Bytes
  id : Bytes
  key : Bytes
  rp : RPEntity
  user : UserEntity
  counter : UInt32
  deriving DecidableEq, Repr

/-- saved_state.go:23-31 `FIDODeviceConfig` -/
structure SavedState where
  encryptionKey : Bytes
  cert : Bytes
  certKey : Bytes
  authCounter : UInt32
  pinEnabled : Bool
  pinHash : Option Bytes
  sources : List SavedSource
  deriving DecidableEq, Repr

/-- saved_state.go:33-39 `PassphraseEncryptedBlob` -/
structure Blob where
  salt : Bytes
  encryptionKey : Bytes
  keyNonce : Bytes
  encryptedData : Bytes
  dataNonce : Bytes
  deriving DecidableEq, Repr

/-- ctap.go:171-181 `makeCredentialArgs` (with the fields the code reads; `Extensions` and
`Options`, ctap.go:165-169, are decoded but never read). -/
structure MakeCredArgs where
  clientDataHash : Bytes
  rp : Option RPEntity
  user : Option UserEntity
  params : List CredParam
  excludeList : List Descriptor
  pinAuth : Option Bytes
  pinProtocol : UInt32
  deriving DecidableEq, Repr

/-- ctap.go:303-315 `getAssertionArgs`; `up` is `Options.UserPresence`. -/
structure GetAssertionArgs where
  rpId : Bytes
  clientDataHash : Bytes
  allowList : Option (List Descriptor)
  up : Option Bool
  pinAuth : Option Bytes
  pinProtocol : UInt32
  deriving DecidableEq, Repr

/-- ctap.go:398-405 `clientPINArgs` -/
structure ClientPINArgs where
  pinProtocol : UInt32
  subCommand : UInt32
  keyAgreement : Option EC2Key
  pinAuth : Option Bytes
  newPinEnc : Option Bytes
  pinHashEnc : Option Bytes
  deriving DecidableEq, Repr

/-- fido_client.go:22-27 `ClientAction` -/
inductive Action where
  | u2fRegister
  | u2fAuthenticate
  | makeCredential
  | getAssertion
  deriving DecidableEq, Repr

/-- One call of the approver (fido_client.go:31-33) and its answer. -/
structure Ask where
  action : Action
  rp : Bytes
  user : Bytes
  answer : Bool
  deriving DecidableEq, Repr

/-- `pkix.Name`, of which the code uses four fields (attestation.go:49-54, 86-89) -/
structure CertName where
  organization : List Bytes
  country : List Bytes
  commonName : Bytes
  unit : List Bytes
  deriving DecidableEq, Repr

/-- A template for `x509.CreateCertificate` (attestation.go:46-61, 84-96).  Left out: `Version`, which the library ignores
(it makes version 3), and `BasicConstraintsValid`, which is always set. -/
structure CertTemplate where
  serial : Nat
  subject : CertName
  /-- `NotBefore` and `NotAfter`, in seconds -/
  notBefore : Nat
  notAfter : Nat
  isCA : Bool
  /-- `KeyUsage`: digital signatures, certificates -/
  signs : Bool
  signsCerts : Bool
  /-- `ExtKeyUsage` -/
  clientAuth : Bool
  serverAuth : Bool
  deriving DecidableEq, Repr

/-- What a certificate says: its fields, and the name of who issued it. -/
structure CertInfo where
  fields : CertTemplate
  issuer : CertName
  deriving DecidableEq, Repr

end VF.Fido
