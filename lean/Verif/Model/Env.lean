import Verif.Model.Types

/-!
# The world outside the modelled code

Cryptography, certificates, JSON and the *decoding* half of CBOR are library code.  They enter
the model as the fields of an arbitrary `Env`: every theorem holds for all of them.  The laws a
theorem needs (`Verif.Spec.Laws`) are hypotheses, and `Verif.Proofs.Toy` exhibits an `Env`
satisfying all of them at once.

Randomness is a stream of draws: a call that uses randomness gets the number of the draw, and
every call uses a new number.  The approver may answer as it likes, depending on everything
asked so far.
-/

namespace VF.Fido

structure Env where
  /-- `rand.Read` (crypto.go:183-188): draw number and length -/
  rand : Nat → Nat → Bytes
  /-- scalar base multiplication on P-256: the public point of a private scalar.  Only used to
  say which key pairs are valid. -/
  ecPublic : Nat → Nat × Nat
  /-- `ecdsa.GenerateKey(elliptic.P256(), rand.Reader)` (crypto.go:25-29) -/
  genEC : Nat → ECPriv
  /-- `elliptic.GenerateKey(elliptic.P256(), rand.Reader)` (crypto.go:168-172) -/
  genECDH : Nat → ECDHKey
  /-- SHA-256 -/
  sha256 : Bytes → Bytes
  /-- HMAC-SHA-256: key, data -/
  hmac : Bytes → Bytes → Bytes
  /-- AES-CBC with zero IV on whole blocks: key, data -/
  cbcEncrypt : Bytes → Bytes → Bytes
  cbcDecrypt : Bytes → Bytes → Bytes
  /-- AES-GCM: key, nonce, data -/
  gcmSeal : Bytes → Bytes → Bytes → Bytes
  gcmOpen : Bytes → Bytes → Bytes → Option Bytes
  /-- `scrypt.Key(passphrase, salt, 32768, 8, 1, 32)` -/
  scrypt : Bytes → Bytes → Bytes
  /-- `ecdsa.SignASN1` / `VerifyASN1` on a digest; signing uses a random draw -/
  signEC : ECPriv → Bytes → Nat → Option Bytes
  verifyEC : ECPub → Bytes → Bytes → Bool
  /-- public half of an Ed25519 seed, `ed25519.Sign`, `ed25519.Verify` -/
  edPublic : Bytes → Bytes
  signEd : Bytes → Bytes → Bytes
  verifyEd : Bytes → Bytes → Bytes → Bool
  /-- `rsa.SignPSS` / `VerifyPSS` on a digest -/
  signRSA : RSAPriv → Bytes → Nat → Option Bytes
  verifyRSA : RSAPub → Bytes → Bytes → Bool
  /-- `Qinv` as computed by `rsa.PrivateKey.Precompute` -/
  rsaQinv : Nat → Nat → Nat
  /-- `elliptic.P256().Params().ScalarMult`: x-coordinate, or `none` where it panics (the remote
  point is not on the curve) -/
  ecdh : Bytes → Nat → Nat → Option Nat
  /-- `x509.ParseECPrivateKey` -/
  parseECDER : Bytes → Option ECPriv
  /-- `time.Now()`, in seconds, at the time of a draw; and `AddDate` with that many years -/
  now : Nat → Nat
  addYears : Nat → Nat → Nat
  /-- `x509.CreateCertificate`: template, parent certificate (`none` if that is the template), subject key, issuer key,
  draw -/
  createCert : CertTemplate → Option Bytes → PubKey → PrivKey → Nat → Option Bytes
  /-- does `x509.ParseCertificate` accept the bytes? -/
  parseCert : Bytes → Bool
  /-- the subject key of a certificate, and whether its signature verifies under a key; only
  used by specifications -/
  certSubject : Bytes → Option PubKey
  certSignedBy : Bytes → PubKey → Bool
  /-- the other fields of a certificate; only used by specifications -/
  certInfo : Bytes → Option CertInfo
  /-- `json.Marshal`/`json.Unmarshal` of a `FIDODeviceConfig` -/
  renderState : SavedState → Bytes
  parseState : Bytes → Option SavedState
  /-- `json.Marshal`/`json.Unmarshal` of a `PassphraseEncryptedBlob` -/
  renderBlob : Blob → Bytes
  parseBlob : Bytes → Option Blob
  /-- `cbor.Unmarshal` into the structures of the code -/
  decodeKeyHeader : Bytes → Option (Int × Int)
  decodeEC2Key : Bytes → Option EC2Key
  decodeOKPKey : Bytes → Option OKPKey
  decodeRSAKey : Bytes → Option RSAKey
  decodeBox : Bytes → Option Box
  decodeKeyHandle : Bytes → Option KeyHandle
  decodeMakeCred : Bytes → Option MakeCredArgs
  decodeGetAssertion : Bytes → Option GetAssertionArgs
  decodeClientPIN : Bytes → Option ClientPINArgs
  /-- `ApproveClientAction` (fido_client.go:31-33): the questions asked so far (latest last), the
  action, relying party and user names -/
  approve : List Ask → Action → Bytes → Bytes → Bool
  /-- `Passphrase()` (fido_client.go:38) -/
  passphrase : Bytes

end VF.Fido
