import Verif.Spec.Client
import Verif.Model.Cbor

/-!
# Specification: PIN protocol 1

CTAP 2.0 section 5.5, seen from the device.  AES-CBC uses a zero IV.
-/

namespace VF.Spec.Pin

open VF.Fido

/-- The secret the device shares with the owner of a key agreement key: SHA-256 of the
x-coordinate of the Diffie-Hellman point, as big-endian bytes without leading zero bytes. -/
def Secret (E : Env) (c : Client) (key : EC2Key) (secret : Bytes) : Prop :=
  ∃ b : Bytes, b.head? ≠ some 0 ∧ secret = E.sha256 b ∧
    E.ecdh c.keyAgreement.priv (Cbor.beNat (key.x.getD [])) (Cbor.beNat (key.y.getD [])) =
      some (Cbor.beNat b)

/-- The proof that a message comes from somebody who knows the secret. -/
def auth (E : Env) (secret msg : Bytes) : Bytes := (E.hmac secret msg).take 16

/-- The stored form of a PIN. -/
def hash (E : Env) (pin : Bytes) : Bytes := (E.sha256 pin).take 16

/-- A PIN padded with zero bytes (at least one). -/
def Padded (pin padded : Bytes) : Prop := (0 : UInt8) ∉ pin ∧ ∃ rest, padded = pin ++ 0 :: rest

/-! ### The platform's side -/

/-- The secret as the platform computes it: SHA-256 of the x-coordinate in 32 bytes. -/
def PlatformSecret (E : Env) (platform : ECDHKey) (x y : Nat) (secret : Bytes) : Prop :=
  ∃ b : Bytes, b.length = 32 ∧ E.ecdh platform.priv x y = some (Cbor.beNat b) ∧
    secret = E.sha256 b

/-- The platform's key agreement key as it is sent: COSE key type 2, algorithm -25, curve P-256,
coordinates of 32 bytes. -/
def PlatformKey (platform : ECDHKey) (key : EC2Key) : Prop :=
  ∃ xb yb : Bytes, xb.length = 32 ∧ Cbor.beNat xb = platform.x ∧
    yb.length = 32 ∧ Cbor.beNat yb = platform.y ∧
    key = { kty := 2, alg := -25, crv := 1, x := some xb, y := some yb, d := [] }

/-- The PIN with zero bytes up to 64 bytes. -/
def pad64 (pin : Bytes) : Bytes := pin ++ List.replicate (64 - pin.length) 0

def getKeyAgreement : ClientPINArgs :=
  { pinProtocol := 1, subCommand := 2, keyAgreement := none, pinAuth := none, newPinEnc := none
    pinHashEnc := none }

def setPIN (E : Env) (key : EC2Key) (secret pin : Bytes) : ClientPINArgs :=
  { pinProtocol := 1, subCommand := 3, keyAgreement := some key
    pinAuth := some (auth E secret (E.cbcEncrypt secret (pad64 pin)))
    newPinEnc := some (E.cbcEncrypt secret (pad64 pin))
    pinHashEnc := none }

def changePIN (E : Env) (key : EC2Key) (secret old new : Bytes) : ClientPINArgs :=
  { pinProtocol := 1, subCommand := 4, keyAgreement := some key
    pinAuth := some (auth E secret
      (E.cbcEncrypt secret (pad64 new) ++ E.cbcEncrypt secret (hash E old)))
    newPinEnc := some (E.cbcEncrypt secret (pad64 new))
    pinHashEnc := some (E.cbcEncrypt secret (hash E old)) }

def getPINToken (E : Env) (key : EC2Key) (secret pin : Bytes) : ClientPINArgs :=
  { pinProtocol := 1, subCommand := 5, keyAgreement := some key, pinAuth := none
    newPinEnc := none, pinHashEnc := some (E.cbcEncrypt secret (hash E pin)) }

/-- A ClientPIN request as it is sent. -/
def request (args : ClientPINArgs) : Bytes :=
  0x06 :: VF.Cbor.encode (Platform.clientPINItem args)

end VF.Spec.Pin
