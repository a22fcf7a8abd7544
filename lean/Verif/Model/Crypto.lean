import Verif.Model.Env
import Verif.Model.Cbor
import Verif.Model.BigInt

/-!
# Model of crypto/crypto.go

Functions that use randomness take the number of the next draw and say how many they used by
returning the next number.
-/

namespace VF.Fido

/-- `aes.NewCipher` accepts keys of 16, 24 or 32 bytes. -/
def aesKeyOk (key : Bytes) : Bool := key.length == 16 || key.length == 24 || key.length == 32

/-- crypto.go:53-66 `Encrypt`: ciphertext, nonce and next draw, or an error for a bad key size
(before the nonce is drawn). -/
def encrypt (E : Env) (key data : Bytes) (rnd : Nat) : Option (Bytes × Bytes × Nat) :=
  if aesKeyOk key then
    some (E.gcmSeal key (E.rand rnd 12) data, E.rand rnd 12, rnd + 1)
  else none

/-- crypto.go:68-83 `Decrypt`: `gcm.Open` panics on a nonce that is not 12 bytes long, and
returns an error if the data does not authenticate. -/
def decrypt (E : Env) (key data nonce : Bytes) : Res (Option Bytes) :=
  if aesKeyOk key then
    if nonce.length = 12 then .ok (E.gcmOpen key nonce data) else .panic .library
  else .ok none

/-- crypto.go:123-127 `Seal` -/
def sealBox (E : Env) (key data : Bytes) (rnd : Nat) : Res (Box × Nat) :=
  match encrypt E key data rnd with
  | some (ct, iv, rnd') => .ok ({ data := ct, iv := iv }, rnd')
  | none => .panic .checkErr

/-- crypto.go:129-133 `Open` -/
def openBox (E : Env) (key : Bytes) (box : Box) : Res Bytes :=
  match decrypt E key box.data box.iv with
  | .ok (some d) => .ok d
  | .ok none => .panic .checkErr
  | .panic c => .panic c

/-- crypto.go:142-150 `EncryptAESCBC`: panics on a bad key size and on partial blocks. -/
def encryptAESCBC (E : Env) (key data : Bytes) : Res Bytes :=
  if aesKeyOk key then
    if data.length % 16 = 0 then .ok (E.cbcEncrypt key data) else .panic .library
  else .panic .checkErr

/-- crypto.go:152-160 `DecryptAESCBC` -/
def decryptAESCBC (E : Env) (key data : Bytes) : Res Bytes :=
  if aesKeyOk key then
    if data.length % 16 = 0 then .ok (E.cbcDecrypt key data) else .panic .library
  else .panic .checkErr

/-- crypto.go:174-177 `ECDH`: the x-coordinate without leading zero bytes; a point off the curve
panics in the library. -/
def ecdhSecret (E : Env) (key : ECDHKey) (x y : Nat) : Res Bytes :=
  match E.ecdh key.priv x y with
  | some s => .ok (BigInt.toBytes s)
  | none => .panic .library

/-- crypto.go:85-90 `SignECDSA` -/
def signECDSA (E : Env) (k : ECPriv) (data : Bytes) (rnd : Nat) : Res Bytes :=
  match E.signEC k (E.sha256 data) rnd with
  | some s => .ok s
  | none => .panic .checkErr

/-- crypto.go:97-99 `SignEd25519`; `ed25519.Sign` panics on a key of the wrong size. -/
def signEd25519 (E : Env) (k data : Bytes) : Res Bytes :=
  if k.length = 64 then .ok (E.signEd k data) else .panic .library

/-- crypto.go:105-110 `SignRSA` -/
def signRSA (E : Env) (k : RSAPriv) (data : Bytes) (rnd : Nat) : Res Bytes :=
  match E.signRSA k (E.sha256 data) rnd with
  | some s => .ok s
  | none => .panic .checkErr

/-- crypto.go:43-45 `EncodePublicKey` and u2f.go:155 `elliptic.Marshal`: uncompressed point.
(`elliptic.Marshal` panics for points off the curve; the code only passes generated keys.) -/
def ellipticMarshal (x y : Nat) : Bytes := 4 :: (BigInt.fill 32 x ++ BigInt.fill 32 y)

/-- `x509.MarshalECPrivateKey` (u2f.go:156) for a P-256 key: SEQUENCE { INTEGER 1,
OCTET STRING (32 bytes of d), [0] OID prime256v1, [1] BIT STRING (uncompressed point) }.
Other curves do not occur (the key is generated by crypto.go:25-29). -/
def ecToDER (k : ECPriv) : Bytes :=
  [0x30, 0x77, 0x02, 0x01, 0x01, 0x04, 0x20] ++ BigInt.fill 32 k.d ++
  [0xa0, 0x0a, 0x06, 0x08, 0x2a, 0x86, 0x48, 0xce, 0x3d, 0x03, 0x01, 0x07] ++
  [0xa1, 0x44, 0x03, 0x42, 0x00] ++ ellipticMarshal k.pub.x k.pub.y

end VF.Fido
