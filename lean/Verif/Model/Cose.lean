import Verif.Model.Crypto

/-!
# Model of cose/cose.go and identities/attestation.go
-/

namespace VF.Fido.Cose

/-- cose.go:19-25 -/
def algES256 : Int := -7
def algECDH : Int := -25
def algEd25519 : Int := -8
def algPS256 : Int := -37
/-- cose.go:29-32 -/
def crvP256 : Int := 1
def crvEd25519 : Int := 6
/-- cose.go:36-41 -/
def ktyOKP : Int := 1
def ktyEC2 : Int := 2
def ktyRSA : Int := 3

/-! ### Equality, Public, Sign, Verify -/

/-- `ecdsa.PublicKey.Equal`: coordinates and curve -/
def ecPubEqual (a b : ECPub) : Bool := a.x == b.x && a.y == b.y && a.p256 == b.p256
/-- `ecdsa.PrivateKey.Equal` -/
def ecPrivEqual (a b : ECPriv) : Bool := ecPubEqual a.pub b.pub && a.d == b.d
/-- `rsa.PublicKey.Equal` -/
def rsaPubEqual (a b : RSAPub) : Bool := a.n == b.n && a.e == b.e
/-- `rsa.PrivateKey.Equal`: everything but the precomputed values -/
def rsaPrivEqual (a b : RSAPriv) : Bool :=
  rsaPubEqual a.pub b.pub && a.d == b.d && a.primes == b.primes

/-- cose.go:49-71 `SupportedCOSEPrivateKey.Equal` -/
def privEqual (a b : PrivKey) : Bool :=
  (match a.ecdsa, b.ecdsa with
    | none, none => true | some x, some y => ecPrivEqual x y | _, _ => false) &&
  (match a.ed25519, b.ed25519 with
    | none, none => true | some x, some y => x == y | _, _ => false) &&
  (match a.rsa, b.rsa with
    | none, none => true | some x, some y => rsaPrivEqual x y | _, _ => false)

/-- cose.go:106-128 `SupportedCOSEPublicKey.Equal`.  Line 118 passes the pointer
`otherKey.Ed25519` to `ed25519.PublicKey.Equal`, whose type test for `PublicKey` fails. -/
def pubEqual (a b : PubKey) : Bool :=
  (match a.ecdsa, b.ecdsa with
    | none, none => true | some x, some y => ecPubEqual x y | _, _ => false) &&
  (match a.ed25519, b.ed25519 with
    | none, none => true | some _, some _ => false | _, _ => false) &&
  (match a.rsa, b.rsa with
    | none, none => true | some x, some y => rsaPubEqual x y | _, _ => false)

/-- `ed25519.PrivateKey.Public()`: a 32-byte copy of `priv[32:]`; slicing panics on keys shorter
than 32 bytes. -/
def edPublicOf (k : Bytes) : Res Bytes :=
  if k.length < 32 then .panic .bounds
  else .ok ((k.drop 32).take 32 ++ List.replicate (32 - ((k.drop 32).take 32).length) 0)

/-- cose.go:73-86 `Public` -/
def publicOf (k : PrivKey) : Res PubKey :=
  match k.ecdsa, k.ed25519, k.rsa with
  | some ec, _, _ => .ok { ecdsa := some ec.pub }
  | none, some ed, _ => do
    let p ← edPublicOf ed
    .ok { ed25519 := some p }
  | none, none, some r => .ok { rsa := some r.pub }
  | none, none, none => .panic .explicit

/-- cose.go:88-98 `Sign`; `rnd` is the random draw it uses. -/
def sign (E : Env) (k : PrivKey) (data : Bytes) (rnd : Nat) : Res Bytes :=
  match k.ecdsa, k.ed25519, k.rsa with
  | some ec, _, _ => signECDSA E ec data rnd
  | none, some ed, _ => signEd25519 E ed data
  | none, none, some r => signRSA E r data rnd
  | none, none, none => .panic .explicit

/-- cose.go:130-140 `Verify` (crypto.go:92-95, 101-103, 112-116; `ed25519.Verify` panics on a
public key that is not 32 bytes long). -/
def verify (E : Env) (k : PubKey) (data sig : Bytes) : Res Bool :=
  match k.ecdsa, k.ed25519, k.rsa with
  | some ec, _, _ => .ok (E.verifyEC ec (E.sha256 data) sig)
  | none, some ed, _ => if ed.length = 32 then .ok (E.verifyEd ed data sig) else .panic .library
  | none, none, some r => .ok (E.verifyRSA r (E.sha256 data) sig)
  | none, none, none => .panic .explicit

/-! ### Encoding -/

/-- A byte slice field: nil is encoded as null. -/
def bytesOrNull : Option Bytes → Cbor
  | some b => .bytes b
  | none => .null

/-- A byte slice field with `omitempty`. -/
def omitEmpty (key : Int) (b : Bytes) : List (Cbor × Cbor) :=
  if b.isEmpty then [] else [(.int key, .bytes b)]

/-- `MarshalCBOR` of a `COSEEC2Key` (cose.go:142-149) -/
def ec2Item (k : EC2Key) : Cbor :=
  .map ([(.int 1, .int k.kty), (.int 3, .int k.alg), (.int (-1), .int k.crv),
    (.int (-2), bytesOrNull k.x), (.int (-3), bytesOrNull k.y)] ++ omitEmpty (-4) k.d)

/-- `MarshalCBOR` of a `COSEOKPKey` (cose.go:235-241) -/
def okpItem (k : OKPKey) : Cbor :=
  .map ([(.int 1, .int k.kty), (.int 3, .int k.alg), (.int (-1), .int k.crv),
    (.int (-2), bytesOrNull k.x)] ++ omitEmpty (-4) k.d)

/-- `MarshalCBOR` of a `COSERSAKey` (cose.go:280-291) -/
def rsaItem (k : RSAKey) : Cbor :=
  .map ([(.int 1, .int k.kty), (.int 3, .int k.alg), (.int (-1), bytesOrNull k.n),
    (.int (-2), bytesOrNull k.e)] ++ omitEmpty (-3) k.d ++ omitEmpty (-4) k.p ++
    omitEmpty (-5) k.q ++ omitEmpty (-6) k.dp ++ omitEmpty (-7) k.dq ++ omitEmpty (-8) k.qinv)

/-- cose.go:160-177 `encodeECDSAPublicKey` -/
def encodeECDSAPublicKey (k : ECPub) : Res Bytes :=
  if k.p256 then
    .ok (Cbor.encode (ec2Item {
      kty := ktyEC2, alg := algES256, crv := crvP256
      x := some (BigInt.toBytes k.x), y := some (BigInt.toBytes k.y), d := [] }))
  else .panic .explicit

/-- cose.go:179-194 `decodeECDSAPublicKey` -/
def decodeECDSAPublicKey (E : Env) (b : Bytes) : Res ECPub :=
  match E.decodeEC2Key b with
  | none => .panic .checkErr
  | some k =>
    if k.crv = crvP256 then
      .ok { p256 := true, x := BigInt.ofBytes (k.x.getD []), y := BigInt.ofBytes (k.y.getD []) }
    else .panic .checkErr

/-- cose.go:196-214 `encodeECDSAPrivateKey` -/
def encodeECDSAPrivateKey (k : ECPriv) : Res Bytes :=
  if k.pub.p256 then
    .ok (Cbor.encode (ec2Item {
      kty := ktyEC2, alg := algES256, crv := crvP256
      x := some (BigInt.toBytes k.pub.x), y := some (BigInt.toBytes k.pub.y)
      d := BigInt.toBytes k.d }))
  else .panic .explicit

/-- cose.go:216-233 `decodeECDSAPrivateKey` -/
def decodeECDSAPrivateKey (E : Env) (b : Bytes) : Res ECPriv :=
  match E.decodeEC2Key b with
  | none => .panic .checkErr
  | some k =>
    if k.crv = crvP256 then
      .ok { pub := { p256 := true, x := BigInt.ofBytes (k.x.getD []),
                     y := BigInt.ofBytes (k.y.getD []) },
            d := BigInt.ofBytes k.d }
    else .panic .checkErr

/-- cose.go:243-251 `encodeEd25519PublicKey` -/
def encodeEd25519PublicKey (k : Bytes) : Bytes :=
  Cbor.encode (okpItem { kty := ktyOKP, alg := algEd25519, crv := crvEd25519, x := some k, d := [] })

/-- cose.go:253-258 `decodeEd25519PublicKey` -/
def decodeEd25519PublicKey (E : Env) (b : Bytes) : Res Bytes :=
  match E.decodeOKPKey b with
  | none => .panic .checkErr
  | some k => .ok (k.x.getD [])

/-- cose.go:260-270 `encodeEd215519PrivateKey`; `Seed()` is `priv[:32]`. -/
def encodeEd25519PrivateKey (k : Bytes) : Res Bytes := do
  let pub ← edPublicOf k
  .ok (Cbor.encode (okpItem {
    kty := ktyOKP, alg := algEd25519, crv := crvEd25519
    x := some pub, d := k.take 32 }))

/-- cose.go:272-278 `decodeEd25519PrivateKey`; `NewKeyFromSeed` panics unless the seed has 32
bytes and appends the public key computed from it. -/
def decodeEd25519PrivateKey (E : Env) (b : Bytes) : Res Bytes :=
  match E.decodeOKPKey b with
  | none => .panic .checkErr
  | some k => if k.d.length = 32 then .ok (k.d ++ E.edPublic k.d) else .panic .library

/-- cose.go:293-301 `encodeRSAPublicKey`.  `util.ToBE` of a Go `int` writes nothing, and the
bytes of the untouched buffer are a nil slice. -/
def encodeRSAPublicKey (k : RSAPub) : Bytes :=
  Cbor.encode (rsaItem {
    kty := ktyRSA, alg := algPS256, n := some (BigInt.toBytes k.n), e := none
    d := [], p := [], q := [], dp := [], dq := [], qinv := [] })

/-- cose.go:303-312 `decodeRSAPublicKey`: `util.FromBE[int]` fails for every input, because
`binary.Read` cannot read a Go `int`. -/
def decodeRSAPublicKey (E : Env) (b : Bytes) : Res RSAPub :=
  match E.decodeRSAKey b with
  | none => .panic .checkErr
  | some _ => .panic .checkErr

/-- cose.go:314-329 `encodeRSAPrivateKey`: panics without two primes or precomputed values. -/
def encodeRSAPrivateKey (k : RSAPriv) : Res Bytes :=
  match k.primes, k.precomp with
  | p :: q :: _, some (dp, dq, qinv) =>
    .ok (Cbor.encode (rsaItem {
      kty := ktyRSA, alg := algPS256
      n := some (BigInt.toBytes k.pub.n)
      e := some (Util.toBE32 (UInt32.ofInt k.pub.e))
      d := BigInt.toBytes k.d, p := BigInt.toBytes p, q := BigInt.toBytes q
      dp := BigInt.toBytes dp, dq := BigInt.toBytes dq, qinv := BigInt.toBytes qinv }))
  | _ :: _ :: _, none => .panic .nilDeref
  | _, _ => .panic .bounds

/-- cose.go:331-348 `decodeRSAPrivateKey`; the library's `Precompute` fails on primes below 2. -/
def decodeRSAPrivateKey (E : Env) (b : Bytes) : Res RSAPriv :=
  match E.decodeRSAKey b with
  | none => .panic .checkErr
  | some k => do
    let (e, _) ← Util.readBE32 (k.e.getD [])
    let p := BigInt.ofBytes k.p
    let q := BigInt.ofBytes k.q
    let d := BigInt.ofBytes k.d
    if p ≤ 1 ∨ q ≤ 1 then .panic .library
    else .ok { pub := { n := BigInt.ofBytes (k.n.getD []), e := e.toInt32.toInt }, d := d,
               primes := [p, q], precomp := some (d % (p - 1), d % (q - 1), E.rsaQinv p q) }

/-- cose.go:350-360 `MarshalCOSEPublicKey` -/
def marshalPublic (k : PubKey) : Res Bytes :=
  match k.ecdsa, k.ed25519, k.rsa with
  | some ec, _, _ => encodeECDSAPublicKey ec
  | none, some ed, _ => .ok (encodeEd25519PublicKey ed)
  | none, none, some r => .ok (encodeRSAPublicKey r)
  | none, none, none => .panic .explicit

/-- cose.go:367-388 `UnmarshalCOSEPublicKey`; `none` is the returned error. -/
def unmarshalPublic (E : Env) (b : Bytes) : Res (Option PubKey) :=
  match E.decodeKeyHeader b with
  | none => .ok none
  | some (_, alg) =>
    if alg = algES256 then do
      let k ← decodeECDSAPublicKey E b
      .ok (some { ecdsa := some k })
    else if alg = algEd25519 then do
      let k ← decodeEd25519PublicKey E b
      .ok (some { ed25519 := some k })
    else if alg = algPS256 then do
      let k ← decodeRSAPublicKey E b
      .ok (some { rsa := some k })
    else .ok none

/-- cose.go:390-400 `MarshalCOSEPrivateKey` -/
def marshalPrivate (k : PrivKey) : Res Bytes :=
  match k.ecdsa, k.ed25519, k.rsa with
  | some ec, _, _ => encodeECDSAPrivateKey ec
  | none, some ed, _ => encodeEd25519PrivateKey ed
  | none, none, some r => encodeRSAPrivateKey r
  | none, none, none => .panic .explicit

/-- cose.go:402-423 `UnmarshalCOSEPrivateKey` -/
def unmarshalPrivate (E : Env) (b : Bytes) : Res (Option PrivKey) :=
  match E.decodeKeyHeader b with
  | none => .ok none
  | some (_, alg) =>
    if alg = algES256 then do
      let k ← decodeECDSAPrivateKey E b
      .ok (some { ecdsa := some k })
    else if alg = algEd25519 then do
      let k ← decodeEd25519PrivateKey E b
      .ok (some { ed25519 := some k })
    else if alg = algPS256 then do
      let k ← decodeRSAPrivateKey E b
      .ok (some { rsa := some k })
    else .ok none

/-! ### identities/attestation.go -/

/-- attestation.go:16-27 `extractPublicKey`: the key handed to `x509.CreateCertificate`; kept in
a structure with only that key set. -/
def extractPublicKey (k : PubKey) : Res PubKey :=
  match k.ecdsa, k.ed25519, k.rsa with
  | some ec, _, _ => .ok { ecdsa := some ec }
  | none, some ed, _ => .ok { ed25519 := some ed }
  | none, none, some r => .ok { rsa := some r }
  | none, none, none => .panic .explicit

/-- attestation.go:28-39 `extractPrivateKey` -/
def extractPrivateKey (k : PrivKey) : Res PrivKey :=
  match k.ecdsa, k.ed25519, k.rsa with
  | some ec, _, _ => .ok { ecdsa := some ec }
  | none, some ed, _ => .ok { ed25519 := some ed }
  | none, none, some r => .ok { rsa := some r }
  | none, none, none => .panic .explicit

/-- attestation.go:46-61: the template of an attestation certificate.  Simplified: the two calls of `time.Now` are at the same
time. -/
def attestationTemplate (E : Env) (rnd : Nat) : CertTemplate :=
  { serial := 0
    subject := { organization := [ascii "Self-Signed Virtual FIDO"], country := [ascii "US"]
                 commonName := ascii "Self-Signed Virtual FIDO", unit := [ascii "Authenticator Attestation"] }
    notBefore := E.now rnd, notAfter := E.addYears (E.now rnd) 10
    isCA := false, signs := true, signsCerts := false, clientAuth := true, serverAuth := true }

/-- attestation.go:84-96: the template of the certificate authority -/
def caTemplate (E : Env) (rnd : Nat) : CertTemplate :=
  { serial := 0
    subject := { organization := [ascii "Self-Signed Virtual FIDO"], country := [ascii "US"], commonName := [], unit := [] }
    notBefore := E.now rnd, notAfter := E.addYears (E.now rnd) 10
    isCA := true, signs := true, signsCerts := true, clientAuth := true, serverAuth := true }

/-- attestation.go:41-72 `CreateSelfSignedAttestationCertificate`: `none` is an error of
`CreateCertificate` or of parsing what it made. -/
def createAttestationCert (E : Env) (ca : Bytes) (caKey target : PrivKey) (rnd : Nat) :
    Res (Option Bytes) := do
  let pub ← publicOf target
  let subject ← extractPublicKey pub
  let issuer ← extractPrivateKey caKey
  match E.createCert (attestationTemplate E rnd) (some ca) subject issuer rnd with
  | none => .ok none
  | some cert => if E.parseCert cert then .ok (some cert) else .ok none

/-- attestation.go:74-81 `CreateCAPrivateKey`; a generator that fails is not modelled -/
def createCAPrivateKey (E : Env) (rnd : Nat) : PrivKey := { ecdsa := some (E.genEC rnd) }

/-- attestation.go:83-106 `CreateSelfSignedCA`: `none` is an error of `CreateCertificate` or of parsing what it made. -/
def createSelfSignedCA (E : Env) (key : PrivKey) (rnd : Nat) : Res (Option Bytes) := do
  let pub ← publicOf key
  let subject ← extractPublicKey pub
  let issuer ← extractPrivateKey key
  match E.createCert (caTemplate E rnd) none subject issuer rnd with
  | none => .ok none
  | some cert => if E.parseCert cert then .ok (some cert) else .ok none

end VF.Fido.Cose
