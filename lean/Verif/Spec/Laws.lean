import Verif.Model.Cose
import Verif.Model.U2f
import Verif.Spec.Cbor
import Verif.Spec.Platform

/-!
# What is assumed of the libraries

`Laws E` collects the properties of cryptography, X.509, JSON and CBOR decoding that theorems may
assume.  Nothing about secrecy or unforgeability is assumed, only functional correctness.
`Verif.Proofs.Toy` contains an environment satisfying all of them.
-/

namespace VF.Fido

export VF.Spec.Platform (utf8 Int8Range Short)

/-- The order of the P-256 group. -/
def p256Order : Nat := 0xFFFFFFFF00000000FFFFFFFFFFFFFFFFBCE6FAADA7179E84F3B9CAC2FC632551

/-- A P-256 key pair. -/
def ECValid (E : Env) (k : ECPriv) : Prop :=
  k.pub.p256 = true ∧ 0 < k.d ∧ k.d < p256Order ∧ (k.pub.x, k.pub.y) = E.ecPublic k.d

/-- An Ed25519 private key in Go's representation: seed followed by public key. -/
def EdValid (E : Env) (k : Bytes) : Prop :=
  ∃ seed : Bytes, seed.length = 32 ∧ k = seed ++ E.edPublic seed

/-- A two-prime RSA key as made by `rsa.GenerateKey` (crypto.go:37-41): at least 1024 bits, an
exponent that fits an `int32`, precomputed values present. -/
def RSAValid (k : RSAPriv) : Prop :=
  ∃ p q : Nat, k.primes = [p, q] ∧ 1 < p ∧ 1 < q ∧ p ≠ q ∧
    (∀ m, m ∣ p → m = 1 ∨ m = p) ∧ (∀ m, m ∣ q → m = 1 ∨ m = q) ∧
    k.pub.n = p * q ∧ 2 ^ 1024 ≤ k.pub.n ∧ k.pub.n < 2 ^ 65536 ∧
    2 < k.pub.e ∧ k.pub.e < 2147483648 ∧ k.d < k.pub.n ∧
    (k.pub.e * k.d) % (p - 1) = 1 ∧ (k.pub.e * k.d) % (q - 1) = 1 ∧
    (∃ qinv, qinv < p ∧ k.precomp = some (k.d % (p - 1), k.d % (q - 1), qinv))

/-- A private key structure whose first key (the one that is used) is valid. -/
def KeyValid (E : Env) (k : PrivKey) : Prop :=
  match k.ecdsa, k.ed25519, k.rsa with
  | some ec, _, _ => ECValid E ec
  | none, some ed, _ => EdValid E ed
  | none, none, some r => RSAValid r
  | none, none, none => False

/-- A key agreement key pair. -/
def ECDHValid (E : Env) (k : ECDHKey) : Prop :=
  ∃ d, 0 < d ∧ d < p256Order ∧ BigInt.ofBytes k.priv = d ∧ (k.x, k.y) = E.ecPublic d

/-- All strings of the entities are UTF-8 (JSON can carry no others). -/
def SavedSource.Utf8 (s : SavedSource) : Prop :=
  utf8 s.type ∧ utf8 s.rp.id ∧ utf8 s.rp.name ∧ utf8 s.user.displayName ∧ utf8 s.user.name

def SavedState.Utf8 (s : SavedState) : Prop := ∀ x ∈ s.sources, x.Utf8

/-- JSON leaves out an empty PIN hash, which is then read back as absent. -/
def SavedState.norm (s : SavedState) : SavedState :=
  { s with pinHash := if s.pinHash = some [] then none else s.pinHash }

/-- The first element of a DER sequence at the front of a byte string: the element (with its
header) and the rest. -/
def derSequence : Bytes → Option (Bytes × Bytes)
  | 0x30 :: l :: rest =>
    if l.toNat < 128 then
      if rest.length < l.toNat then none
      else some (0x30 :: l :: rest.take l.toNat, rest.drop l.toNat)
    else
      let k := l.toNat - 128
      let n := Spec.Cbor.beNat (rest.take k)
      if rest.length < k + n then none
      else some (0x30 :: l :: rest.take (k + n), rest.drop (k + n))
  | _ => none

structure Laws (E : Env) : Prop where
  rand_length : ∀ i n, (E.rand i n).length = n
  sha256_length : ∀ b, (E.sha256 b).length = 32
  hmac_length : ∀ k b, (E.hmac k b).length = 32
  cbc_length : ∀ k d, k.length = 32 → d.length % 16 = 0 → (E.cbcEncrypt k d).length = d.length
  cbc_decrypt : ∀ k d, k.length = 32 → d.length % 16 = 0 →
    E.cbcDecrypt k (E.cbcEncrypt k d) = d
  gcm_length : ∀ k n d, aesKeyOk k = true → n.length = 12 →
    (E.gcmSeal k n d).length = d.length + 16
  gcm_open : ∀ k n d, aesKeyOk k = true → n.length = 12 →
    E.gcmOpen k n (E.gcmSeal k n d) = some d
  gcm_short : ∀ k n d, d.length < 16 → E.gcmOpen k n d = none
  scrypt_length : ∀ p s, (E.scrypt p s).length = 32
  ecPublic_lt : ∀ d, (E.ecPublic d).1 < 2 ^ 256 ∧ (E.ecPublic d).2 < 2 ^ 256
  genEC_valid : ∀ i, ECValid E (E.genEC i)
  genECDH_valid : ∀ i, ECDHValid E (E.genECDH i)
  signEC_verifies : ∀ k h i, ECValid E k →
    ∃ s, E.signEC k h i = some s ∧ E.verifyEC k.pub h s = true
  edPublic_length : ∀ s, (E.edPublic s).length = 32
  signEd_verifies : ∀ s d, s.length = 32 →
    E.verifyEd (E.edPublic s) d (E.signEd (s ++ E.edPublic s) d) = true
  signRSA_verifies : ∀ k h i, RSAValid k →
    ∃ s, E.signRSA k h i = some s ∧ E.verifyRSA k.pub h s = true
  rsaQinv_lt : ∀ p q, 1 < p → E.rsaQinv p q < p
  ecdh_agrees : ∀ a b, ECDHValid E a → ECDHValid E b →
    ∃ s, s < 2 ^ 256 ∧ E.ecdh a.priv b.x b.y = some s ∧ E.ecdh b.priv a.x a.y = some s
  parseECDER_toDER : ∀ k, ECValid E k → E.parseECDER (ecToDER k) = some k
  createCert_sound : ∀ t ca sub issuer i c, E.createCert t ca sub issuer i = some c →
    E.parseCert c = true ∧ E.certSubject c = some sub ∧
    (∀ rest, derSequence (c ++ rest) = some (c, rest)) ∧ Short c
  createCert_signed : ∀ t ca sub issuer issuerPub i c, E.createCert t ca sub issuer i = some c →
    KeyValid E issuer → Cose.publicOf issuer = .ok issuerPub → E.certSignedBy c issuerPub = true
  createCert_ok : ∀ ca sub issuer i, E.parseCert ca = true → ECValid E sub → ECValid E issuer →
    E.certSubject ca = some { ecdsa := some issuer.pub } →
    ∃ c, E.createCert (Cose.attestationTemplate E i) (some ca) { ecdsa := some sub.pub } { ecdsa := some issuer } i = some c
  createCA_ok : ∀ k i, ECValid E k →
    ∃ c, E.createCert (Cose.caTemplate E i) none { ecdsa := some k.pub } { ecdsa := some k } i = some c
  createCert_info : ∀ ca sub issuer i c,
    E.createCert (Cose.attestationTemplate E i) (some ca) sub issuer i = some c →
    ∃ name, E.certInfo c = some ⟨Cose.attestationTemplate E i, name⟩ ∧
      ∀ q, E.certInfo ca = some q → name = q.fields.subject
  createCA_info : ∀ sub issuer i c, E.createCert (Cose.caTemplate E i) none sub issuer i = some c →
    E.certInfo c = some ⟨Cose.caTemplate E i, (Cose.caTemplate E i).subject⟩
  addYears_later : ∀ t n, 0 < n → t < E.addYears t n
  sig_short : ∀ k h i s, E.signEC k h i = some s → s.length ≤ 72
  json_state : ∀ s, s.Utf8 → E.parseState (E.renderState s) = some s.norm
  json_blob : ∀ b, E.parseBlob (E.renderBlob b) = some b
  /-- a JSON object without its end is no JSON -/
  json_prefix : ∀ b n, n < (E.renderBlob b).length → E.parseBlob ((E.renderBlob b).take n) = none
  decode_ec2 : ∀ k : EC2Key, Int8Range k.kty → Int8Range k.alg → Int8Range k.crv →
    (∀ x ∈ k.x, Short x) → (∀ y ∈ k.y, Short y) → Short k.d →
    E.decodeEC2Key (Cbor.encode (Cose.ec2Item k)) = some k ∧
    E.decodeKeyHeader (Cbor.encode (Cose.ec2Item k)) = some (k.kty, k.alg)
  decode_okp : ∀ k : OKPKey, Int8Range k.kty → Int8Range k.alg → Int8Range k.crv →
    (∀ x ∈ k.x, Short x) → Short k.d →
    E.decodeOKPKey (Cbor.encode (Cose.okpItem k)) = some k ∧
    E.decodeKeyHeader (Cbor.encode (Cose.okpItem k)) = some (k.kty, k.alg)
  decode_rsa : ∀ k : RSAKey, Int8Range k.kty → Int8Range k.alg →
    (∀ x ∈ k.n, Short x) → (∀ x ∈ k.e, Short x) → Short k.d → Short k.p → Short k.q →
    Short k.dp → Short k.dq → Short k.qinv →
    E.decodeRSAKey (Cbor.encode (Cose.rsaItem k)) = some k ∧
    E.decodeKeyHeader (Cbor.encode (Cose.rsaItem k)) = some (k.kty, k.alg)
  decode_box : ∀ b : Box, Short b.data → Short b.iv →
    E.decodeBox (Cbor.encode (U2f.boxItem b)) = some b
  decode_keyHandle : ∀ k : KeyHandle, (∀ x ∈ k.privateKey, Short x) → Short k.applicationID →
    E.decodeKeyHandle (Cbor.encode (U2f.keyHandleItem k)) = some k
  /-- requests encoded as a platform does are read back -/
  decode_clientPIN : ∀ a, Spec.Platform.ClientPINFits a →
    E.decodeClientPIN (Cbor.encode (Spec.Platform.clientPINItem a)) = some a
  decode_makeCred : ∀ a, Spec.Platform.MakeCredFits a →
    E.decodeMakeCred (Cbor.encode (Spec.Platform.makeCredItem a)) = some a
  decode_getAssertion : ∀ a, Spec.Platform.GetAssertionFits a →
    E.decodeGetAssertion (Cbor.encode (Spec.Platform.getAssertionItem a)) = some a
  /-- text strings that decode are UTF-8 -/
  makeCred_utf8 : ∀ b a, E.decodeMakeCred b = some a →
    (∀ rp ∈ a.rp, utf8 rp.id ∧ utf8 rp.name) ∧
    (∀ u ∈ a.user, utf8 u.displayName ∧ utf8 u.name)

end VF.Fido
