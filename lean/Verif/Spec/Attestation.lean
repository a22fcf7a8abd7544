import Verif.Spec.RelyingParty
import Verif.Spec.U2fParty

/-!
# Specification: attestation certificates

What a verifier of attestations demands of a certificate besides the signatures: WebAuthn Level 1, section
8.2.1 ("Packed Attestation Statement Certificate Requirements"), and RFC 5280, sections 4.1.2 and 6.1, for a
path of one certificate under a trusted authority.  That certificates are of version 3 is left to the library.
-/

namespace VF.Spec.Attestation

open VF (Cbor)
open VF.Fido VF.Spec.Ctap VF.Spec.Store VF.Spec.History

/-- The certificate in an answer to MakeCredential: the first of the list "x5c". -/
def ctapCertificate : Bytes → Option Bytes
  | 0 :: body => do
    let item ← Spec.Cbor.decode body
    let statement ← field 3 item
    let chain ← (RelyingParty.named "x5c" statement).bind RelyingParty.asList
    chain.head?.bind RelyingParty.asBytes
  | _ => none

/-- The certificate in an answer to a U2F registration. -/
def u2fCertificate (answer : Bytes) : Option Bytes := (U2f.parseRegistration answer).map (·.certificate)

/-- The attestation certificate in the answer to a registration of either kind. -/
def certificateOf : Op × Reply → Option Bytes
  | (.ctap (1 :: _), .answer b) => ctapCertificate b
  | (.u2f m, .answer b) =>
    match (U2fParty.request m).bind (fun r => if r.1 = 1 then U2fParty.registerFields r.2 else none) with
    | some _ => u2fCertificate b
    | none => none
  | _ => none

/-- A registration that succeeded. -/
def registered : Op × Reply → Bool
  | (.ctap (1 :: _), .answer (0 :: _)) => true
  | (.u2f m, .answer b) =>
    ((U2fParty.request m).bind (fun r => if r.1 = 1 then U2fParty.registerFields r.2 else none)).isSome &&
      (U2f.succeeded b).isSome
  | _ => false

/-- WebAuthn 8.2.1: the subject has a country of two letters, an organization, a common name, and the unit
"Authenticator Attestation", and the certificate is not that of an authority. -/
def Packed (c : CertTemplate) : Prop :=
  (∃ a b, c.subject.country = [[a, b]]) ∧ (∃ o, c.subject.organization = [o] ∧ o ≠ []) ∧
  c.subject.commonName ≠ [] ∧ c.subject.unit = [ascii "Authenticator Attestation"] ∧ c.isCA = false

/-- RFC 5280, 4.1.2.5: `time` is in the period of validity. -/
def ValidAt (c : CertTemplate) (time : Nat) : Prop := c.notBefore ≤ time ∧ time ≤ c.notAfter

/-- RFC 5280, 6.1: at `time` the certificate is accepted by someone who trusts the authority with certificate
`ca`: signed with the key of the authority, issued in its name, both valid; and the authority is one and may
sign certificates. -/
def Chains (E : Env) (time : Nat) (cert ca : Bytes) : Prop :=
  ∃ info above key, E.certInfo cert = some info ∧ E.certInfo ca = some above ∧ E.certSubject ca = some key ∧
    E.certSignedBy cert key = true ∧ info.issuer = above.fields.subject ∧ above.fields.subject.organization ≠ [] ∧
    above.fields.isCA = true ∧ above.fields.signsCerts = true ∧
    ValidAt info.fields time ∧ ValidAt above.fields time

/-- RFC 5280, 4.1.2.2: the serial number of a certificate is positive. -/
def PositiveSerial (E : Env) (cert : Bytes) : Prop := ∀ info, E.certInfo cert = some info → 0 < info.fields.serial

/-- RFC 5280, 4.1.2.2: no two certificates of one issuer have the same serial number. -/
def UniqueSerials (E : Env) (certs : List Bytes) : Prop :=
  ∀ c ∈ certs, ∀ c' ∈ certs, ∀ info info', E.certInfo c = some info → E.certInfo c' = some info' →
    info.issuer = info'.issuer → info.fields.serial = info'.fields.serial → c = c'

/-! ## The demo -/

/-- No process runs and there is no file. -/
def Off (d : Device) : Prop := d.alive = false ∧ d.world.store = none

/-- The certificate `ca` of an authority the demo made, in a start with draws `i` and `i + 1`. -/
def Authority (E : Env) (ca : Bytes) (i : Nat) : Prop :=
  Cose.createSelfSignedCA E (Cose.createCAPrivateKey E i) (i + 1) = .ok (some ca)

end VF.Spec.Attestation
