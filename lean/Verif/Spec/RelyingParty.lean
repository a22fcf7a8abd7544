import Verif.Spec.Store

/-!
# Specification: a relying party that checks everything

Registration and login as WebAuthn Level 1, sections 7.1 and 7.2, tell a relying party to do, as far as
the authenticator is concerned (the checks of client data, such as the challenge and the origin, concern
what the browser hashed; here the hash is part of the request).  The attestation is checked as section
8.2 says for the format "packed" with a certificate, against one trusted issuer.

All is computed from requests and answers; nothing of the device is looked at.
-/

namespace VF.Spec.RelyingParty

open VF (Cbor)
open VF.Fido VF.Spec.Ctap VF.Spec.Store

/-- What a relying party keeps of a registered credential: id, public key (a point on P-256), and the
last counter seen. -/
structure Record where
  id : Bytes
  x : Nat
  y : Nat
  counter : Nat
  deriving DecidableEq, Repr

def Record.key (r : Record) : ECPub := { p256 := true, x := r.x, y := r.y }

/-- A relying party: its id, the key of the issuer of attestation certificates it trusts, and whether it
demands user verification. -/
structure Party where
  id : Bytes
  anchor : PubKey
  demandsUV : Bool

/-! ## Reading items -/

def asBytes : Cbor → Option Bytes
  | .bytes b => some b
  | _ => none

def asText : Cbor → Option Bytes
  | .text b => some b
  | _ => none

def asList : Cbor → Option (List Cbor)
  | .array l => some l
  | _ => none

/-- The value of a map for a text key. -/
def named (name : String) : Cbor → Option Cbor
  | .map entries => (entries.find? (fun e => asText e.1 == some (ascii name))).map (·.2)
  | _ => none

/-! ## The two ceremonies -/

/-- 7.1 steps 9-11, 7.2 steps 11-13: the hash is that of the id of this party, the user was present, and
verified if that is demanded. -/
def genuine (E : Env) (p : Party) (ad : AuthData) : Bool :=
  ad.rpIdHash == E.sha256 p.id && ad.userPresent && (!p.demandsUV || ad.userVerified)

/-- 7.1: the record of a new credential, if the answer to the request `args` passes all checks.  `known`
are the credentials that are already registered. -/
def register (E : Env) (p : Party) (known : List Record) (args : MakeCredArgs) :
    Bytes → Option Record
  | 0 :: body => do
    let item ← Spec.Cbor.decode body
    let format ← field 1 item
    let authData ← bytesField 2 item
    let statement ← field 3 item
    let alg ← named "alg" statement
    let sig ← (named "sig" statement).bind asBytes
    let chain ← (named "x5c" statement).bind asList
    let cert ← chain.head?.bind asBytes
    let attestKey ← (E.certSubject cert).bind (·.ecdsa)
    let ad ← parseAuthData authData
    let attested ← parseAttested ad.rest
    let key ← Spec.Cbor.decode attested.key
    let kty ← field 1 key
    let keyAlg ← field 3 key
    let curve ← field (-1) key
    let x ← bytesField (-2) key
    let y ← bytesField (-3) key
    if asText format = some (ascii "packed") ∧ genuine E p ad = true ∧ ad.attestedData = true ∧
        integer alg = some (-7) ∧ integer kty = some 2 ∧ integer keyAlg = some (-7) ∧
        integer curve = some 1 ∧ (∃ q ∈ args.params, q.alg = -7) ∧
        E.certSignedBy cert p.anchor = true ∧
        E.verifyEC attestKey (E.sha256 (authData ++ args.clientDataHash)) sig = true ∧
        (∀ r ∈ known, r.id ≠ attested.id)
    then some ⟨attested.id, Spec.Cbor.beNat x, Spec.Cbor.beNat y, ad.counter⟩ else none
  | _ => none

/-- 7.2 step 1: the id is one of those sent, if any were sent. -/
def allowed : Option (List Descriptor) → Bytes → Bool
  | none, _ => true
  | some l, id => l.any (fun d => d.id == id)

/-- 7.2: the updated record of the credential that was used, if the answer to the request `args` passes all
checks. -/
def login (E : Env) (p : Party) (known : List Record) (args : GetAssertionArgs) :
    Bytes → Option Record
  | 0 :: body => do
    let item ← Spec.Cbor.decode body
    let credential ← field 1 item
    let id ← (named "id" credential).bind asBytes
    let authData ← bytesField 2 item
    let sig ← bytesField 3 item
    let ad ← parseAuthData authData
    let r ← known.find? (fun r => r.id == id)
    if allowed args.allowList id = true ∧ genuine E p ad = true ∧
        E.verifyEC r.key (E.sha256 (authData ++ args.clientDataHash)) sig = true ∧
        (ad.counter = 0 ∧ r.counter = 0 ∨ r.counter < ad.counter)
    then some { r with counter := ad.counter } else none
  | _ => none

/-- What a party makes of one request and its reply: it looks at requests that concern it, registers what
passes all checks and updates the counter when a login passes all checks. -/
def see (E : Env) (p : Party) (known : List Record) : Op × Reply → List Record
  | (.ctap (1 :: data), .answer b) =>
    match E.decodeMakeCred data with
    | some args =>
      if args.rp.map (·.id) = some p.id then known ++ (register E p known args b).toList else known
    | none => known
  | (.ctap (2 :: data), .answer b) =>
    match E.decodeGetAssertion data with
    | some args =>
      if args.rpId = p.id then
        match login E p known args b with
        | some r => known.map (fun o => if o.id = r.id then r else o)
        | none => known
      else known
    | none => known
  | _ => known

/-- The credentials registered after what was seen. -/
def records (E : Env) (p : Party) (seen : List (Op × Reply)) : List Record :=
  seen.foldl (see E p) []

end VF.Spec.RelyingParty
