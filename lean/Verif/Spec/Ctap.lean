import Verif.Spec.Cbor

/-!
# Specification: answers as a relying party reads them

Authenticator data and attested credential data as in WebAuthn Level 1, sections 6.1 and 6.4.1;
the answers of authenticatorMakeCredential and authenticatorGetAssertion as in CTAP 2.0, sections
5.1 and 5.2.
-/

namespace VF.Spec.Ctap

open VF (Cbor)

/-- Parsed authenticator data. -/
structure AuthData where
  rpIdHash : Bytes
  userPresent : Bool
  userVerified : Bool
  attestedData : Bool
  otherFlags : Bool
  counter : Nat
  rest : Bytes
  deriving DecidableEq, Repr

/-- Bit `i` of a byte. -/
def bit (b : UInt8) (i : Nat) : Bool := b.toNat / 2 ^ i % 2 == 1

/-- 32 bytes of hash, one byte of flags, four bytes of counter, and the rest. -/
def parseAuthData (b : Bytes) : Option AuthData :=
  match b.drop 32 with
  | flags :: rest =>
    if rest.length < 4 then none
    else some
      { rpIdHash := b.take 32
        userPresent := bit flags 0
        userVerified := bit flags 2
        attestedData := bit flags 6
        otherFlags := bit flags 1 || bit flags 3 || bit flags 4 || bit flags 5 || bit flags 7
        counter := Cbor.beNat (rest.take 4)
        rest := rest.drop 4 }
  | [] => none

/-- Parsed attested credential data: AAGUID, credential id, and the bytes of the public key. -/
structure Attested where
  aaguid : Bytes
  id : Bytes
  key : Bytes
  deriving DecidableEq, Repr

def parseAttested (b : Bytes) : Option Attested :=
  if b.length < 18 then none
  else
    let n := Cbor.beNat ((b.drop 16).take 2)
    if b.length < 18 + n then none
    else some { aaguid := b.take 16, id := (b.drop 18).take n, key := b.drop (18 + n) }

/-- A successful answer with a data item. -/
def Success (answer : Bytes) (item : Cbor) : Prop :=
  ∃ body, answer = 0 :: body ∧ Spec.Cbor.decode body = some item

/-- A successful answer to MakeCredential: packed attestation with algorithm ES256 and one
certificate. -/
def IsCreation (answer authData sig cert : Bytes) : Prop :=
  Success answer (.map [(.int 1, .str "packed"), (.int 2, .bytes authData),
    (.int 3, .map [(.str "alg", .int (-7)), (.str "sig", .bytes sig),
      (.str "x5c", .array [.bytes cert])])])

/-- A successful answer to GetAssertion. -/
def IsAssertion (answer id authData sig : Bytes) : Prop :=
  Success answer (.map [
    (.int 1, .map [(.str "id", .bytes id), (.str "type", .str "public-key")]),
    (.int 2, .bytes authData), (.int 3, .bytes sig)])

end VF.Spec.Ctap
