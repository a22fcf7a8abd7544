import Verif.Model.Cose

/-!
# Specification: requests as a platform sends them

The CBOR maps of CTAP 2.0 sections 5.1, 5.2 and 5.5, in canonical form, for the parameters the
device reads.  Used to say that the CBOR library reads requests correctly and to formulate what a
conforming platform can do.
-/

namespace VF.Spec.Platform

open VF.Fido

/-- Well-formed UTF-8. -/
def utf8 (b : Bytes) : Prop := ∃ s : String, s.toUTF8.toList = b

/-- CBOR strings have lengths below `2^64` (and the library accepts arrays of at most 131072 elements). -/
def Short (b : Bytes) : Prop := b.length < 18446744073709551616

/-- An optional map entry. -/
def opt (key : Int) : Option Cbor → List (Cbor × Cbor)
  | some v => [(.int key, v)]
  | none => []

/-- A list sent only if it is not empty, a number sent only if it is not 0, bytes sent only if
there are any. -/
def nonEmpty : List Cbor → Option Cbor
  | [] => none
  | l => some (.array l)
def nonZero (n : UInt32) : Option Cbor := if n = 0 then none else some (.uint n.toNat)
def someBytes (b : Bytes) : Option Cbor := if b.isEmpty then none else some (.bytes b)

/-- Fits an `int8`. -/
def Int8Range (i : Int) : Prop := -128 ≤ i ∧ i ≤ 127

/-- Fits an `int32`. -/
def Int32Range (i : Int) : Prop := -2147483648 ≤ i ∧ i ≤ 2147483647

/-- A public EC2 key as in RFC 9053. -/
def ec2Item (k : EC2Key) : Cbor :=
  .map ([(.int 1, .int k.kty), (.int 3, .int k.alg), (.int (-1), .int k.crv)] ++
    opt (-2) (k.x.map .bytes) ++ opt (-3) (k.y.map .bytes) ++
    opt (-4) (someBytes k.d))

def EC2Fits (k : EC2Key) : Prop :=
  Int8Range k.kty ∧ Int8Range k.alg ∧ Int8Range k.crv ∧ (∀ x ∈ k.x, Short x) ∧
    (∀ y ∈ k.y, Short y) ∧ Short k.d

/-- authenticatorClientPIN, CTAP 2.0 section 5.5. -/
def clientPINItem (a : ClientPINArgs) : Cbor :=
  .map ([(.int 1, .uint a.pinProtocol.toNat), (.int 2, .uint a.subCommand.toNat)] ++
    opt 3 (a.keyAgreement.map ec2Item) ++ opt 4 (a.pinAuth.map .bytes) ++
    opt 5 (a.newPinEnc.map .bytes) ++ opt 6 (a.pinHashEnc.map .bytes))

def ClientPINFits (a : ClientPINArgs) : Prop :=
  (∀ k ∈ a.keyAgreement, EC2Fits k) ∧ (∀ b ∈ a.pinAuth, Short b) ∧ (∀ b ∈ a.newPinEnc, Short b) ∧
    (∀ b ∈ a.pinHashEnc, Short b)

/-- The entities of WebAuthn. -/
def rpItem (r : RPEntity) : Cbor := .map [(.str "id", .text r.id), (.str "name", .text r.name)]
def userItem (u : UserEntity) : Cbor :=
  .map [(.str "id", .bytes u.id), (.str "name", .text u.name),
    (.str "displayName", .text u.displayName)]
def paramItem (p : CredParam) : Cbor := .map [(.str "alg", .int p.alg), (.str "type", .text p.type)]
def descriptorItem (d : Descriptor) : Cbor :=
  .map ([(.str "id", .bytes d.id), (.str "type", .text d.type)] ++
    (match d.transports with
      | [] => []
      | l => [(.str "transports", .array (l.map .text))]))

def textFits (b : Bytes) : Prop := utf8 b ∧ Short b
def RPFits (r : RPEntity) : Prop := textFits r.id ∧ textFits r.name
def UserFits (u : UserEntity) : Prop := Short u.id ∧ textFits u.name ∧ textFits u.displayName
def ParamFits (p : CredParam) : Prop := Int32Range p.alg ∧ textFits p.type
def DescriptorFits (d : Descriptor) : Prop :=
  Short d.id ∧ textFits d.type ∧ (∀ t ∈ d.transports, textFits t) ∧
    d.transports.length ≤ 131072

/-- authenticatorMakeCredential, CTAP 2.0 section 5.1. -/
def makeCredItem (a : MakeCredArgs) : Cbor :=
  .map ([(.int 1, .bytes a.clientDataHash)] ++ opt 2 (a.rp.map rpItem) ++ opt 3 (a.user.map userItem) ++
    [(.int 4, .array (a.params.map paramItem))] ++
    opt 5 (nonEmpty (a.excludeList.map descriptorItem)) ++ opt 8 (a.pinAuth.map .bytes) ++
    opt 9 (nonZero a.pinProtocol))

def MakeCredFits (a : MakeCredArgs) : Prop :=
  Short a.clientDataHash ∧ (∀ r ∈ a.rp, RPFits r) ∧ (∀ u ∈ a.user, UserFits u) ∧
    (∀ p ∈ a.params, ParamFits p) ∧ a.params.length ≤ 131072 ∧
    (∀ d ∈ a.excludeList, DescriptorFits d) ∧ a.excludeList.length ≤ 131072 ∧
    (∀ b ∈ a.pinAuth, Short b)

/-- authenticatorGetAssertion, CTAP 2.0 section 5.2. -/
def getAssertionItem (a : GetAssertionArgs) : Cbor :=
  .map ([(.int 1, .text a.rpId), (.int 2, .bytes a.clientDataHash)] ++
    opt 3 (a.allowList.map (fun l => .array (l.map descriptorItem))) ++
    opt 5 (a.up.map (fun b => .map [(.str "up", .bool b)])) ++
    opt 6 (a.pinAuth.map .bytes) ++
    opt 7 (nonZero a.pinProtocol))

def GetAssertionFits (a : GetAssertionArgs) : Prop :=
  textFits a.rpId ∧ Short a.clientDataHash ∧
    (∀ l ∈ a.allowList, (∀ d ∈ l, DescriptorFits d) ∧ l.length ≤ 131072) ∧
    (∀ b ∈ a.pinAuth, Short b)

end VF.Spec.Platform
