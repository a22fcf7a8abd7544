import Verif.Spec.Ctap
import Verif.Spec.History

/-!
# Specification: the credentials a device should hold, from what was seen outside

A relying party learns the id and the public key of a credential from the answer to MakeCredential.
What a device should hold is what such answers announced, without what was deleted since.
-/

namespace VF.Spec.Store

open VF (Cbor)
open VF.Fido VF.Spec.Ctap

/-- Id and public key (a point on P-256) of a credential. -/
structure Cred where
  id : Bytes
  x : Nat
  y : Nat
  deriving DecidableEq, Repr

/-- Items that are integers. -/
def integer : Cbor → Option Int
  | .uint n => some (Int.ofNat n)
  | .nint n => some (Int.negSucc n)
  | _ => none

/-- The value of a map for an integer key. -/
def field (k : Int) : Cbor → Option Cbor
  | .map entries => (entries.find? (fun e => integer e.1 == some k)).map (·.2)
  | _ => none

/-- The bytes a map has for an integer key. -/
def bytesField (k : Int) (c : Cbor) : Option Bytes :=
  match field k c with
  | some (.bytes b) => some b
  | _ => none

/-- The credential that an answer to MakeCredential announces: in the authenticator data (field 2) the
id, and the coordinates of the COSE key (fields -2 and -3). -/
def announced : Bytes → Option Cred
  | 0 :: body => do
    let item ← Spec.Cbor.decode body
    let authData ← bytesField 2 item
    let parsed ← parseAuthData authData
    let attested ← parseAttested parsed.rest
    let key ← Spec.Cbor.decode attested.key
    let x ← bytesField (-2) key
    let y ← bytesField (-3) key
    some { id := attested.id, x := Spec.Cbor.beNat x, y := Spec.Cbor.beNat y }
  | _ => none

/-- One request and its reply: a successful creation adds what it announces, a successful deletion
removes what has the id. -/
def learn (l : List Cred) : Op × Reply → List Cred
  | (.ctap (1 :: _), .answer b) => l ++ (announced b).toList
  | (.deleteIdentity id, .deleted true) => l.filter (fun c => c.id != id)
  | _ => l

/-- What should be held after what was seen. -/
def held (seen : List (Op × Reply)) : List Cred := seen.foldl learn []

/-- The P-256 public key of a credential. -/
def Cred.key (c : Cred) : ECPub := { p256 := true, x := c.x, y := c.y }

end VF.Spec.Store
