import Verif.Spec.Store
import Verif.Spec.U2f

/-!
# Specification: what a device does on the user's behalf
-/

namespace VF.Spec.Approval

open VF.Fido VF.Spec.Ctap VF.Spec.Store

/-- Whether the answer to a GetAssertion claims that the user was present. -/
def present : Bytes → Bool
  | 0 :: body =>
    match (do
      let item ← Spec.Cbor.decode body
      let authData ← bytesField 2 item
      parseAuthData authData) with
    | some parsed => parsed.userPresent
    | none => false
  | _ => false

/-- What a successful answer says the user agreed to: MakeCredential; GetAssertion with the
user-present flag; U2F registration; U2F authentication with control byte 3. -/
def claims : Op × Reply → Option Action
  | (.ctap (1 :: _), .answer (0 :: _)) => some .makeCredential
  | (.ctap (2 :: _), .answer b) => if present b then some .getAssertion else none
  | (.u2f (_ :: 1 :: _), .answer b) => if (U2f.succeeded b).isSome then some .u2fRegister else none
  | (.u2f (_ :: 2 :: 3 :: _), .answer b) =>
    if (U2f.succeeded b).isSome then some .u2fAuthenticate else none
  | _ => none

/-- Requests of a host, as opposed to calls of the program that embeds the device. -/
def isRequest : Op → Bool
  | .ctap _ => true
  | .u2f _ => true
  | _ => false

/-- A question about `a` to which the user agreed. -/
def agreed (a : Action) (q : Ask) : Bool := decide (q.action = a) && q.answer

end VF.Spec.Approval
