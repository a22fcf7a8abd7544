import Verif.Spec.U2f
import Verif.Spec.History

/-!
# Specification: a U2F relying party that checks everything

FIDO U2F Raw Message Formats 1.1, sections 4.3 and 5.4, and the overview's advice to check that the
counter goes up.  All is computed from requests and answers; nothing of the device is looked at.
-/

namespace VF.Spec.U2fParty

open VF.Fido VF.Spec.U2f VF.Spec.History

/-- What a relying party keeps of a registered key: the handle, the public key (a point on P-256) and the
last counter seen, 0 at first. -/
structure Key where
  handle : Bytes
  x : Nat
  y : Nat
  counter : Nat
  deriving DecidableEq, Repr

def Key.pub (k : Key) : ECPub := { p256 := true, x := k.x, y := k.y }

/-- A relying party: its application parameter, the key of the issuer of attestation certificates it trusts,
and whether it looks at counters. -/
structure Party where
  application : Bytes
  anchor : PubKey
  checksCounter : Bool

/-! ## Requests, section 3 -/

/-- Instruction and data of a request in extended length encoding. -/
def request : Bytes → Option (UInt8 × Bytes)
  | _ :: ins :: _ :: _ :: 0 :: a :: b :: body =>
    if 256 * a.toNat + b.toNat ≤ body.length then some (ins, body.take (256 * a.toNat + b.toNat)) else none
  | _ => none

/-- Challenge and application parameter of a registration. -/
def registerFields (data : Bytes) : Option (Bytes × Bytes) :=
  if data.length = 64 then some (data.take 32, data.drop 32) else none

/-- Challenge, application parameter and key handle of an authentication. -/
def authenticateFields (data : Bytes) : Option (Bytes × Bytes × Bytes) :=
  match data.drop 64 with
  | len :: handle =>
    if handle.length = len.toNat ∧ handle ≠ [] then some (data.take 32, (data.drop 32).take 32, handle)
    else none
  | [] => none

/-! ## The two ceremonies -/

/-- 4.3: the answer is well formed, the attestation certificate is signed by the trusted issuer, the
signature verifies under the key of the certificate, and the handle is a new one. -/
def register (E : Env) (p : Party) (known : List Key) (challenge answer : Bytes) : Option Key := do
  let reg ← parseRegistration answer
  let point ← parsePoint reg.publicKey
  let subject ← E.certSubject reg.certificate
  let attestation ← subject.ecdsa
  if E.certSignedBy reg.certificate p.anchor = true ∧
      E.verifyEC attestation (E.sha256 ([0] ++ p.application ++ challenge ++ reg.keyHandle ++ reg.publicKey))
        reg.signature = true ∧
      known.all (fun k => k.handle != reg.keyHandle) = true
  then some ⟨reg.keyHandle, point.1, point.2, 0⟩ else none

/-- 5.4: the handle is registered, the user was present, the signature verifies under the registered key,
and the counter has gone up. -/
def login (E : Env) (p : Party) (known : List Key) (challenge handle answer : Bytes) : Option Key := do
  let auth ← parseAuthentication answer
  let k ← known.find? (fun k => k.handle == handle)
  if auth.userPresence.toNat % 2 = 1 ∧
      E.verifyEC k.pub (E.sha256 (p.application ++ [auth.userPresence] ++ auth.counterBytes ++ challenge))
        auth.signature = true ∧
      (p.checksCounter = true → k.counter < auth.counter)
  then some { k with counter := auth.counter } else none

/-- What a party makes of one request and its reply: it looks at requests with its application
parameter, registers what passes all checks and updates the counter when a login passes all checks. -/
def see (E : Env) (p : Party) (known : List Key) : Op × Reply → List Key
  | (.u2f m, .answer b) =>
    match request m with
    | some (1, data) =>
      match registerFields data with
      | some (challenge, application) =>
        if application = p.application then known ++ (register E p known challenge b).toList else known
      | none => known
    | some (2, data) =>
      match authenticateFields data with
      | some (challenge, application, handle) =>
        if application = p.application then
          match login E p known challenge handle b with
          | some k => known.map (fun o => if o.handle = k.handle then k else o)
          | none => known
        else known
      | none => known
    | _ => known
  | _ => known

/-- The keys registered after what was seen. -/
def keys (E : Env) (p : Party) (seen : List (Op × Reply)) : List Key := seen.foldl (see E p) []

/-! ## Restarts that lose no counter -/

/-- A successful authentication. -/
def counts : Op × Reply → Bool
  | (.u2f (_ :: 2 :: _), .answer b) => (parseAuthentication b).isSome
  | _ => false

/-- A credential was made or used, or the PIN set, enabled or disabled through the API. -/
def saves : Op × Reply → Bool
  | (.ctap (1 :: _), .answer (0 :: _)) => true
  | (.ctap (2 :: _), .answer (0 :: _)) => true
  | (.enablePIN, .done) => true
  | (.disablePIN, .done) => true
  | (.setPIN _, .done) => true
  | _ => false

/-- Before each restart something of `saves` has happened since the last successful authentication, if
there was one.  `pending`: there was one at the start, and nothing of `saves` since. -/
def Settled (pending : Bool) : List (Op × Reply) → Prop
  | [] => True
  | (.restart, _) :: seen => pending = false ∧ Settled false seen
  | e :: seen => Settled (counts e || (pending && !saves e)) seen

/-- The random draws below `n` that serve as nonces do not repeat. -/
def DistinctNonces (E : Env) (n : Nat) : Prop :=
  ∀ i j, i < n → j < n → E.rand i 12 = E.rand j 12 → i = j

end VF.Spec.U2fParty
