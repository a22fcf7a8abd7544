import Verif.Spec.Ctap

/-!
# Reading the answer to GetInfo (CTAP 2.0, 5.4)
-/

namespace VF.Spec.Info

/-- The entry of a map under a number. -/
def at' (n : Nat) : Cbor → Option Cbor
  | .map l => Spec.Cbor.lookup l fun
    | .uint m => m == n
    | _ => false
  | _ => none

/-- The entry of a map under a text. -/
def named (s : String) : Cbor → Option Cbor
  | .map l => Spec.Cbor.lookup l fun
    | .text b => b == ascii s
    | _ => false
  | _ => none

/-- What a successful answer carries. -/
def carried : Bytes → Option Cbor
  | 0 :: body => Spec.Cbor.decode body
  | _ => none

/-- The entries of an answer to GetInfo: versions, AAGUID, options, PIN protocols. -/
def versions (answer : Bytes) : Option Cbor := (carried answer).bind (at' 1)
def aaguid (answer : Bytes) : Option Cbor := (carried answer).bind (at' 3)
def option (answer : Bytes) (name : String) : Option Cbor := ((carried answer).bind (at' 4)).bind (named name)
def pinProtocols (answer : Bytes) : Option Cbor := (carried answer).bind (at' 6)

/-- A PIN protocol is announced. -/
def Announces (answer : Bytes) (protocol : Nat) : Prop :=
  ∃ l, pinProtocols answer = some (.array l) ∧ .uint protocol ∈ l

end VF.Spec.Info
