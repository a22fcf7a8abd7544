import Verif.Spec.Service

/-!
# Calls of the authenticator

Independent of the model: one call of the authenticator, by whom and for whom, and what it returned.
-/

namespace VF.Spec.Calls

open Spec.Service

/-- A request handed to the authenticator: the report (counted from the first that came in) whose
handling led to it, its number, the channel it came on, its command and payload, and the answer if
there is one yet. -/
structure Call where
  report : Nat
  number : Nat
  channel : UInt32
  command : UInt8
  payload : Bytes
  answer : Option Bytes

/-- The calls for a channel. -/
def callsOn (cid : UInt32) (calls : List Call) : List Call := calls.filter fun k => k.channel == cid

/-- The answers there are, with the commands they belong to. -/
def results (calls : List Call) : List (UInt8 × Bytes) :=
  calls.filterMap fun k => k.answer.map fun a => (k.command, a)

/-- The requests. -/
def asked (calls : List Call) : List (UInt8 × Bytes) := calls.map fun k => (k.command, k.payload)

end VF.Spec.Calls
