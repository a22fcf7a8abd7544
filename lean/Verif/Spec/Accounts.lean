import Verif.Spec.RelyingParty

/-!
# Specification: which credential answers a login

A list of credentials, kept from requests and answers alone.
-/

namespace VF.Spec.Accounts

open VF.Fido VF.Spec.Store

/-- A credential: the id of the relying party it is for, and its own id. -/
structure Entry where
  rp : Bytes
  id : Bytes
  deriving DecidableEq, Repr

/-- The list without the first entry with this id, in whose place the last entry is put. -/
def takeOut (id : Bytes) : List Entry → List Entry
  | [] => []
  | e :: rest =>
    if e.id = id then
      match rest.getLast? with
      | none => []
      | some last => last :: rest.dropLast
    else e :: takeOut id rest

/-- All entries are for the relying party of the last one. -/
def allLast (l : List Entry) : List Entry :=
  match l.getLast? with
  | none => []
  | some last => l.map (fun e => { e with rp := last.rp })

/-- One request and its reply: a created credential is put at the end; a deleted one is taken out; at a start all
are given to the relying party of the last one. -/
def note (E : Env) (l : List Entry) : Op × Reply → List Entry
  | (.ctap (1 :: data), .answer b) =>
    match (E.decodeMakeCred data).bind (·.rp), announced b with
    | some rp, some c => l ++ [⟨rp.id, c.id⟩]
    | _, _ => l
  | (.deleteIdentity id, .deleted true) => takeOut id l
  | (.restart, .started) => allLast l
  | _ => l

/-- The list after what was seen. -/
def entries (E : Env) (seen : List (Op × Reply)) : List Entry := seen.foldl (note E) []

/-- The credential a login should use: the first that is for the relying party and in the allow list, if there is
one. -/
def chosen (l : List Entry) (args : GetAssertionArgs) : Option Entry :=
  l.find? (fun e => e.rp == args.rpId && RelyingParty.allowed args.allowList e.id)

/-- Only for the relying party. -/
def accounts (l : List Entry) (rp : Bytes) : List Entry := l.filter (fun e => e.rp == rp)

end VF.Spec.Accounts
