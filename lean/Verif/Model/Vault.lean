import Verif.Model.Cose

/-!
# Model of identities/identity_vault.go

The vault is a slice of pointers; the model keeps the list of the structures pointed to and
represents the pointers returned by a lookup by positions in the list.
-/

namespace VF.Fido.Vault

/-- identity_vault.go:39-53 `NewIdentity` (without adding it): two random draws. -/
def newIdentity (E : Env) (rp : Option RPEntity) (user : Option UserEntity) (rnd : Nat) : Source :=
  { type := ascii "public-key", id := E.rand rnd 16, key := { ecdsa := some (E.genEC (rnd + 1)) },
    rp := rp, user := user, counter := 0 }

/-- identity_vault.go:55-57 `AddIdentity` -/
def addIdentity (vault : List Source) (s : Source) : List Source := vault ++ [s]

/-- identity_vault.go:59-68 `DeleteIdentity`: the last credential takes the place of the first
one with the id, and the slice is cut by one. -/
def deleteIdentity (vault : List Source) (id : Bytes) : List Source × Bool :=
  match vault.findIdx? (fun s => s.id == id), vault.getLast? with
  | some i, some last => ((vault.set i last).dropLast, true)
  | _, _ => (vault, false)

/-- identity_vault.go:74-83: is the id in the allow list (or is there none)? -/
def allowed (allowList : Option (List Descriptor)) (id : Bytes) : Bool :=
  match allowList with
  | none => true
  | some l => l.any (fun d => d.id == id)

/-- identity_vault.go:70-87 `GetMatchingCredentialSources`: positions, starting from `i`, of the
matching credentials; a credential without relying party is a nil dereference. -/
def getMatching (rpId : Bytes) (allowList : Option (List Descriptor)) :
    Nat → List Source → Res (List Nat)
  | _, [] => .ok []
  | i, s :: rest =>
    match s.rp with
    | none => .panic .nilDeref
    | some rp => do
      let tail ← getMatching rpId allowList (i + 1) rest
      if rp.id = rpId ∧ allowed allowList s.id = true then .ok (i :: tail) else .ok tail

/-- identity_vault.go:89-104 `Export` -/
def exportSources : List Source → Res (List SavedSource)
  | [] => .ok []
  | s :: rest => do
    let key ← Cose.marshalPrivate s.key
    match s.rp, s.user with
    | some rp, some user => do
      let tail ← exportSources rest
      .ok ({ type := s.type, id := s.id, key := key, rp := rp, user := user,
             counter := s.counter } :: tail)
    | _, _ => .panic .nilDeref

/-- identity_vault.go:108-115: the private key of a saved credential, in the COSE format or the
older DER format; `none` is the returned error. -/
def importKey (E : Env) (b : Bytes) : Res (Option PrivKey) := do
  match ← Cose.unmarshalPrivate E b with
  | some k => .ok (some k)
  | none =>
    match E.parseECDER b with
    | some k => .ok (some { ecdsa := some k })
    | none => .ok none

/-- The loop of identity_vault.go:107-125: the credentials decoded (with their keys), the final
value of the loop variable, and whether the loop ended without error. -/
def importLoop (E : Env) : SavedSource → List SavedSource →
    Res (List (SavedSource × PrivKey) × SavedSource × Bool)
  | last, [] => .ok ([], last, true)
  | _, s :: rest => do
    match ← importKey E s.key with
    | none => .ok ([], s, false)
    | some k => do
      let (l, last, ok) ← importLoop E s rest
      .ok ((s, k) :: l, last, ok)

/-- identity_vault.go:106-127 `Import`.  With `go 1.19` in go.mod the loop variable is one
variable for the whole loop, so `&source.RelyingParty` and `&source.User` of every imported
credential point into its final value. -/
def importSources (E : Env) (vault : List Source) (saved : List SavedSource) :
    Res (List Source × Bool) :=
  match saved with
  | [] => .ok (vault, true)
  | s0 :: _ => do
    let (l, last, ok) ← importLoop E s0 saved
    .ok (vault ++ l.map (fun (s, k) =>
      { type := s.type, id := s.id, key := k, rp := some last.rp, user := some last.user,
        counter := s.counter }), ok)

end VF.Fido.Vault
