import Verif.Spec.Cose

/-!
# Specification: matching and restored credentials
-/

namespace VF.Spec.Vault

open VF.Fido

/-- The credential belongs to the relying party and is in the allow list, if there is one. -/
def Matches (rpId : Bytes) (allowList : Option (List Descriptor)) (s : Source) : Prop :=
  (∃ rp, s.rp = some rp ∧ rp.id = rpId) ∧
  (∀ l, allowList = some l → ∃ d ∈ l, d.id = s.id)

/-- Same id, type, key material and counter. -/
def SameCredential (a b : Source) : Prop :=
  a.id = b.id ∧ a.type = b.type ∧ a.counter = b.counter ∧ Cose.SamePrivate a.key b.key

/-- Two vaults with the same credentials in the same order. -/
def SameCredentials (v w : List Source) : Prop :=
  v.length = w.length ∧ ∀ (i : Nat) (a b : Source), v[i]? = some a → w[i]? = some b → SameCredential a b

end VF.Spec.Vault
