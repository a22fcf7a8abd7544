import Verif.Model.Device

/-!
# Specification: relying parties and their credentials
-/

namespace VF.Spec.Isolation

open VF.Fido

/-- The credential is for the relying party with this id. -/
def isFor (rpId : Bytes) (s : Source) : Bool := s.rp.map (·.id) == some rpId

/-- The device can write all its credentials down: each names a relying party and a user and has a key. -/
def Savable (v : List Source) : Prop := ∃ l, Vault.exportSources v = .ok l

/-- Two running devices that differ at most in the credentials for relying parties other than this one (and
in what they saved). -/
def DifferInOthers (rpId : Bytes) (d1 d2 : Device) : Prop :=
  d1.alive = true ∧ d2.alive = true ∧
  d2.world.client = { d1.world.client with vault := d2.world.client.vault } ∧
  d2.world.rnd = d1.world.rnd ∧ d2.world.asks = d1.world.asks ∧
  d1.world.client.vault.filter (isFor rpId) = d2.world.client.vault.filter (isFor rpId) ∧
  Savable d1.world.client.vault ∧ Savable d2.world.client.vault

/-- What may happen in a relying party's view: anything but a restart or a deletion, and requests for
assertions only for it. -/
def Within (E : Env) (rpId : Bytes) : Op → Prop
  | .restart => False
  | .deleteIdentity _ => False
  | .ctap (2 :: data) => ∀ args, E.decodeGetAssertion data = some args → args.rpId = rpId
  | _ => True

end VF.Spec.Isolation
