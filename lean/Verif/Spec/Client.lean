import Verif.Spec.Vault
import Verif.Spec.Laws

/-!
# Specification: healthy devices and what saved data holds
-/

namespace VF.Spec.Client

open VF.Fido VF.Spec.Vault VF.Spec.Cose

/-- A stored credential is complete: one valid key, relying party and user present, all texts
UTF-8. -/
def Complete (E : Env) (s : Source) : Prop :=
  Only s.key ∧ KeyValid E s.key ∧ utf8 s.type ∧
  (∃ rp, s.rp = some rp ∧ utf8 rp.id ∧ utf8 rp.name) ∧
  (∃ u, s.user = some u ∧ utf8 u.displayName ∧ utf8 u.name)

/-- The attestation certificate parses and its key is valid, the PIN hash is not the empty
string, and all credentials are complete. -/
def Healthy (E : Env) (c : Client) : Prop :=
  E.parseCert c.cert = true ∧ Only c.certKey ∧ KeyValid E c.certKey ∧ c.pinHash ≠ some [] ∧
  ∀ s ∈ c.vault, Complete E s

/-- What must survive a restart: sealing key, attestation certificate and key, PIN switch, PIN
hash, and the credentials with ids, types, keys and counters. -/
def SameDevice (c d : Client) : Prop :=
  c.deviceKey = d.deviceKey ∧ c.cert = d.cert ∧ SamePrivate c.certKey d.certKey ∧
  c.pinEnabled = d.pinEnabled ∧ c.pinHash = d.pinHash ∧ SameCredentials c.vault d.vault

/-- A start from this saved data, whatever the random draws, gives the device `c`. -/
def Holds (E : Env) (cfg : Client.Config) (store : Option Bytes) (c : Client) : Prop :=
  ∀ rnd, ∃ c', Client.start E cfg store rnd = .ok c' ∧ SameDevice c c'

/-- PIN protocol 1: the request carries the first 16 bytes of HMAC-SHA-256 of the client data
hash under the PIN token. -/
def PinAuthOk (E : Env) (c : Client) (clientDataHash : Bytes) (pinAuth : Option Bytes)
    (pinProtocol : UInt32) : Prop :=
  pinProtocol = 1 ∧ pinAuth = some ((E.hmac c.pinToken clientDataHash).take 16)

/-- The PIN rules of GetAssertion: without `pinAuth` the request goes on (without user
verification), with one it must be right. -/
def AssertionPinOk (E : Env) (c : Client) (args : GetAssertionArgs) : Prop :=
  c.pinEnabled = false ∨ args.pinAuth = none ∨
    PinAuthOk E c args.clientDataHash args.pinAuth args.pinProtocol

/-- The questions put to the user while the world went from `w` to `w'`. -/
def newAsks (w w' : World) : List Ask := w'.asks.drop w.asks.length

/-- The attestation certificate is a certificate of the attestation key, on P-256 (this is what
the demo and the tests create, attestation.go:16-38). -/
def CanAttest (E : Env) (c : Client) : Prop :=
  ∃ issuer, c.certKey = { ecdsa := some issuer } ∧ ECValid E issuer ∧
    E.certSubject c.cert = some { ecdsa := some issuer.pub }

end VF.Spec.Client
