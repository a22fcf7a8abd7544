import Verif.Spec.Vault
import Verif.Spec.Client

/-!
# Specification: saved data of older versions

Older versions saved private keys in DER, this one saves them as COSE keys.
-/

namespace VF.Spec.OldFormat

open VF.Fido VF.Spec.Cose

/-- The key as this version saves it. -/
def New (E : Env) (b : Bytes) (k : PrivKey) : Prop := Only k ∧ KeyValid E k ∧ Cose.marshalPrivate k = .ok b

/-- The key as older versions saved it: a P-256 key in DER. -/
def Old (E : Env) (b : Bytes) (k : PrivKey) : Prop := ∃ ec, ECValid E ec ∧ k = { ecdsa := some ec } ∧ b = ecToDER ec

def Readable (E : Env) (b : Bytes) (k : PrivKey) : Prop := New E b k ∨ Old E b k

/-- Neither a COSE key nor a key in DER. -/
def Unreadable (E : Env) (b : Bytes) : Prop := E.decodeKeyHeader b = none ∧ E.parseECDER b = none

/-- DER does not look like a COSE key: its first byte, 0x30, is a negative integer in CBOR, and more follows. -/
def Apart (E : Env) : Prop := ∀ ec, ECValid E ec → E.decodeKeyHeader (ecToDER ec) = none

/-- The credential that was saved, with the key `k`; the entities apart (C38). -/
def Restored (s : SavedSource) (k : PrivKey) (c : Source) : Prop :=
  c.id = s.id ∧ c.type = s.type ∧ c.counter = s.counter ∧ SamePrivate k c.key

/-- The device with these saved data and these credentials. -/
structure Restores (st : SavedState) (certKey : PrivKey) (creds : List (SavedSource × PrivKey)) (c : Client) : Prop where
  deviceKey : c.deviceKey = st.encryptionKey
  cert : c.cert = st.cert
  certKey : SamePrivate certKey c.certKey
  authCounter : c.authCounter = st.authCounter
  pinEnabled : c.pinEnabled = st.pinEnabled
  pinHash : c.pinHash = if st.pinHash = some [] then none else st.pinHash
  count : c.vault.length = creds.length
  creds : ∀ (i : Nat) (p : SavedSource × PrivKey) (s : Source), creds[i]? = some p → c.vault[i]? = some s → Restored p.1 p.2 s

end VF.Spec.OldFormat
