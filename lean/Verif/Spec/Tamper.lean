import Verif.Spec.Draws
import Verif.Spec.Processes

/-!
# Specification: others write into the file

Somebody who does not know the passphrase replaces the saved data while the device is running or not: by earlier
saved data, by pieces of them, or by anything else that they can make without the keys.
-/

namespace VF.Spec.Tamper

open VF.Fido VF.Fido.Processes VF.Spec.Draws

/-- The device after a history. -/
def after (E : Env) (cfg : Client.Config) (d : Device) (evs : List Event) : Device := (Processes.run E cfg d evs).2

/-- What the device saves when it carries out a request: what is in the file afterwards if there was none before. -/
def savedBy (E : Env) (cfg : Client.Config) (d : Device) (op : Op) : Option Bytes :=
  (Device.step E cfg { d with world := { d.world with store := none } } op).2.world.store

/-- All that the device saves in a history, in this order. -/
def saved (E : Env) (cfg : Client.Config) : Device → List Event → List Bytes
  | _, [] => []
  | d, .own op :: evs => (savedBy E cfg d op).toList ++ saved E cfg (Device.step E cfg d op).2 evs
  | d, .wrote data :: evs => saved E cfg (wrote data d) evs

/-- The requests of a history, with the replies. -/
def seen (E : Env) (cfg : Client.Config) : Device → List Event → List (Op × Reply)
  | _, [] => []
  | d, .own op :: evs => (op, (Device.step E cfg d op).1) :: seen E cfg (Device.step E cfg d op).2 evs
  | d, .wrote data :: evs => seen E cfg (wrote data d) evs

/-- The integrity of AES-GCM, for what somebody made who has seen `old`, all that was encrypted so far, but knows neither
the passphrase nor the data keys: what opens under the key made from the passphrase is an encrypted data key of `old`, and
what then opens under that data key was encrypted under it. -/
structure Unforged (E : Env) (old : List Bytes) (data : Bytes) : Prop where
  key : ∀ blob, E.parseBlob data = some blob →
    E.gcmOpen (E.scrypt E.passphrase blob.salt) blob.keyNonce blob.encryptionKey ≠ none →
    ∃ b ∈ old, ∃ o, E.parseBlob b = some o ∧ E.scrypt E.passphrase o.salt = E.scrypt E.passphrase blob.salt ∧
      o.keyNonce = blob.keyNonce ∧ o.encryptionKey = blob.encryptionKey
  contents : ∀ blob k, E.parseBlob data = some blob → dataKey E blob = some k →
    (∃ b ∈ old, ∃ o, E.parseBlob b = some o ∧ dataKey E o = some k) →
    E.gcmOpen k blob.dataNonce blob.encryptedData ≠ none →
    ∃ b ∈ old, ∃ o, E.parseBlob b = some o ∧ dataKey E o = some k ∧
      o.dataNonce = blob.dataNonce ∧ o.encryptedData = blob.encryptedData

/-- A history in which others write nothing into the file that they could not make. -/
def Hostile (E : Env) (cfg : Client.Config) (d : Device) (evs : List Event) : Prop :=
  ∀ pre data post, evs = pre ++ .wrote data :: post → Unforged E (saved E cfg d pre) data

end VF.Spec.Tamper
