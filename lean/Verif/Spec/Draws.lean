import Verif.Spec.U2f
import Verif.Spec.Overlap
import Verif.Spec.Store

/-!
# Random values that must be different each time
-/

namespace VF.Spec.Draws

open VF.Fido VF.Spec.U2f VF.Spec.Store

/-- Of the first `n` draws no two give the same `length` bytes. -/
def Distinct (E : Env) (length n : Nat) : Prop := ∀ i j, i < n → j < n → E.rand i length = E.rand j length → i = j

/-- Of the first `n` draws no two give the same P-256 key. -/
def DistinctKeys (E : Env) (n : Nat) : Prop := ∀ i j, i < n → j < n → (E.genEC i).pub = (E.genEC j).pub → i = j

/-- A request to register, answered with success. -/
def Registered (e : Op × Reply) (reg : Registration) : Prop :=
  ∃ cla rest b, e = (.u2f (cla :: 1 :: rest), .answer b) ∧ parseRegistration b = some reg

/-- The public key that a request got: the one announced for a new credential (CTAP2), or the one of a registration (U2F). -/
def newKey : Op × Reply → Option (Nat × Nat)
  | (.ctap (1 :: _), .answer b) => (announced b).map fun c => (c.x, c.y)
  | (.u2f (_ :: 1 :: _), .answer b) => (parseRegistration b).bind fun reg => parsePoint reg.publicKey
  | _ => none

/-- The nonce under which a key handle was sealed. -/
def nonceOf (E : Env) (handle : Bytes) : Option Bytes := (E.decodeBox handle).map (·.iv)

/-- The key with which saved data was encrypted: it is in the data, encrypted under a key made from passphrase and salt. -/
def dataKey (E : Env) (blob : Blob) : Option Bytes :=
  E.gcmOpen (E.scrypt E.passphrase blob.salt) blob.keyNonce blob.encryptionKey

end VF.Spec.Draws
