import Verif.Model.Types
import Verif.Model.Env

/-!
# Specification: when two keys are the same, and the P-256 curve
-/

namespace VF.Spec.Cose

open VF.Fido

/-- What makes up an RSA private key (everything but precomputed values). -/
def rsaMaterial (k : RSAPriv) : Nat × Int × Nat × List Nat := (k.pub.n, k.pub.e, k.d, k.primes)

/-- Two private key structures hold the same key material. -/
def SamePrivate (a b : PrivKey) : Prop :=
  a.ecdsa = b.ecdsa ∧ a.ed25519 = b.ed25519 ∧ a.rsa.map rsaMaterial = b.rsa.map rsaMaterial

/-- The field prime and the constant `b` of P-256 (FIPS 186-4, D.1.2.3). -/
def fieldPrime : Nat := 2 ^ 256 - 2 ^ 224 + 2 ^ 192 + 2 ^ 96 - 1
def curveB : Nat := 0x5ac635d8aa3a93e7b3ebbd55769886bc651d06b0cc53b0f63bce3c3e27d2604b

/-- `y² = x³ - 3x + b` modulo the field prime. -/
def onCurve (x y : Nat) : Prop :=
  x < fieldPrime ∧ y < fieldPrime ∧
    (y * y + 3 * x) % fieldPrime = (x * x * x + curveB) % fieldPrime

instance (x y : Nat) : Decidable (onCurve x y) := by unfold onCurve; infer_instance

/-- Exactly one key is present, and it is a P-256, Ed25519 or RSA key. -/
inductive Only : PrivKey → Prop
  | ecdsa (k : ECPriv) : Only { ecdsa := some k }
  | ed25519 (k : Bytes) : Only { ed25519 := some k }
  | rsa (k : RSAPriv) : Only { rsa := some k }

/-- The signature is genuine for a key in the structure, by that key's algorithm (ES256, Ed25519, PS256). -/
def Genuine (E : Env) (k : PubKey) (data sig : Bytes) : Prop :=
  (∃ ec, k.ecdsa = some ec ∧ E.verifyEC ec (E.sha256 data) sig = true) ∨
  (∃ ed, k.ed25519 = some ed ∧ E.verifyEd ed data sig = true) ∨
  (∃ r, k.rsa = some r ∧ E.verifyRSA r (E.sha256 data) sig = true)

end VF.Spec.Cose
