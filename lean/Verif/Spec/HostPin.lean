import Verif.Spec.Pin
import Verif.Spec.PinHistory
import Verif.Spec.Ctap
import Verif.Spec.Laws

/-!
# Specification: what a platform makes of the answers it was given, under PIN protocol 1
-/

namespace VF.Spec.HostPin

open VF.Fido VF.Spec.Pin VF.Spec.Ctap

/-- A platform with the key pair `platform`, which it sends as `key`, was told the device's key and has computed a secret
from it.  (As in C59: the shared point's x-coordinate fills all 32 bytes.) -/
def HasSecret (E : Env) (told : List (Op × Reply)) (platform : ECDHKey) (key : EC2Key) (secret : Bytes) : Prop :=
  ∃ a xb yb, (.ctap (request getKeyAgreement), .answer a) ∈ told ∧
    Success a (.map [(.int 1, .map [(.int 1, .int 2), (.int 3, .int (-25)), (.int (-1), .int 0), (.int (-2), .bytes xb),
      (.int (-3), .bytes yb)])]) ∧
    ECDHValid E platform ∧ PlatformKey platform key ∧ PlatformSecret E platform (Cbor.beNat xb) (Cbor.beNat yb) secret ∧
    ∀ s, E.ecdh platform.priv (Cbor.beNat xb) (Cbor.beNat yb) = some s → 2 ^ 248 ≤ s

/-- ... and was told a PIN token, which it has decrypted with the secret. -/
def HasToken (E : Env) (told : List (Op × Reply)) (token : Bytes) : Prop :=
  ∃ platform key secret pin a enc, HasSecret E told platform key secret ∧
    (.ctap (request (getPINToken E key secret pin)), .answer a) ∈ told ∧
    Success a (.map [(.int 2, .bytes enc)]) ∧ token = E.cbcDecrypt secret enc

end VF.Spec.HostPin
