import Verif.Spec.Pin
import Verif.Model.Device

/-!
# Specification: guessing the PIN
-/

namespace VF.Spec.Secrecy

open VF.Fido VF.Spec.Pin

/-- The operation presents `h` as the hash of the PIN: it is a request for the token (5) or to change the
PIN (4) with `h` encrypted under the secret its sender shares with the device `c`. -/
def Presents (E : Env) (c : Client) (op : Op) (h : Bytes) : Prop :=
  ∃ data args key secret, op = .ctap (0x06 :: data) ∧ E.decodeClientPIN data = some args ∧
    (args.subCommand = 4 ∨ args.subCommand = 5) ∧ args.keyAgreement = some key ∧
    Secret E c key secret ∧ E.cbcDecrypt secret (args.pinHashEnc.getD []) = h

end VF.Spec.Secrecy
