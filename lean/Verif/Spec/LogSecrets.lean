import Verif.Model.Logged
import Verif.Spec.U2f
import Verif.Spec.Pin

/-!
# What a log may show

An application chooses what is shown by `SetLogOutput` and `SetLogLevel` (see C69).  The level Unsafe is for those who want
to see secrets; everything else may end up in a file that others read.
-/

namespace VF.Spec.LogSecrets

open VF.Fido VF.Fido.Logged

/-- The lines that need no Unsafe to be shown. -/
def visible (lines : List Line) : List Line := lines.filter (fun l => l.level != .unsafeL)

/-- A value is in a line that needs no Unsafe to be shown. -/
def Shows (lines : List Line) (v : Datum) : Prop := ∃ l ∈ visible lines, v ∈ l.data

/-- Events whose lines are to say nothing that is not in the message or the answer.  Left out are: setting a PIN and asking
for a token by CTAP2, registrations by U2F that are not completed, and authentications by U2F whose key handle is refused. -/
def Discreet (E : Env) (reply : Reply) : Op → Prop
  | .ctap (6 :: data) => ∀ args, E.decodeClientPIN data = some args → args.subCommand ≠ 3 ∧ args.subCommand ≠ 5
  | .u2f (_ :: 1 :: _) => ∃ b reg, reply = .answer b ∧ U2f.parseRegistration b = some reg
  | .u2f (_ :: 2 :: _) => reply ≠ .answer [0x6A, 0x80]
  | _ => True

/-- The same for a history. -/
def AllDiscreet (E : Env) : List Op → List Reply → Prop
  | op :: ops, r :: rs => Discreet E r op ∧ AllDiscreet E ops rs
  | _, _ => True

/-- Two libraries that read messages in the same way; everything else, like their random numbers, may differ. -/
structure ReadsAlike (E E' : Env) : Prop where
  make : E.decodeMakeCred = E'.decodeMakeCred
  get : E.decodeGetAssertion = E'.decodeGetAssertion
  pin : E.decodeClientPIN = E'.decodeClientPIN

/-- A request for the token by somebody who has the stored hash of the PIN, but not the PIN. -/
def tokenByHash (E : Env) (key : EC2Key) (secret hash : Bytes) : ClientPINArgs :=
  { pinProtocol := 1, subCommand := 5, keyAgreement := some key, pinAuth := none
    newPinEnc := none, pinHashEnc := some (E.cbcEncrypt secret hash) }

end VF.Spec.LogSecrets
