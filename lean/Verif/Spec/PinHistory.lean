import Verif.Spec.Pin
import Verif.Spec.History

/-!
# Specification: what somebody knows of the PIN who has seen everything

Everything that was requested and answered, and for requests under PIN protocol 1 what they are after decryption.
-/

namespace VF.Spec.PinHistory

open VF.Fido VF.Spec.Pin VF.Spec.History

/-- A PIN was set: by the program, or by setPIN or changePIN requests that were answered with success. -/
def setsPIN (E : Env) : Op × Reply → Bool
  | (.setPIN _, .done) => true
  | (.ctap (6 :: data), .answer (0 :: _)) =>
    match E.decodeClientPIN data with
    | some args => args.subCommand == 3 || args.subCommand == 4
    | none => false
  | _ => false

/-- The PIN that was set, at a device `c` (whose key for the key agreement matters). -/
inductive SetTo (E : Env) (c : Client) : Op × Reply → Bytes → Prop
  | call (pin : Bytes) : SetTo E c (.setPIN pin, .done) pin
  | request {data body : Bytes} {args : ClientPINArgs} {key : EC2Key} {secret pin : Bytes}
      (hd : E.decodeClientPIN data = some args) (hs : args.subCommand = 3 ∨ args.subCommand = 4)
      (hk : args.keyAgreement = some key) (hsec : Secret E c key secret)
      (hp : Padded pin (E.cbcDecrypt secret (args.newPinEnc.getD []))) :
      SetTo E c (.ctap (6 :: data), .answer (0 :: body)) pin

/-- PIN support, switched on or off. -/
def switched (before : Bool) : Op × Reply → Bool
  | (.enablePIN, .done) => true
  | (.disablePIN, .done) => false
  | _ => before

/-- Whether PIN support is on. -/
def pinOn (first : Bool) (seen : List (Op × Reply)) : Bool := seen.foldl switched first

/-- How many wrong PINs are left after an exchange: 8 after a start or a right PIN, one less after a wrong one. -/
def counted (E : Env) (before : Nat) (e : Op × Reply) : Nat :=
  if e = (.restart, .started) then 8
  else if isRightPIN E e then 8
  else if isWrongPIN e then before - 1
  else before

def tries (E : Env) (seen : List (Op × Reply)) : Nat := seen.foldl (counted E) 8

end VF.Spec.PinHistory
