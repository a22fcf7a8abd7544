import Verif.Model.Device
import Verif.Spec.Client

/-!
# Specification: histories
-/

namespace VF.Spec.History

open VF.Fido VF.Spec.Cose

/-- The program starts the client with a certificate that parses and one valid key. -/
def Usable (E : Env) (cfg : Client.Config) : Prop :=
  E.parseCert cfg.cert = true ∧ Only cfg.certKey ∧ KeyValid E cfg.certKey

/-- GetAssertion requests. -/
def isGetAssertion : Op → Bool
  | .ctap (2 :: _) => true
  | _ => false

/-- MakeCredential requests. -/
def isMakeCredential : Op → Bool
  | .ctap (1 :: _) => true
  | _ => false

/-- U2F authentication requests. -/
def isU2fAuthenticate : Op → Bool
  | .u2f (_ :: 2 :: _) => true
  | _ => false

def isRestart : Op → Bool
  | .restart => true
  | _ => false

/-- An attempt to use the PIN: ClientPIN with subcommand changePIN or getPINToken. -/
def isPINAttempt (E : Env) : Op → Bool
  | .ctap (6 :: data) =>
    match E.decodeClientPIN data with
    | some args => args.subCommand == 4 || args.subCommand == 5
    | none => false
  | _ => false

/-- ClientPIN with subcommand setPIN. -/
def isSetPIN (E : Env) : Op → Bool
  | .ctap (6 :: data) =>
    match E.decodeClientPIN data with
    | some args => args.subCommand == 3
    | none => false
  | _ => false

/-- The answer PIN_INVALID to a ClientPIN request. -/
def isWrongPIN : Op × Reply → Bool
  | (.ctap (6 :: _), .answer [0x31]) => true
  | _ => false

/-- A PIN operation that succeeded: a status 0 answer to setPIN, changePIN or getPINToken, or
PIN_POLICY_VIOLATION to changePIN (the old PIN was right, the new one is too short). -/
def isRightPIN (E : Env) : Op × Reply → Bool
  | (op, .answer (0 :: _)) => isPINAttempt E op || isSetPIN E op
  | (op, .answer [0x37]) => isPINAttempt E op
  | _ => false

/-- A history with its replies. -/
def events (E : Env) (cfg : Client.Config) (d : Device) (ops : List Op) : List (Op × Reply) :=
  ops.zip (Device.run E cfg d ops).1

/-- Random draws below `n` do not repeat, as far as ids of credentials are concerned. -/
def DistinctDraws (E : Env) (n : Nat) : Prop :=
  ∀ i j, i < n → j < n → E.rand i 16 = E.rand j 16 → i = j

end VF.Spec.History
