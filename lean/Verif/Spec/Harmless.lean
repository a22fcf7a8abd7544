import Verif.Spec.U2fStatus
import Verif.Spec.Overlap

/-!
# Specification: requests that no state of the device makes it panic on

They are written from the rows with a crash in `Verif.Spec.Status` and `Verif.Spec.U2fStatus`, without the state.
-/

namespace VF.Spec.Harmless

open VF.Fido VF.Fido.Overlap VF.Spec.Client VF.Spec.Status VF.Spec.U2fStatus

/-- The key in the request is the public half of a key pair. -/
def OfPlatform (E : Env) (key : EC2Key) : Prop :=
  ∃ platform, ECDHValid E platform ∧ BigInt.ofBytes (key.x.getD []) = platform.x ∧
    BigInt.ofBytes (key.y.getD []) = platform.y

/-- ClientPIN: keys are public keys and encrypted parts are of whole blocks. -/
structure HarmlessPIN (E : Env) (args : ClientPINArgs) : Prop where
  setPIN : args.subCommand = 3 → ∀ key enc, args.keyAgreement = some key → args.newPinEnc = some enc →
    OfPlatform E key ∧ Blocks enc
  changePIN : args.subCommand = 4 → ∀ key, args.keyAgreement = some key →
    OfPlatform E key ∧ Blocks (args.newPinEnc.getD []) ∧ Blocks (args.pinHashEnc.getD [])
  getPINToken : args.subCommand = 5 → ∀ enc, args.pinHashEnc = some enc →
    ∃ key, args.keyAgreement = some key ∧ (key.x = none ∨ (OfPlatform E key ∧ Blocks enc))

/-- A CTAP2 request: a known command; registrations have a relying party and a user. -/
inductive HarmlessCtap (E : Env) : Bytes → Prop
  | makeCredential {data : Bytes} {args : MakeCredArgs} (hd : E.decodeMakeCred data = some args)
      (hrp : args.rp ≠ none) (hu : args.user ≠ none) : HarmlessCtap E (0x01 :: data)
  | getAssertion (data : Bytes) : HarmlessCtap E (0x02 :: data)
  | getInfo (data : Bytes) : HarmlessCtap E (0x04 :: data)
  | clientPIN {data : Bytes} (h : ∀ args, E.decodeClientPIN data = some args → HarmlessPIN E args) :
      HarmlessCtap E (0x06 :: data)

/-- The handle is a box sealed under the given key, and the private key in it is usable. -/
def Issued (E : Env) (deviceKey handle : Bytes) : Prop :=
  ∃ box plain, E.decodeBox handle = some box ∧ box.iv.length = 12 ∧
    E.gcmOpen deviceKey box.iv box.data = some plain ∧
    ∀ k der, E.decodeKeyHandle plain = some k → k.privateKey = some der →
      ∃ key, E.parseECDER der = some key ∧ ECValid E key

/-- A U2F request: well framed, with a known instruction; handles are the device's own or no handles at all. -/
inductive HarmlessU2f (E : Env) (deviceKey : Bytes) (m : Bytes) : Prop
  | version {p1 : UInt8} {data : Bytes} (h : Frame m 0x03 p1 data)
  | register {p1 : UInt8} {data : Bytes} (h : Frame m 0x01 p1 data) (hl : data.length = 64)
  | authenticate {p1 : UInt8} {data challenge application handle : Bytes} (h : Frame m 0x02 p1 data)
      (hf : Fields data challenge application handle)
      (ho : E.decodeBox handle = none ∨ Issued E deviceKey handle)

/-- An operation. -/
def Harmless (E : Env) (deviceKey : Bytes) : Op → Prop
  | .ctap m => HarmlessCtap E m
  | .u2f m => HarmlessU2f E deviceKey m
  | _ => True

/-- Does the operation try a PIN? -/
def tries (E : Env) : Op → Bool
  | .ctap (6 :: data) =>
    match E.decodeClientPIN data with
    | some args => args.subCommand == 4 || args.subCommand == 5
    | none => false
  | _ => false

/-- The start of an operation that tries a PIN. -/
def beginsTry (E : Env) : Event → Bool
  | .begin op => tries E op
  | _ => false

/-- The request for the number of attempts left. -/
def getRetries : ClientPINArgs :=
  { pinProtocol := 1, subCommand := 1, keyAgreement := none, pinAuth := none, newPinEnc := none, pinHashEnc := none }

/-- The operation begun. -/
def beginning : Event → Option Op
  | .begin op => some op
  | _ => none

/-- A host that behaves: its operations are harmless, and it does not try a PIN more than seven times between two
starts of the process. -/
structure Behaves (E : Env) (deviceKey : Bytes) (evs : List Event) : Prop where
  harmless : ∀ op, .begin op ∈ evs → Harmless E deviceKey op
  few : ∀ before between after, evs = before ++ between ++ after → .restart ∉ between →
    between.countP (beginsTry E) ≤ 7

end VF.Spec.Harmless
