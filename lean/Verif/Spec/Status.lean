import Verif.Spec.Pin
import Verif.Model.Device

/-!
# Specification: the outcome of a CTAP2 request as decision tables

A table is a list of rows, each with a condition and an outcome; the first row whose condition holds
decides.
-/

namespace VF.Spec.Status

open VF.Fido VF.Spec.Client VF.Spec.Vault VF.Spec.Pin

/-- What a client sees: a status byte, or the end of the process. -/
inductive Outcome where
  | status (s : UInt8)
  | crash
  deriving DecidableEq, Repr

/-- The outcome a reply shows.  An answer with an error status is this one byte. -/
inductive Shows : Reply → Outcome → Prop
  | success (body : Bytes) : Shows (.answer (0 :: body)) (.status 0)
  | error (s : UInt8) (h : s ≠ 0) : Shows (.answer [s]) (.status s)
  | crash : Shows .panicked .crash

/-- The first row whose condition holds decides. -/
inductive Decides {α : Type} : List (Prop × α) → α → Prop
  | here {p : Prop} {o : α} {rows : List (Prop × α)} (h : p) : Decides ((p, o) :: rows) o
  | next {p : Prop} {o o' : α} {rows : List (Prop × α)} (h : ¬ p) (hr : Decides rows o') :
      Decides ((p, o) :: rows) o'

/-- MakeCredential with the given arguments. -/
def makeCredential (E : Env) (w : World) (args : MakeCredArgs) : List (Prop × Outcome) := [
  -- no supported algorithm
  (¬ ∃ p ∈ args.params, p.alg = -7 ∧ p.type = ascii "public-key", .status 0x26),
  -- a proof of the PIN that is wrong
  (w.client.pinEnabled = true ∧ args.pinAuth ≠ none ∧
    ¬ PinAuthOk E w.client args.clientDataHash args.pinAuth args.pinProtocol, .status 0x33),
  -- a PIN is set and no proof of it was sent
  (w.client.pinEnabled = true ∧ w.client.pinHash ≠ none ∧ args.pinAuth = none, .status 0x36),
  -- no relying party
  (args.rp = none, .crash),
  -- the user refuses
  (∃ rp, args.rp = some rp ∧ E.approve w.asks .makeCredential rp.name [] = false, .status 0x27),
  -- no user
  (args.user = none, .crash),
  (True, .status 0)]

/-- The first credential that matches. -/
def IsFirst (rpId : Bytes) (allowList : Option (List Descriptor)) (v : List Source) (s : Source) :
    Prop :=
  ∃ before rest, v = before ++ s :: rest ∧ Matches rpId allowList s ∧
    ∀ x ∈ before, ¬ Matches rpId allowList x

/-- GetAssertion with the given arguments. -/
def getAssertion (E : Env) (w : World) (args : GetAssertionArgs) : List (Prop × Outcome) := [
  -- a proof of the PIN that is wrong
  (w.client.pinEnabled = true ∧ args.pinAuth ≠ none ∧
    ¬ PinAuthOk E w.client args.clientDataHash args.pinAuth args.pinProtocol, .status 0x33),
  -- no such credential
  (¬ ∃ s ∈ w.client.vault, Matches args.rpId args.allowList s, .status 0x2E),
  -- the user is asked and refuses
  (args.up ≠ some false ∧ ∃ s rp user, IsFirst args.rpId args.allowList w.client.vault s ∧
    s.rp = some rp ∧ s.user = some user ∧
    E.approve w.asks .getAssertion rp.name user.name = false, .status 0x27),
  (True, .status 0)]

/-- The secret shared with the owner of the key in the request exists and satisfies `P`. -/
def WithSecret (E : Env) (w : World) (args : ClientPINArgs) (P : Bytes → Prop) : Prop :=
  ∃ key secret, args.keyAgreement = some key ∧ Secret E w.client key secret ∧ P secret

/-- Parts of whole blocks. -/
def Blocks (b : Bytes) : Prop := b.length % 16 = 0

/-- The encrypted PIN has at least four bytes. -/
def LongEnough (E : Env) (secret enc : Bytes) : Prop :=
  ∃ pin, Padded pin (E.cbcDecrypt secret enc) ∧ 4 ≤ pin.length

/-- setPIN (subcommand 3). -/
def setPIN (E : Env) (w : World) (args : ClientPINArgs) : List (Prop × Outcome) :=
  let enc := args.newPinEnc.getD []
  [ -- there is a PIN already
    (w.client.pinHash ≠ none, .status 0x33),
    (args.keyAgreement = none ∨ args.pinAuth = none ∨ args.newPinEnc = none, .status 0x14),
    -- the key is not on the curve
    (¬ WithSecret E w args (fun _ => True), .crash),
    (¬ WithSecret E w args (fun s => args.pinAuth = some (auth E s enc)), .status 0x33),
    (¬ Blocks enc, .crash),
    (¬ WithSecret E w args (fun s => LongEnough E s enc), .status 0x37),
    (True, .status 0)]

/-- changePIN (subcommand 4). -/
def changePIN (E : Env) (w : World) (args : ClientPINArgs) : List (Prop × Outcome) :=
  let enc := args.newPinEnc.getD []
  let henc := args.pinHashEnc.getD []
  [ (args.keyAgreement = none ∨ args.pinAuth = none, .status 0x14),
    -- no attempts left
    (w.client.pinRetries = 0, .crash),
    (¬ WithSecret E w args (fun _ => True), .crash),
    (¬ WithSecret E w args (fun s => args.pinAuth = some (auth E s (enc ++ henc))), .status 0x33),
    (¬ Blocks henc, .crash),
    -- wrong PIN; without a PIN the empty hash is right
    (¬ WithSecret E w args (fun s => E.cbcDecrypt s henc = w.client.pinHash.getD []), .status 0x31),
    (¬ Blocks enc, .crash),
    (¬ WithSecret E w args (fun s => LongEnough E s enc), .status 0x37),
    (True, .status 0)]

/-- getPINToken (subcommand 5). -/
def getPINToken (E : Env) (w : World) (args : ClientPINArgs) : List (Prop × Outcome) :=
  let henc := args.pinHashEnc.getD []
  [ (args.pinHashEnc = none, .status 0x14),
    (args.keyAgreement = none, .crash),
    (∃ key, args.keyAgreement = some key ∧ key.x = none, .status 0x14),
    -- no attempts left
    (w.client.pinRetries = 0, .crash),
    (¬ WithSecret E w args (fun _ => True), .crash),
    (¬ Blocks henc, .crash),
    -- wrong PIN; without a PIN the empty hash is right
    (¬ WithSecret E w args (fun s => E.cbcDecrypt s henc = w.client.pinHash.getD []), .status 0x31),
    (True, .status 0)]

/-- The table for a ClientPIN request. -/
inductive ClientPIN (E : Env) (w : World) (data : Bytes) : Outcome → Prop
  /-- PIN support is switched off -/
  | off (h : w.client.pinEnabled = false) : ClientPIN E w data (.status 0x01)
  | undecodable (h : w.client.pinEnabled = true) (hd : E.decodeClientPIN data = none) :
      ClientPIN E w data (.status 0x12)
  | protocol {args : ClientPINArgs} (h : w.client.pinEnabled = true)
      (hd : E.decodeClientPIN data = some args) (hp : args.pinProtocol ≠ 1) :
      ClientPIN E w data (.status 0x02)
  | getRetries {args : ClientPINArgs} {o : Outcome} (h : w.client.pinEnabled = true)
      (hd : E.decodeClientPIN data = some args) (hp : args.pinProtocol = 1) (hs : args.subCommand = 1)
      (ho : Decides [(w.client.pinRetries = 0, .crash), (True, .status 0)] o) : ClientPIN E w data o
  | getKeyAgreement {args : ClientPINArgs} (h : w.client.pinEnabled = true)
      (hd : E.decodeClientPIN data = some args) (hp : args.pinProtocol = 1)
      (hs : args.subCommand = 2) : ClientPIN E w data (.status 0)
  | setPIN {args : ClientPINArgs} {o : Outcome} (h : w.client.pinEnabled = true)
      (hd : E.decodeClientPIN data = some args) (hp : args.pinProtocol = 1) (hs : args.subCommand = 3)
      (ho : Decides (setPIN E w args) o) : ClientPIN E w data o
  | changePIN {args : ClientPINArgs} {o : Outcome} (h : w.client.pinEnabled = true)
      (hd : E.decodeClientPIN data = some args) (hp : args.pinProtocol = 1) (hs : args.subCommand = 4)
      (ho : Decides (changePIN E w args) o) : ClientPIN E w data o
  | getPINToken {args : ClientPINArgs} {o : Outcome} (h : w.client.pinEnabled = true)
      (hd : E.decodeClientPIN data = some args) (hp : args.pinProtocol = 1) (hs : args.subCommand = 5)
      (ho : Decides (getPINToken E w args) o) : ClientPIN E w data o
  | subcommand {args : ClientPINArgs} (h : w.client.pinEnabled = true)
      (hd : E.decodeClientPIN data = some args) (hp : args.pinProtocol = 1)
      (hs : args.subCommand = 0 ∨ 5 < args.subCommand) : ClientPIN E w data (.status 0x14)

/-- The outcome of a CTAP2 request: a command byte and data. -/
inductive Expected (E : Env) (w : World) : Bytes → Outcome → Prop
  | makeCredential {data : Bytes} {args : MakeCredArgs} {o : Outcome}
      (hd : E.decodeMakeCred data = some args) (ho : Decides (makeCredential E w args) o) :
      Expected E w (0x01 :: data) o
  | makeCredentialUndecodable {data : Bytes} (hd : E.decodeMakeCred data = none) :
      Expected E w (0x01 :: data) .crash
  | getAssertion {data : Bytes} {args : GetAssertionArgs} {o : Outcome}
      (hd : E.decodeGetAssertion data = some args) (ho : Decides (getAssertion E w args) o) :
      Expected E w (0x02 :: data) o
  | getAssertionUndecodable {data : Bytes} (hd : E.decodeGetAssertion data = none) :
      Expected E w (0x02 :: data) (.status 0x12)
  | getInfo {data : Bytes} : Expected E w (0x04 :: data) (.status 0)
  | clientPIN {data : Bytes} {o : Outcome} (ho : ClientPIN E w data o) : Expected E w (0x06 :: data) o
  | unknown {c : UInt8} {data : Bytes} (h1 : c ≠ 1) (h2 : c ≠ 2) (h4 : c ≠ 4) (h6 : c ≠ 6) :
      Expected E w (c :: data) .crash
  | empty : Expected E w [] .crash

end VF.Spec.Status
