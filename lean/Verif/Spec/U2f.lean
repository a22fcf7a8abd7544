import Verif.Spec.Client

/-!
# Specification: U2F raw messages

FIDO U2F Raw Message Formats 1.1, seen from the client.
-/

namespace VF.Spec.U2f

open VF.Fido

/-- Section 3.1.2, extended length encoding: header, three bytes of length, data, and the expected
length of the answer if there is one. -/
def apdu (cla ins p1 p2 : UInt8) (data : Bytes) (le : Option UInt16) : Bytes :=
  [cla, ins, p1, p2, 0] ++ be16 (UInt16.ofNat data.length) ++ data ++
    (match le with | some n => be16 n | none => [])

/-- Section 4.3: registration answer. -/
structure Registration where
  publicKey : Bytes
  keyHandle : Bytes
  certificate : Bytes
  signature : Bytes

/-- An answer without its status word, if the status word says success. -/
def succeeded (answer : Bytes) : Option Bytes :=
  if answer.drop (answer.length - 2) = [0x90, 0x00] then some (answer.take (answer.length - 2))
  else none

/-- 5, 65 bytes of public key, length and bytes of the key handle, a DER certificate, and the
signature. -/
def parseRegistration (answer : Bytes) : Option Registration :=
  match succeeded answer with
  | some (5 :: rest) =>
    match rest.drop 65 with
    | len :: tail =>
      if tail.length < len.toNat then none
      else
        match derSequence (tail.drop len.toNat) with
        | some (cert, sig) =>
          some { publicKey := rest.take 65, keyHandle := tail.take len.toNat
                 certificate := cert, signature := sig }
        | none => none
    | [] => none
  | _ => none

/-- An uncompressed point. -/
def parsePoint : Bytes → Option (Nat × Nat)
  | 4 :: rest =>
    if rest.length = 64 then some (Cbor.beNat (rest.take 32), Cbor.beNat (rest.drop 32)) else none
  | _ => none

/-- Section 5.4: authentication answer: user presence, counter, signature. -/
structure Authentication where
  userPresence : UInt8
  counter : Nat
  counterBytes : Bytes
  signature : Bytes

def parseAuthentication (answer : Bytes) : Option Authentication :=
  match succeeded answer with
  | some (up :: rest) =>
    if rest.length < 4 then none
    else some { userPresence := up, counter := Cbor.beNat (rest.take 4)
                counterBytes := rest.take 4, signature := rest.drop 4 }
  | _ => none

/-- The data of a registration request, and of an authentication request. -/
def registerData (challenge application : Bytes) : Bytes := challenge ++ application
def authenticateData (challenge application handle : Bytes) : Bytes :=
  challenge ++ application ++ [UInt8.ofNat handle.length] ++ handle

/-- The handle opens under the device's sealing key to this private key for this application. -/
def Sealed (E : Env) (deviceKey handle application : Bytes) (key : ECPriv) : Prop :=
  ∃ box plain der, E.decodeBox handle = some box ∧
    E.gcmOpen deviceKey box.iv box.data = some plain ∧
    E.decodeKeyHandle plain = some { privateKey := some der, applicationID := application } ∧
    E.parseECDER der = some key

end VF.Spec.U2f
