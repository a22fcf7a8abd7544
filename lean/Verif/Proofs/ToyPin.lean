import Verif.Proofs.ToyQuick
import Verif.Proofs.OverlapToy
import Verif.Spec.Pin

/-!
# The toy environment, computably, for a host that has a PIN

`quickPin` answers the requests of a platform that sets the PIN "1234", asks for a token, and proves with it that the user is
verified; it is the toy environment.
-/

namespace VF.Toy

open VF.Fido VF.Fido.Device VF.Cbor VF.Spec.Platform
open VF.Spec.Pin (getKeyAgreement setPIN getPINToken)

/-- The platform's key pair, as sent, and the secret it shares with a new device. -/
def platformKey : EC2Key := ⟨2, -25, 1, some (1 :: List.replicate 31 0), some (1 :: List.replicate 31 0), []⟩
noncomputable def platformSecret : Bytes := (toy agree).sha256 (2 :: List.replicate 31 0)

noncomputable def settingPIN : ClientPINArgs := setPIN (toy agree) platformKey platformSecret (ascii "1234")
noncomputable def askingToken : ClientPINArgs := getPINToken (toy agree) platformKey platformSecret (ascii "1234")

/-- The token of a new device, and a proof by it. -/
noncomputable def firstToken : Bytes := (toy agree).rand 0 16
noncomputable def verified : Option Bytes := some (Spec.Pin.auth (toy agree) firstToken (List.replicate 32 1))

/-- A descriptor of the credential that a new device creates once it has a PIN. -/
def madeLater : Descriptor := { type := ascii "public-key", id := List.replicate 16 6, transports := [] }

noncomputable def quickPin : Env :=
  { quick agree with
    decodeClientPIN := fun b => if b = encode (clientPINItem getKeyAgreement) then some getKeyAgreement
      else if b = encode (clientPINItem settingPIN) then some settingPIN
      else if b = encode (clientPINItem askingToken) then some askingToken else (toy agree).decodeClientPIN b
    decodeMakeCred := fun b => if b = makeData [] verified then some (makeArgs [] verified) else (quick agree).decodeMakeCred b
    decodeGetAssertion := fun b => if b = getData (some [madeLater]) none verified then some (getArgs (some [madeLater]) none verified)
      else (quick agree).decodeGetAssertion b }

theorem platformKey_fits : EC2Fits platformKey :=
  ⟨by unfold Int8Range; decide, by unfold Int8Range; decide, by unfold Int8Range; decide,
    (fun b hb => by obtain rfl := Option.some.inj hb; exact short_of_small (by decide)),
    (fun b hb => by obtain rfl := Option.some.inj hb; exact short_of_small (by decide)), short_of_small (by decide)⟩

theorem settingPIN_fits : ClientPINFits settingPIN := by
  refine ⟨?_, ?_, ?_, ?_⟩ <;> intro b hb
  · obtain rfl := Option.some.inj hb; exact platformKey_fits
  · obtain rfl := Option.some.inj hb; exact short_of_small (by decide +kernel)
  · obtain rfl := Option.some.inj hb; exact short_of_small (by decide +kernel)
  · cases hb

theorem askingToken_fits : ClientPINFits askingToken := by
  refine ⟨?_, ?_, ?_, ?_⟩ <;> intro b hb
  · obtain rfl := Option.some.inj hb; exact platformKey_fits
  · cases hb
  · cases hb
  · obtain rfl := Option.some.inj hb; exact short_of_small (by decide +kernel)

theorem verified_get_decodes :
    (toy agree).decodeGetAssertion (getData (some [madeLater]) none verified) = some (getArgs (some [madeLater]) none verified) := by
  apply (toy_laws agree).decode_getAssertion
  refine ⟨⟨utf8_ascii_example.1, short_of_small (by dsimp only [getArgs]; decide +kernel)⟩,
    short_of_small (by dsimp only [getArgs]; decide), ?_, ?_⟩
  · intro l hl
    obtain rfl : [madeLater] = l := by simpa [getArgs] using hl
    refine ⟨?_, by simp⟩
    intro d hd
    obtain rfl : d = madeLater := by simpa using hd
    exact ⟨short_of_small (by decide), text_publicKey, by simp [madeLater], by simp [madeLater]⟩
  · intro b hb
    obtain rfl := Option.some.inj hb
    exact short_of_small (by decide +kernel)

theorem verified_make_decodes : (toy agree).decodeMakeCred (makeData [] verified) = some (makeArgs [] verified) :=
  make_decodes agree [] verified (.inl rfl) fun b hb => by obtain rfl := Option.some.inj hb; decide +kernel

theorem quickPin_eq : quickPin = toy agree := by
  have h1 : quickPin.decodeClientPIN = (toy agree).decodeClientPIN := by
    funext b
    show (if _ then _ else _) = _
    split
    · rename_i h; rw [h]
      exact ((toy_laws agree).decode_clientPIN _ ⟨(fun b hb => by cases hb), (fun b hb => by cases hb), (fun b hb => by cases hb),
        (fun b hb => by cases hb)⟩).symm
    · split
      · rename_i h; rw [h]; exact ((toy_laws agree).decode_clientPIN _ settingPIN_fits).symm
      · split
        · rename_i h; rw [h]; exact ((toy_laws agree).decode_clientPIN _ askingToken_fits).symm
        · rfl
  have h2 : quickPin.decodeMakeCred = (toy agree).decodeMakeCred := by
    funext b
    show (if _ then _ else _) = _
    split
    · rename_i h; rw [h]; exact verified_make_decodes.symm
    · rw [quick_eq]
  have h3 : quickPin.decodeGetAssertion = (toy agree).decodeGetAssertion := by
    funext b
    show (if _ then _ else _) = _
    split
    · rename_i h; rw [h]; exact verified_get_decodes.symm
    · rw [quick_eq]
  have h : quickPin = { quick agree with
      decodeClientPIN := (toy agree).decodeClientPIN
      decodeMakeCred := (toy agree).decodeMakeCred
      decodeGetAssertion := (toy agree).decodeGetAssertion } := by
    rw [← h1, ← h2, ← h3]
    rfl
  rw [h, quick_eq]

end VF.Toy
