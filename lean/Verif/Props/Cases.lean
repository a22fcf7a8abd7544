import Verif.Props.ClientPin
import Verif.Props.PinProtocol
import Verif.Props.Answers

/-!
# Concrete cases for the properties of PINs and answers

The theorems C34, C53, C54, C55, C57 and C61 speak of messages and what they lead to; here is a device
on which all of it happens: a PIN is set, the token is got with it, the PIN is changed.
-/

namespace VF.Props

open VF.Fido VF.Spec.Ctap VF.Spec.Client VF.Spec.Pin

/-- Three requests in a row, all successful: setPIN (C53, C61), getPINToken (C55, C34) and changePIN
(C54), the last one with another PIN. -/
example : ∃ (E : Env) (w0 w1 w2 w3 : World) (set token change body : Bytes) (a1 a2 : ClientPINArgs),
    Laws E ∧ w0.client.pinHash = none ∧
      Ctap.handleMessage E (0x06 :: set) w0 = (.ok [0], w1) ∧ E.decodeClientPIN set = some a1 ∧
      a1.subCommand = 3 ∧
      Ctap.handleMessage E (0x06 :: token) w1 = (.ok (0 :: body), w2) ∧
      E.decodeClientPIN token = some a2 ∧ a2.subCommand = 5 ∧ w1.client.pinToken.length = 16 ∧
      body ≠ [] ∧
      Ctap.handleMessage E (0x06 :: change) w2 = (.ok [0], w3) ∧
      w2.client.pinHash = some (hash E (ascii "1234")) ∧ w3.client.pinHash ≠ w2.client.pinHash := by
  let ap : List Ask → Action → Bytes → Bytes → Bool := fun _ _ _ _ => true
  have L := Toy.toy_laws ap
  have hag := world_agreement none 8
  have hh : Healthy (Toy.toy ap) (Toy.world true none 8).client := Toy.client_healthy ap _ _ _ (by simp)
  have hne : hash (Toy.toy ap) (ascii "56789") ≠ hash (Toy.toy ap) (ascii "1234") := by
    decide +kernel
  have f1 := L.decode_clientPIN _ (setPIN_fits L (pin := ascii "1234") hag (by decide +kernel))
  have f2 := L.decode_clientPIN _ (getPINToken_fits L (pin := ascii "1234") hag)
  have ht : (Toy.world true none 8).client.pinToken.length = 16 := rfl
  have hon : (Toy.world true none 8).client.pinEnabled = true := rfl
  have hno : (Toy.world true none 8).client.pinHash = none := rfl
  generalize Toy.world true none 8 = w0 at *
  obtain ⟨w1, r1, c1, -⟩ := C59_set_pin L (pin := ascii "1234") hh hon hno hag (by decide +kernel)
    (by decide +kernel) (by decide +kernel)
  have hh1 := Ctap.healthy_pin L hh 8 (ascii "1234")
  have hag1 : Agreement (Toy.toy ap) w1.client toyPlatform toyKey
      ((Toy.toy ap).sha256 (3 :: List.replicate 31 0)) := by
    rw [c1]; exact ⟨hag.1, hag.2, hag.3, hag.4, hag.5⟩
  obtain ⟨answer, enc, r2, s2, -⟩ := C59_get_token L (w := w1) (pin := ascii "1234")
    (by rw [c1]; exact hon) (by rw [c1]; simp) (by rw [c1]; exact ht) (by rw [c1]) hag1
  obtain ⟨w3, r3, c3, -⟩ := C59_change_pin L (w := { w1 with client := { w1.client with pinRetries := 8 } })
    (old := ascii "1234") (new := ascii "56789") (by rw [c1]; exact hh1) (by rw [c1]; exact hon)
    (by simp) (by rw [c1]) (by rw [c1]; exact ⟨hag.1, hag.2, hag.3, hag.4, hag.5⟩)
    (by decide +kernel) (by decide +kernel) (by decide +kernel)
  obtain ⟨body, rfl, hb⟩ := s2
  refine ⟨_, w0, w1, _, w3, _, _, _, body, _, _, L, hno, r1, f1, rfl, r2, f2, rfl, by rw [c1]; exact ht, ?_,
    r3, by rw [c1], ?_⟩
  · rintro rfl
    cases hb
  · rw [c3, c1]
    intro h
    exact hne (Option.some.inj h)

/-- getPINRetries (C34, C55): the answer is 3 mapped to the number of tries left, here 5. -/
example : ∃ (E : Env) (w : World) (data body : Bytes) (args : ClientPINArgs), Laws E ∧
    E.decodeClientPIN data = some args ∧ args.subCommand = 1 ∧ w.client.pinRetries = 5 ∧
    Ctap.handleMessage E (0x06 :: data) w = (.ok (0 :: body), w) ∧
    (0 :: body).length < 18446744073709551616 := by
  let ap : List Ask → Action → Bytes → Bytes → Bool := fun _ _ _ _ => true
  have L := Toy.toy_laws ap
  let args : ClientPINArgs := { getKeyAgreement with subCommand := 1 }
  have hd := L.decode_clientPIN args ⟨by simp [args, getKeyAgreement], by simp [args, getKeyAgreement],
    by simp [args, getKeyAgreement], by simp [args, getKeyAgreement]⟩
  refine ⟨_, Toy.world true none 5, _, VF.Cbor.encode (.map [(.int 3, .uint 5)]), args, L, hd, rfl, rfl,
    ?_, by decide +kernel⟩
  rw [Ctap.handleMessage_pin]
  unfold Ctap.handleClientPIN
  rw [Go.get_bind_run, if_neg (by simp [Toy.world, Toy.client]), hd]
  rfl

/-- No tries left (C57): the platform asks for the token with the right PIN, and the device panics. -/
example : ∃ (E : Env) (w : World) (data : Bytes) (args : ClientPINArgs), Laws E ∧
    w.client.pinEnabled = true ∧ w.client.pinRetries ≤ 0 ∧ E.decodeClientPIN data = some args ∧
    args.pinProtocol = 1 ∧ args.subCommand = 5 ∧ args.pinHashEnc ≠ none ∧
    (∃ key, args.keyAgreement = some key ∧ key.x ≠ none) ∧
    Ctap.handleMessage E (0x06 :: data) w = (.panic .explicit, w) := by
  have L := Toy.toy_laws fun _ _ _ _ => true
  have hag := world_agreement (some (hash (Toy.toy fun _ _ _ _ => true) (ascii "1234"))) 0
  have hd := L.decode_clientPIN _ (getPINToken_fits L (pin := ascii "1234") hag)
  have hk : toyKey.x ≠ none := by simp [toyKey]
  exact ⟨_, Toy.world true (some (hash (Toy.toy fun _ _ _ _ => true) (ascii "1234"))) 0, _, _, L, rfl,
    Int.le_refl 0, hd, rfl, rfl, by simp [getPINToken], ⟨_, rfl, hk⟩,
    C57_locked_out_panics _ (w := Toy.world true _ 0) rfl (Int.le_refl 0) hd rfl
      (.inr (.inr ⟨rfl, by simp [getPINToken], _, rfl, hk⟩))⟩

end VF.Props
