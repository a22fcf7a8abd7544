import Verif.Proofs.PinProgress
import Verif.Props.MakeCredential
import Verif.Props.ClientPin

/-!
# A conforming platform and the PIN (C59)
-/

namespace VF.Props

open VF.Fido VF.Spec.Ctap VF.Spec.Client VF.Spec.Pin

/-- Asking for the key agreement key gives the device's public key. -/
theorem C59_key_agreement {E : Env} (L : Laws E) {w : World} (hon : w.client.pinEnabled = true)
    (hka : ECDHValid E w.client.keyAgreement) :
    ∃ answer xb yb, Ctap.handleMessage E (request getKeyAgreement) w = (.ok answer, w) ∧
      Success answer (.map [(.int 1, .map [(.int 1, .int 2), (.int 3, .int (-25)),
        (.int (-1), .int 0), (.int (-2), .bytes xb), (.int (-3), .bytes yb)])]) ∧
      Spec.Cbor.beNat xb = w.client.keyAgreement.x ∧
      Spec.Cbor.beNat yb = w.client.keyAgreement.y := by
  have hd := L.decode_clientPIN getKeyAgreement
    ⟨by simp [getKeyAgreement], by simp [getKeyAgreement], by simp [getKeyAgreement],
      by simp [getKeyAgreement]⟩
  have hr : Ctap.handleMessage E (request getKeyAgreement) w = (.ok (0 :: VF.Cbor.encode
      (Ctap.keyAgreementItem { kty := Cose.ktyEC2, alg := Cose.algECDH, crv := 0
                               x := some (BigInt.toBytes w.client.keyAgreement.x)
                               y := some (BigInt.toBytes w.client.keyAgreement.y), d := [] })), w) := by
    unfold request
    rw [Ctap.handleMessage_pin]
    unfold Ctap.handleClientPIN
    rw [Go.get_bind_run, if_neg (by simp [hon]), hd]
    rfl
  refine ⟨_, _, _, hr, ?_, BigInt.ofBytes_toBytes _, BigInt.ofBytes_toBytes _⟩
  obtain ⟨d, -, -, -, hxy⟩ := hka
  have hlt := L.ecPublic_lt d
  rw [← hxy] at hlt
  have e : (256 : Nat) ^ 32 = 2 ^ 256 := by decide +kernel
  have lx := BigInt.toBytes_length_le 32 w.client.keyAgreement.x (by rw [e]; exact hlt.1)
  have ly := BigInt.toBytes_length_le 32 w.client.keyAgreement.y (by rw [e]; exact hlt.2)
  apply Ctap.success_of_wf
  refine Ctap.keyAgreementItem_wf (VF.Cbor.ec2Item_wf _ ?_ ?_ ?_ ?_ ?_ ?_)
  · simp [Cose.ktyEC2, Int8Range]
  · simp [Cose.algECDH, Int8Range]
  · simp [Int8Range]
  · intro x hx; obtain rfl := by simpa using hx
    unfold Short; omega
  · intro x hx; obtain rfl := by simpa using hx
    unfold Short; omega
  · simp [Short]

/-- What the two sides need to agree on a secret: valid key pairs, and an x-coordinate of the
shared point that fills all 32 bytes. -/
structure Agreement (E : Env) (c : Client) (platform : ECDHKey) (key : EC2Key) (secret : Bytes) :
    Prop where
  device : ECDHValid E c.keyAgreement
  platform_valid : ECDHValid E platform
  key_sent : PlatformKey platform key
  secret_known : PlatformSecret E platform c.keyAgreement.x c.keyAgreement.y secret
  full : ∀ s, E.ecdh platform.priv c.keyAgreement.x c.keyAgreement.y = some s → 2 ^ 248 ≤ s

theorem agreement_secret {E : Env} (L : Laws E) {c : Client} {platform : ECDHKey} {key : EC2Key}
    {secret : Bytes} (h : Agreement E c platform key secret) :
    Ctap.sharedSecret E c key = .ok secret ∧ secret.length = 32 ∧ Spec.Platform.EC2Fits key ∧
      key.x ≠ none := by
  obtain ⟨xb, yb, hx, hxb, hy, hyb, rfl⟩ := h.key_sent
  obtain ⟨b, hb, hs, rfl⟩ := h.secret_known
  obtain ⟨s, hlt, h1, h2⟩ := L.ecdh_agrees _ _ h.device h.platform_valid
  have hbs : Spec.Cbor.beNat b = s := by
    rw [h2] at hs; exact (Option.some.inj hs).symm
  have hbig := h.full s h2
  refine ⟨?_, L.sha256_length _, ?_, by simp⟩
  · unfold Ctap.sharedSecret ecdhSecret
    simp only [Option.getD_some]
    rw [show BigInt.ofBytes xb = platform.x from hxb, show BigInt.ofBytes yb = platform.y from hyb,
      h1]
    simp only [Res.bind_ok]
    rw [BigInt.eq_toBytes hb hbs hbig hlt]
  · refine ⟨by simp [Int8Range], by simp [Int8Range], by simp [Int8Range], ?_, ?_, by simp [Short]⟩
    · intro x h; obtain rfl := by simpa using h
      unfold Short; omega
    · intro x h; obtain rfl := by simpa using h
      unfold Short; omega

theorem pad64_length {pin : Bytes} (h : pin.length ≤ 63) : (pad64 pin).length = 64 := by
  simp [pad64]; omega

theorem pad64_padded {pin : Bytes} (h : pin.length ≤ 63) (hz : (0 : UInt8) ∉ pin) :
    Padded pin (pad64 pin) := by
  refine ⟨hz, List.replicate (63 - pin.length) 0, ?_⟩
  unfold pad64
  rw [show 64 - pin.length = (63 - pin.length) + 1 by omega, List.replicate_succ]

theorem auth_length {E : Env} (L : Laws E) (s m : Bytes) : (auth E s m).length = 16 := by
  simp [auth, L.hmac_length]

theorem hash_length {E : Env} (L : Laws E) (pin : Bytes) : (hash E pin).length = 16 := by
  simp [Spec.Pin.hash, L.sha256_length]

theorem setPIN_fits {E : Env} (L : Laws E) {c : Client} {platform : ECDHKey} {key : EC2Key} {secret pin : Bytes}
    (hag : Agreement E c platform key secret) (h63 : pin.length ≤ 63) :
    Spec.Platform.ClientPINFits (setPIN E key secret pin) := by
  obtain ⟨hss, hsl, hfit, -⟩ := agreement_secret L hag
  have hl := pad64_length h63
  have hel : (E.cbcEncrypt secret (pad64 pin)).length = 64 := by
    rw [L.cbc_length _ _ hsl (by omega), hl]
  refine ⟨?_, ?_, ?_, by simp [setPIN]⟩
  · intro k hk; obtain rfl : k = key := by simpa [setPIN] using hk.symm
    exact hfit
  · intro b hb
    obtain rfl : b = _ := by simpa [setPIN] using hb.symm
    have := auth_length L secret (E.cbcEncrypt secret (pad64 pin))
    unfold Short; omega
  · intro b hb
    obtain rfl : b = _ := by simpa [setPIN] using hb.symm
    unfold Short; omega

/-- Setting the PIN of a device without one. -/
theorem C59_set_pin {E : Env} (L : Laws E) {w : World} {platform : ECDHKey} {key : EC2Key}
    {secret pin : Bytes} (hh : Healthy E w.client) (hon : w.client.pinEnabled = true)
    (hno : w.client.pinHash = none) (hag : Agreement E w.client platform key secret)
    (h4 : 4 ≤ pin.length) (h63 : pin.length ≤ 63) (hz : (0 : UInt8) ∉ pin) :
    ∃ w', Ctap.handleMessage E (request (setPIN E key secret pin)) w = (.ok [0], w') ∧
      w'.client = { w.client with pinRetries := 8, pinHash := some (hash E pin) } ∧
      w'.asks = w.asks ∧ ∀ cfg, Holds E cfg w'.store w'.client := by
  obtain ⟨hss, hsl, hfit, -⟩ := agreement_secret L hag
  have hl := pad64_length h63
  have hel : (E.cbcEncrypt secret (pad64 pin)).length = 64 := by
    rw [L.cbc_length _ _ hsl (by omega), hl]
  have hfits := setPIN_fits L hag h63
  obtain ⟨blob, hsv, hr⟩ := Ctap.setPIN_succeeds L hh hon hno (L.decode_clientPIN _ hfits) rfl rfl rfl
    rfl rfl hss hsl (by omega) (by rw [L.cbc_decrypt _ _ hsl (by omega)]; exact pad64_padded h63 hz) h4
  exact ⟨_, hr, rfl, rfl, fun cfg => saves_holds L (Ctap.healthy_pin L hh 8 pin) hsv cfg⟩

theorem getPINToken_fits {E : Env} (L : Laws E) {c : Client} {platform : ECDHKey} {key : EC2Key} {secret pin : Bytes}
    (hag : Agreement E c platform key secret) : Spec.Platform.ClientPINFits (getPINToken E key secret pin) := by
  obtain ⟨hss, hsl, hfit, hx⟩ := agreement_secret L hag
  have hl := hash_length L pin
  have hel : (E.cbcEncrypt secret (hash E pin)).length = 16 := by
    rw [L.cbc_length _ _ hsl (by omega), hl]
  refine ⟨?_, by simp [getPINToken], by simp [getPINToken], ?_⟩
  · intro k hk; obtain rfl : k = key := by simpa [getPINToken] using hk.symm
    exact hfit
  · intro b hb
    obtain rfl : b = _ := by simpa [getPINToken] using hb.symm
    unfold Short; omega

/-- Getting the token with the right PIN, whatever happened before: the platform decrypts exactly
the device's token. -/
theorem C59_get_token {E : Env} (L : Laws E) {w : World} {platform : ECDHKey} {key : EC2Key}
    {secret pin : Bytes} (hon : w.client.pinEnabled = true)
    (hn : 0 < w.client.pinRetries ∧ w.client.pinRetries ≤ 8)
    (htok : w.client.pinToken.length = 16) (hpin : w.client.pinHash = some (hash E pin))
    (hag : Agreement E w.client platform key secret) :
    ∃ answer enc, Ctap.handleMessage E (request (getPINToken E key secret pin)) w =
        (.ok answer, { w with client := { w.client with pinRetries := 8 } }) ∧
      Success answer (.map [(.int 2, .bytes enc)]) ∧ E.cbcDecrypt secret enc = w.client.pinToken := by
  obtain ⟨hss, hsl, hfit, hx⟩ := agreement_secret L hag
  have hl := hash_length L pin
  have hel : (E.cbcEncrypt secret (hash E pin)).length = 16 := by
    rw [L.cbc_length _ _ hsl (by omega), hl]
  have htl : (E.cbcEncrypt secret w.client.pinToken).length = 16 := by
    rw [L.cbc_length _ _ hsl (by omega), htok]
  have hfits : Spec.Platform.ClientPINFits (getPINToken E key secret pin) := getPINToken_fits L hag
  have hr := Ctap.getToken_succeeds hon hn (L.decode_clientPIN _ hfits) rfl rfl rfl hx rfl hss hsl
    (by omega) (by rw [hpin, L.cbc_decrypt _ _ hsl (by omega)]; rfl) (by omega)
  refine ⟨_, _, hr, ?_, L.cbc_decrypt _ _ hsl (by omega)⟩
  have hi : Ctap.pinTokenItem (E.cbcEncrypt secret w.client.pinToken) =
      .map [(.int 2, .bytes (E.cbcEncrypt secret w.client.pinToken))] := by
    unfold Ctap.pinTokenItem
    rw [if_neg]
    intro e
    simp only [List.isEmpty_iff] at e
    rw [e] at htl; simp at htl
  rw [← hi]
  exact Ctap.success_of_wf (Ctap.pinTokenItem_wf (by unfold Short; omega))

/-- Changing the PIN with the right old PIN. -/
theorem C59_change_pin {E : Env} (L : Laws E) {w : World} {platform : ECDHKey} {key : EC2Key}
    {secret old new : Bytes} (hh : Healthy E w.client) (hon : w.client.pinEnabled = true)
    (hn : 0 < w.client.pinRetries ∧ w.client.pinRetries ≤ 8)
    (hpin : w.client.pinHash = some (hash E old)) (hag : Agreement E w.client platform key secret)
    (h4 : 4 ≤ new.length) (h63 : new.length ≤ 63) (hz : (0 : UInt8) ∉ new) :
    ∃ w', Ctap.handleMessage E (request (changePIN E key secret old new)) w = (.ok [0], w') ∧
      w'.client = { w.client with pinRetries := 8, pinHash := some (hash E new) } ∧
      w'.asks = w.asks ∧ ∀ cfg, Holds E cfg w'.store w'.client := by
  obtain ⟨hss, hsl, hfit, -⟩ := agreement_secret L hag
  have hl := pad64_length h63
  have hhl := hash_length L old
  have hel : (E.cbcEncrypt secret (pad64 new)).length = 64 := by
    rw [L.cbc_length _ _ hsl (by omega), hl]
  have hhel : (E.cbcEncrypt secret (hash E old)).length = 16 := by
    rw [L.cbc_length _ _ hsl (by omega), hhl]
  have hfits : Spec.Platform.ClientPINFits (changePIN E key secret old new) := by
    refine ⟨?_, ?_, ?_, ?_⟩
    · intro k hk; obtain rfl : k = key := by simpa [changePIN] using hk.symm
      exact hfit
    · intro b hb
      obtain rfl : b = _ := by simpa [changePIN] using hb.symm
      have := auth_length L secret (E.cbcEncrypt secret (pad64 new) ++ E.cbcEncrypt secret (hash E old))
      unfold Short; omega
    · intro b hb
      obtain rfl : b = _ := by simpa [changePIN] using hb.symm
      unfold Short; omega
    · intro b hb
      obtain rfl : b = _ := by simpa [changePIN] using hb.symm
      unfold Short; omega
  obtain ⟨blob, hsv, hr⟩ := Ctap.changePIN_succeeds L hh hon hn (L.decode_clientPIN _ hfits) rfl rfl rfl
    rfl rfl rfl hss hsl (by omega) (by rw [hpin, L.cbc_decrypt _ _ hsl (by omega)]) (by omega)
    (by rw [L.cbc_decrypt _ _ hsl (by omega)]; exact pad64_padded h63 hz) h4
  exact ⟨_, hr, rfl, rfl, fun cfg => saves_holds L (Ctap.healthy_pin L hh 8 new) hsv cfg⟩

/-- The whole flow: the platform sets a PIN, gets the token with it and creates a credential
authenticated with the token it decrypted; the relying party sees a verified user. -/
theorem C59_platform_flow {E : Env} (L : Laws E) {w : World} {platform : ECDHKey} {key : EC2Key}
    {secret pin : Bytes} (hh : Healthy E w.client) (hat : CanAttest E w.client)
    (hon : w.client.pinEnabled = true) (hno : w.client.pinHash = none)
    (htok : w.client.pinToken.length = 16) (hag : Agreement E w.client platform key secret)
    (h4 : 4 ≤ pin.length) (h63 : pin.length ≤ 63) (hz : (0 : UInt8) ∉ pin)
    {args : MakeCredArgs} {rp : RPEntity} {user : UserEntity}
    (hf : ∀ token, token.length = 16 → Spec.Platform.MakeCredFits
      { args with pinProtocol := 1, pinAuth := some (auth E token args.clientDataHash) })
    (hrp : args.rp = some rp) (hu : args.user = some user)
    (hp : ∃ p ∈ args.params, p.alg = -7 ∧ p.type = ascii "public-key")
    (ha : E.approve w.asks .makeCredential rp.name [] = true) :
    ∃ w1 answer w2 enc token made w3 authData sig cert ad,
      Ctap.handleMessage E (request (setPIN E key secret pin)) w = (.ok [0], w1) ∧
      Ctap.handleMessage E (request (getPINToken E key secret pin)) w1 = (.ok answer, w2) ∧
      Success answer (.map [(.int 2, .bytes enc)]) ∧ E.cbcDecrypt secret enc = token ∧
      token = w.client.pinToken ∧
      Ctap.handleMessage E (0x01 :: VF.Cbor.encode (Spec.Platform.makeCredItem
        { args with pinProtocol := 1, pinAuth := some (auth E token args.clientDataHash) })) w2 =
        (.ok made, w3) ∧
      IsCreation made authData sig cert ∧ parseAuthData authData = some ad ∧
      ad.userVerified = true := by
  obtain ⟨w1, r1, c1, a1, -⟩ := C59_set_pin L hh hon hno hag h4 h63 hz
  have hag1 : Agreement E w1.client platform key secret := by
    rw [c1]; exact ⟨hag.1, hag.2, hag.3, hag.4, hag.5⟩
  obtain ⟨answer, enc, r2, s2, d2⟩ := C59_get_token L (w := w1) (pin := pin) (by rw [c1]; exact hon)
    (by rw [c1]; simp) (by rw [c1]; exact htok) (by rw [c1]) hag1
  have ht : w1.client.pinToken = w.client.pinToken := by rw [c1]
  rw [ht] at d2
  have hd := L.decode_makeCred _ (hf w.client.pinToken htok)
  have hh2 : Healthy E { w1.client with pinRetries := 8 } := by
    rw [c1]; exact Ctap.healthy_pin L hh 8 pin
  have hauth : PinAuthOk E { w1.client with pinRetries := 8 } args.clientDataHash
      (some (auth E w.client.pinToken args.clientDataHash)) 1 := ⟨rfl, by rw [c1]; rfl⟩
  obtain ⟨body, w3, r3⟩ := C76_valid_creation_succeeds L
    (w := { w1 with client := { w1.client with pinRetries := 8 } }) hh2 (by rw [c1]; exact hat) hd hrp
    hu hp (.inr (.inl hauth)) (by rw [show w1.asks = w.asks from a1]; exact ha)
  obtain ⟨args', rp', authData, sig, cert, ad, s, h1, -, h3, h4', -, -, h7, -⟩ :=
    C45_creation_authenticator_data L r3
  rw [hd] at h1
  obtain rfl := Option.some.inj h1
  refine ⟨w1, answer, _, enc, _, _, w3, authData, sig, cert, ad, r1, r2, s2, d2, rfl, r3, h3, h4',
    h7.2 ⟨by rw [c1]; exact hon, hauth⟩⟩

/-- A platform key, and the secret it has with the toy device. -/
def toyPlatform : ECDHKey := { priv := BigInt.toBytes (2 ^ 248), x := 2 ^ 248, y := 2 ^ 248 }

def toyKey : EC2Key := ⟨2, -25, 1, some (1 :: List.replicate 31 0), some (1 :: List.replicate 31 0), []⟩

theorem world_agreement (pin : Option Bytes) (n : Int) :
    Agreement (Toy.toy fun _ _ _ _ => true) (Toy.world true pin n).client toyPlatform toyKey
      ((Toy.toy fun _ _ _ _ => true).sha256 (3 :: List.replicate 31 0)) := by
  let ap : List Ask → Action → Bytes → Bytes → Bool := fun _ _ _ _ => true
  have L := Toy.toy_laws ap
  have hs : (Toy.toy ap).ecdh toyPlatform.priv (Toy.world true pin n).client.keyAgreement.x
      (Toy.world true pin n).client.keyAgreement.y = some (3 * 2 ^ 248) := by
    show some (BigInt.ofBytes (BigInt.toBytes (2 ^ 248)) * _ % 2 ^ 256) = _
    rw [BigInt.ofBytes_toBytes]
    congr 1
  refine ⟨L.genECDH_valid 2, ⟨2 ^ 248, by decide +kernel, by decide +kernel,
    BigInt.ofBytes_toBytes _, by decide +kernel⟩, ⟨_, _, rfl, by decide +kernel, rfl,
    by decide +kernel, rfl⟩, ⟨_, rfl, ?_, rfl⟩, ?_⟩
  · rw [hs]; decide +kernel
  · intro s h
    rw [hs] at h
    obtain rfl := Option.some.inj h
    decide +kernel

/-- The hypotheses of the flow can be met: on a fresh toy device, with a platform whose secret
scalar is 2^248. -/
example : ∃ (E : Env) (w : World) (platform : ECDHKey) (key : EC2Key) (secret : Bytes)
    (args : MakeCredArgs), Laws E ∧ Healthy E w.client ∧ CanAttest E w.client ∧
      w.client.pinEnabled = true ∧ w.client.pinHash = none ∧ w.client.pinToken.length = 16 ∧
      Agreement E w.client platform key secret ∧
      (∀ token, token.length = 16 → Spec.Platform.MakeCredFits
        { args with pinProtocol := 1, pinAuth := some (auth E token args.clientDataHash) }) ∧
      args.rp ≠ none ∧ args.user ≠ none ∧
      (∃ p ∈ args.params, p.alg = -7 ∧ p.type = ascii "public-key") := by
  let ap : List Ask → Action → Bytes → Bytes → Bool := fun _ _ _ _ => true
  have L := Toy.toy_laws ap
  refine ⟨_, Toy.world true none 8, toyPlatform, toyKey,
    (Toy.toy ap).sha256 (3 :: List.replicate 31 0), Toy.makeArgs [] none, L,
    Toy.client_healthy ap _ _ _ (by simp), Toy.client_attests ap _ _ _, rfl, rfl, rfl, world_agreement _ _, ?_,
    by simp [Toy.makeArgs], by simp [Toy.makeArgs], ⟨_, .head _, rfl, rfl⟩⟩
  intro token ht
  exact Toy.make_fits [] (some _) (.inl rfl) (by
    intro b hb
    obtain rfl := by simpa using hb
    exact auth_length L _ _)

/-! ### The proviso -/

/-- Without the proviso the platform's setPIN can be refused although everything is in order. -/
theorem C59_without_proviso_refuted :
    ∃ (E : Env) (w : World) (platform : ECDHKey) (key : EC2Key) (secret pin : Bytes),
      Laws E ∧ Healthy E w.client ∧ w.client.pinEnabled = true ∧ w.client.pinHash = none ∧
      ECDHValid E w.client.keyAgreement ∧ ECDHValid E platform ∧ PlatformKey platform key ∧
      PlatformSecret E platform w.client.keyAgreement.x w.client.keyAgreement.y secret ∧
      pin.length = 4 ∧ (0 : UInt8) ∉ pin ∧
      Ctap.handleMessage E (request (setPIN E key secret pin)) w = (.ok [0x33], w) := by
  let ap : List Ask → Action → Bytes → Bytes → Bool := fun _ _ _ _ => true
  have L := Toy.toy_laws ap
  let key : EC2Key := ⟨2, -25, 1, some (List.replicate 31 0 ++ [1]), some (List.replicate 31 0 ++ [1]), []⟩
  let secret : Bytes := (Toy.toy ap).sha256 (List.replicate 31 0 ++ [3])
  have hsl : secret.length = 32 := L.sha256_length _
  have hfits : Spec.Platform.ClientPINFits (setPIN (Toy.toy ap) key secret [1, 2, 3, 4]) := by
    refine ⟨?_, ?_, ?_, by simp [setPIN]⟩
    · intro k hk; obtain rfl : k = key := by simpa [setPIN] using hk.symm
      refine ⟨by simp [key, Int8Range], by simp [key, Int8Range], by simp [key, Int8Range], ?_, ?_,
        by simp [key, Short]⟩ <;>
      · intro x hx
        obtain rfl : x = _ := by simpa [key] using hx.symm
        simp [Short]
    · intro b hb
      obtain rfl : b = _ := by simpa [setPIN] using hb.symm
      have := auth_length L secret ((Toy.toy ap).cbcEncrypt secret (pad64 [1, 2, 3, 4]))
      unfold Short; omega
    · intro b hb
      obtain rfl : b = _ := by simpa [setPIN] using hb.symm
      have := L.cbc_length secret (pad64 [1, 2, 3, 4]) hsl (by decide)
      have : (pad64 [1, 2, 3, 4]).length = 64 := by decide
      unfold Short; omega
  have hd := L.decode_clientPIN _ hfits
  refine ⟨Toy.toy ap, Toy.world true none 8, (Toy.toy ap).genECDH 0, key, secret, [1, 2, 3, 4], L,
    Toy.client_healthy ap _ _ _ (by simp), rfl, rfl, L.genECDH_valid 2, L.genECDH_valid 0, ?_, ?_,
    rfl, by decide, ?_⟩
  · exact ⟨_, _, rfl, by decide +kernel, rfl, by decide +kernel, rfl⟩
  · refine ⟨List.replicate 31 0 ++ [3], rfl, ?_, rfl⟩
    show some _ = some _
    congr 1
    decide +kernel
  · have hss : Ctap.sharedSecret (Toy.toy ap) (Toy.client true none 8) key =
        .ok ((Toy.toy ap).sha256 [3]) := by
      have e : BigInt.ofBytes ((Toy.client true none 8).keyAgreement.priv) *
          BigInt.ofBytes (List.replicate 31 (0 : UInt8) ++ [1]) % 2 ^ 256 = 3 := by
        show BigInt.ofBytes (BigInt.toBytes (Toy.scalar 2)) * _ % _ = _
        rw [BigInt.ofBytes_toBytes]
        decide +kernel
      unfold Ctap.sharedSecret ecdhSecret
      show (match some (BigInt.ofBytes ((Toy.client true none 8).keyAgreement.priv) *
          BigInt.ofBytes (List.replicate 31 (0 : UInt8) ++ [1]) % 2 ^ 256) with
        | some s => Res.ok (BigInt.toBytes s)
        | none => Res.panic .library) >>= _ = _
      rw [e]
      have : BigInt.toBytes 3 = [3] := by
        rw [BigInt.toBytes, if_neg (by decide), show 3 / 256 = 0 from rfl, BigInt.toBytes_zero]; rfl
      simp only [this, Res.bind_ok]
    unfold request
    rw [Ctap.handleMessage_pin]
    unfold Ctap.handleClientPIN
    rw [Go.get_bind_run, if_neg (by simp [Toy.world, Toy.client]), hd]
    dsimp only
    rw [if_neg (by simp [setPIN]), if_neg (by simp [setPIN]), if_neg (by simp [setPIN]),
      if_pos (by simp [setPIN])]
    unfold Ctap.handleSetPIN
    rw [Go.get_bind_run, if_neg (by simp [Toy.world, Toy.client])]
    simp only [setPIN]
    rw [show (Toy.world true none 8).client = Toy.client true none 8 from rfl, hss, Go.lift_ok_bind,
      if_pos]
    · rfl
    · intro h
      have := congrArg List.head? h
      revert this
      decide +kernel

end VF.Props
