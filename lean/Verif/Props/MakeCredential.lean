import Verif.Proofs.ToyDevice

/-!
# authenticatorMakeCredential (C43–C46, C52, C76)

A request is a byte string: the command byte followed by a CBOR map.  `w` is the device with its
surroundings before the request, `w'` after it; `newAsks w w'` are the questions put to the user
in between.
-/

namespace VF.Props

open VF.Fido VF.Spec.Ctap VF.Spec.Client VF.Spec.Vault VF.Spec.Cose

/-! ## C43 -/

/-- Success only if the user was asked, once, about the relying party in the request, and
agreed. -/
theorem C43_creation_needs_approval {E : Env} (L : Laws E) {data body : Bytes} {w w' : World}
    (h : Ctap.handleMessage E (0x01 :: data) w = (.ok (0 :: body), w')) :
    ∃ args rp, E.decodeMakeCred data = some args ∧ args.rp = some rp ∧
      newAsks w w' = [{ action := .makeCredential, rp := rp.name, user := [], answer := true }] := by
  obtain ⟨args, rp, -, -, -, -, -, -, -, -, -, -, -, h1, -, h2, -, h3, -⟩ := Ctap.creation_spec L h
  exact ⟨args, rp, h1, h2, by simp [newAsks, h3]⟩

/-- If nobody agreed, whatever else happened, nothing is created or saved; and if somebody was
asked (and refused) the answer is OPERATION_DENIED. -/
theorem C43_no_approval_no_credential (E : Env) {data : Bytes} {w w' : World} {r : Res Bytes}
    (h : Ctap.handleMessage E (0x01 :: data) w = (r, w'))
    (hn : ∀ a ∈ newAsks w w', a.answer = false) :
    w'.client = w.client ∧ w'.store = w.store ∧ (newAsks w w' ≠ [] → r = .ok [0x27]) := by
  have hc := Ctap.handleMakeCredential_cases E data w
  rw [Ctap.handleMessage_make] at h
  rw [h] at hc
  dsimp only at hc
  cases hc with
  | nothing hw hr => subst hw; simp [newAsks]
  | refused args rp flags hd hs hp hrp ha hr hw => subst hw; exact ⟨rfl, rfl, fun _ => hr⟩
  | unsaved args rp flags hd hs hp hrp ha hs' c hr hw =>
    subst hw; simp [newAsks] at hn
  | saved args rp flags blob n m hd hs hp hrp ha hs' hm hw hr =>
    subst hw; simp [newAsks] at hn

/-- The user is asked at most once, and if they refuse, the request is denied. -/
theorem C43_refusal_is_denied (E : Env) {data : Bytes} {w w' : World} {r : Res Bytes}
    (h : Ctap.handleMessage E (0x01 :: data) w = (r, w')) {a : Ask} (ha : a ∈ newAsks w w')
    (hf : a.answer = false) :
    r = .ok [0x27] ∧ w'.client = w.client ∧ w'.store = w.store := by
  have hc := Ctap.handleMakeCredential_cases E data w
  rw [Ctap.handleMessage_make] at h
  rw [h] at hc
  dsimp only at hc
  cases hc with
  | nothing hw hr => subst hw; simp [newAsks] at ha
  | refused args rp flags hd hs hp hrp ha hr hw => subst hw; exact ⟨hr, rfl, rfl⟩
  | unsaved args rp flags hd hs hp hrp ha' hs' c hr hw =>
    subst hw; simp [newAsks] at ha; subst ha; simp at hf
  | saved args rp flags blob n m hd hs hp hrp ha' hs' hm hw hr =>
    subst hw; simp [newAsks] at ha; subst ha; simp at hf

/-! ## C44 -/

/-- With PIN support on and a PIN set, success needs a valid `pinAuth`. -/
theorem C44_creation_needs_pin {E : Env} (L : Laws E) {data body : Bytes} {w w' : World}
    (h : Ctap.handleMessage E (0x01 :: data) w = (.ok (0 :: body), w'))
    (hon : w.client.pinEnabled = true) (hset : w.client.pinHash ≠ none) :
    ∃ args, E.decodeMakeCred data = some args ∧ args.pinProtocol = 1 ∧
      args.pinAuth = some ((E.hmac w.client.pinToken args.clientDataHash).take 16) := by
  obtain ⟨args, rp, flags, -, -, -, -, -, -, -, -, -, -, h1, -, -, h2, -⟩ := Ctap.creation_spec L h
  rcases Ctap.makeCredentialPIN_ok h2 with ⟨h3, -⟩ | ⟨-, ⟨h3, h4⟩, -⟩ | ⟨-, -, h3, -⟩
  · rw [hon] at h3; cases h3
  · exact ⟨args, h1, h3, h4⟩
  · exact absurd h3 hset

/-- Without a valid `pinAuth` the request has no effect; a request with a supported algorithm is
answered PIN_REQUIRED (no `pinAuth`) or PIN_AUTH_INVALID. -/
theorem C44_creation_without_pin (E : Env) {data : Bytes} {w w' : World} {r : Res Bytes}
    {args : MakeCredArgs}
    (h : Ctap.handleMessage E (0x01 :: data) w = (r, w'))
    (hon : w.client.pinEnabled = true) (hset : w.client.pinHash ≠ none)
    (hd : E.decodeMakeCred data = some args)
    (hp : ∃ p ∈ args.params, p.alg = -7 ∧ p.type = ascii "public-key")
    (hno : ¬ PinAuthOk E w.client args.clientDataHash args.pinAuth args.pinProtocol) :
    w' = w ∧ r = .ok [if args.pinAuth = none then 0x36 else 0x33] := by
  have hs : Client.supported args.params = true := by
    obtain ⟨p, hp, h1, h2⟩ := hp
    simp only [Client.supported, List.any_eq_true, Bool.and_eq_true, beq_iff_eq]
    exact ⟨p, hp, h1, h2⟩
  have hpin : Ctap.makeCredentialPIN E w.client args =
      .error (if args.pinAuth = none then 0x36 else 0x33) := by
    unfold Ctap.makeCredentialPIN
    rw [if_neg (by simp [hon])]
    cases ha : args.pinAuth with
    | none =>
      have : w.client.pinHash.isSome = true := by
        cases hh : w.client.pinHash with
        | none => exact absurd hh hset
        | some _ => rfl
      simp [this, Ctap.errPINRequired]
    | some a =>
      dsimp only
      by_cases h1 : args.pinProtocol = 1
      · rw [if_pos h1, if_neg]
        · rfl
        · intro e
          exact hno ⟨h1, by rw [ha, ← e]; rfl⟩
      · rw [if_neg h1]; rfl
  rw [Ctap.handleMessage_make] at h
  unfold Ctap.handleMakeCredential at h
  simp only [hd, hs, Bool.true_eq_false, if_false, Go.get_bind_run, hpin, Go.run_pure,
    Prod.mk.injEq] at h
  exact ⟨h.2.symm, h.1.symm⟩

/-! ## C45 (creation) -/

/-- The authenticator data in the answer to a successful creation. -/
theorem C45_creation_authenticator_data {E : Env} (L : Laws E) {data body : Bytes} {w w' : World}
    (h : Ctap.handleMessage E (0x01 :: data) w = (.ok (0 :: body), w')) :
    ∃ args rp authData sig cert ad s,
      E.decodeMakeCred data = some args ∧ args.rp = some rp ∧
      IsCreation (0 :: body) authData sig cert ∧ parseAuthData authData = some ad ∧
      ad.rpIdHash = E.sha256 rp.id ∧
      (ad.userPresent = true ↔ ∃ a ∈ newAsks w w', a.answer = true) ∧
      (ad.userVerified = true ↔ w.client.pinEnabled = true ∧
        PinAuthOk E w.client args.clientDataHash args.pinAuth args.pinProtocol) ∧
      ad.attestedData = true ∧ ad.otherFlags = false ∧
      w'.client.vault = w.client.vault ++ [s] ∧ ad.counter = s.counter.toNat := by
  obtain ⟨args, rp, flags, blob, n, k, authData, sig, cert, ad, at', xb, yb, h1, h2, h3, h4, h5, h6,
    h7, h8, h9, h10, h11, h12, h13, h14, h15, h16, h17, h18, -⟩ := Ctap.creation_spec L h
  refine ⟨args, rp, authData, sig, cert, ad, _, h1, h3, h11, h12, h13, ?_, ?_, h16, h17,
    by rw [h7], by rw [h18]; rfl⟩
  · simp [newAsks, h5, h14]
  · rw [h15]
    rcases Ctap.uv_iff_make h4 with ⟨rfl, h⟩ | ⟨rfl, h⟩
    · constructor
      · intro e; exact absurd e (by decide)
      · intro e; exact absurd e h
    · exact ⟨fun _ => h, fun _ => rfl⟩

/-! ## C46 -/

/-- What a successful creation did and what it returned: one new credential at the end of the
vault, with a new id and key, for the relying party and user of the request; saved, if the device
was healthy, so that a restart has it; and an attestation that a relying party can read and
verify. -/
theorem C46_created_credential_is_stored_and_attested {E : Env} (L : Laws E) {data body : Bytes}
    {w w' : World} (h : Ctap.handleMessage E (0x01 :: data) w = (.ok (0 :: body), w')) :
    ∃ args s k authData sig cert ad at' x y,
      E.decodeMakeCred data = some args ∧
      w'.client = { w.client with vault := w.client.vault ++ [s] } ∧
      s.key = { ecdsa := some k } ∧ ECValid E k ∧ s.rp = args.rp ∧ s.user = args.user ∧
      (Healthy E w.client → Healthy E w'.client ∧ ∀ cfg, Holds E cfg w'.store w'.client) ∧
      IsCreation (0 :: body) authData sig cert ∧ parseAuthData authData = some ad ∧
      parseAttested ad.rest = some at' ∧ at'.id = s.id ∧ s.id.length = 16 ∧
      Spec.Cbor.decode at'.key = some (.map [(.int 1, .int 2), (.int 3, .int (-7)),
        (.int (-1), .int 1), (.int (-2), .bytes x), (.int (-3), .bytes y)]) ∧
      Spec.Cbor.beNat x = k.pub.x ∧ Spec.Cbor.beNat y = k.pub.y ∧
      E.verifyEC k.pub (E.sha256 (authData ++ args.clientDataHash)) sig = true := by
  obtain ⟨args, rp, flags, blob, n, k, authData, sig, cert, ad, at', xb, yb, h1, h2, h3, h4, h5, h6,
    h7, h8, h9, h10, h11, h12, h13, h14, h15, h16, h17, h18, h19, h20, h21, h22, h23, h24, h25,
    h26⟩ := Ctap.creation_spec L h
  refine ⟨args, _, k, authData, sig, cert, ad, at', xb, yb, h1, h7, rfl,
    by rw [h6]; exact L.genEC_valid _, h3.symm, rfl, ?_, h11, h12, h19, h21, L.rand_length _ _, h22,
    h23, h24, h25⟩
  intro hh
  have hu : args.user.isSome := by
    have := Ctap.saves_entities h8
      ⟨ascii "public-key", E.rand w.rnd 16, { ecdsa := some k }, some rp, args.user, 0⟩
      (by rw [h7]; simp)
    exact this.2
  obtain ⟨user, hu⟩ := Option.isSome_iff_exists.1 hu
  have hc := Ctap.newIdentity_complete L h1 h3 hu w.rnd
  have hh' := Ctap.healthy_append hh hc
  have e : w'.client = { w.client with vault := w.client.vault ++
      [Vault.newIdentity E args.rp args.user w.rnd] } := by
    rw [h7, h3, h6]; rfl
  rw [← e] at hh'
  refine ⟨hh', fun cfg => ?_⟩
  rw [h9]
  exact saves_holds L hh' h8 cfg

/-- The certificate in the attestation is for the new key and is signed with the device's
attestation key. -/
theorem C46_attestation_certificate {E : Env} (L : Laws E) {data body : Bytes}
    {w w' : World} (h : Ctap.handleMessage E (0x01 :: data) w = (.ok (0 :: body), w'))
    (hv : KeyValid E w.client.certKey) (hx : Only w.client.certKey) :
    ∃ s authData sig cert pub issuer,
      w'.client.vault = w.client.vault ++ [s] ∧ IsCreation (0 :: body) authData sig cert ∧
      Cose.publicOf s.key = .ok pub ∧ E.certSubject cert = some pub ∧
      Cose.publicOf w.client.certKey = .ok issuer ∧ E.certSignedBy cert issuer = true := by
  obtain ⟨args, rp, flags, blob, n, k, authData, sig, cert, ad, at', xb, yb, h1, h2, h3, h4, h5, h6,
    h7, h8, h9, h10, h11, h12, h13, h14, h15, h16, h17, h18, h19, h20, h21, h22, h23, h24, h25,
    h26⟩ := Ctap.creation_spec L h
  have he : Cose.extractPrivateKey w.client.certKey = .ok w.client.certKey := by
    generalize w.client.certKey = k at hx
    cases hx <;> rfl
  have hpub : ∃ issuer, Cose.publicOf w.client.certKey = .ok issuer := by
    obtain ⟨sg, hsg⟩ := Ctap.sign_succeeds L hv [] 0
    obtain ⟨pub, hp, -⟩ := Ctap.sign_verifies L hv hsg
    exact ⟨pub, hp⟩
  obtain ⟨issuer, hpub⟩ := hpub
  simp only [Cose.createAttestationCert, Cose.publicOf, Cose.extractPublicKey, Res.bind_ok, he]
    at h26
  cases hcc : E.createCert (Cose.attestationTemplate E n) (some w.client.cert) { ecdsa := some k.pub } w.client.certKey n with
  | none => rw [hcc] at h26; simp at h26
  | some c =>
    rw [hcc] at h26
    simp only at h26
    split at h26
    · obtain rfl := Option.some.inj (Res.ok.inj h26)
      exact ⟨_, authData, sig, c, { ecdsa := some k.pub }, issuer, by rw [h7], h11, rfl,
        (L.createCert_sound _ _ _ _ _ _ hcc).2.1, hpub, L.createCert_signed _ _ _ _ _ _ _ hcc hv hpub⟩
    · simp at h26

/-! ## C52 -/

/-- The exclude list has no influence at all on what happens. -/
theorem C52_exclude_list_ignored (E : Env) (data data' : Bytes) (args : MakeCredArgs)
    (exclude : List Descriptor) (hd : E.decodeMakeCred data = some args)
    (hd' : E.decodeMakeCred data' = some { args with excludeList := exclude }) (w : World) :
    Ctap.handleMessage E (0x01 :: data) w = Ctap.handleMessage E (0x01 :: data') w := by
  rw [Ctap.handleMessage_make, Ctap.handleMessage_make]
  unfold Ctap.handleMakeCredential
  rw [hd, hd']
  rfl

/-- A request whose exclude list names a credential the device holds for the relying party
succeeds. -/
theorem C52_exclude_list_honoured_refuted :
    ∃ (E : Env) (w w' : World) (data body : Bytes) (args : MakeCredArgs) (rp : RPEntity) (s : Source)
      (d : Descriptor), Laws E ∧ Healthy E w.client ∧ E.decodeMakeCred data = some args ∧
      args.rp = some rp ∧ s ∈ w.client.vault ∧ (∃ r, s.rp = some r ∧ r.id = rp.id) ∧
      d ∈ args.excludeList ∧ d.id = s.id ∧
      Ctap.handleMessage E (0x01 :: data) w = (.ok (0 :: body), w') := by
  let ap : List Ask → Action → Bytes → Bytes → Bool := fun _ _ _ _ => true
  obtain ⟨body, w', h⟩ := Toy.make_succeeds ap [Toy.descriptor] (.inr rfl) rfl
  exact ⟨Toy.toy ap, Toy.world false none 8, w', Toy.makeData [Toy.descriptor] none, body,
    Toy.makeArgs [Toy.descriptor] none, Toy.rp, Toy.credential, Toy.descriptor, Toy.toy_laws ap,
    Toy.client_healthy ap _ _ _ (by simp), Toy.make_decodes ap _ _ (.inr rfl) (by simp), rfl,
    by simp [Toy.world, Toy.client], ⟨Toy.rp, rfl, rfl⟩, by simp [Toy.makeArgs], rfl, h⟩

/-! ## C76 -/

/-- A creation request in order succeeds: the device is healthy and can attest, the request
decodes, has a relying party, a user and an ES256 parameter, satisfies the PIN rules, and the user
agrees. -/
theorem C76_valid_creation_succeeds {E : Env} (L : Laws E) {data : Bytes} {w : World}
    {args : MakeCredArgs} {rp : RPEntity} {user : UserEntity}
    (hh : Healthy E w.client) (hat : CanAttest E w.client)
    (hd : E.decodeMakeCred data = some args) (hrp : args.rp = some rp) (hu : args.user = some user)
    (hp : ∃ p ∈ args.params, p.alg = -7 ∧ p.type = ascii "public-key")
    (hpin : w.client.pinEnabled = false ∨
      PinAuthOk E w.client args.clientDataHash args.pinAuth args.pinProtocol ∨
      (args.pinAuth = none ∧ w.client.pinHash = none))
    (ha : E.approve w.asks .makeCredential rp.name [] = true) :
    ∃ body w', Ctap.handleMessage E (0x01 :: data) w = (.ok (0 :: body), w') := by
  have hs : Client.supported args.params = true := by
    obtain ⟨p, hp, h1, h2⟩ := hp
    simp only [Client.supported, List.any_eq_true, Bool.and_eq_true, beq_iff_eq]
    exact ⟨p, hp, h1, h2⟩
  have hpin : ∃ flags, Ctap.makeCredentialPIN E w.client args = .ok flags := by
    unfold Ctap.makeCredentialPIN
    by_cases he : w.client.pinEnabled = false
    · rw [if_pos he]; exact ⟨_, rfl⟩
    · rw [if_neg he]
      rcases hpin with h | ⟨h1, h2⟩ | ⟨h1, h2⟩
      · exact absurd h he
      · rw [h2]; simp only [h1, if_true, Ctap.derivePINAuth]; exact ⟨_, rfl⟩
      · rw [h1]; simp only [h2]; exact ⟨0, rfl⟩
  obtain ⟨flags, hpin⟩ := hpin
  exact Ctap.makeCredential_succeeds L hh hat hd hs hrp hu hpin ha

/-! ## The hypotheses can be met -/

/-- Creations that succeed, without PIN and with one, on a healthy device that can attest. -/
example : ∃ (E : Env) (w1 w2 w1' w2' : World) (d1 d2 b1 b2 : Bytes), Laws E ∧
    Healthy E w1.client ∧ CanAttest E w1.client ∧ Only w1.client.certKey ∧
    Ctap.handleMessage E (0x01 :: d1) w1 = (.ok (0 :: b1), w1') ∧
    w2.client.pinEnabled = true ∧ w2.client.pinHash ≠ none ∧
    Ctap.handleMessage E (0x01 :: d2) w2 = (.ok (0 :: b2), w2') := by
  let ap : List Ask → Action → Bytes → Bytes → Bool := fun _ _ _ _ => true
  obtain ⟨b1, w1', h1⟩ := Toy.make_succeeds ap [] (.inl rfl) rfl
  obtain ⟨b2, w2', h2⟩ := Toy.make_succeeds_pin ap [1] (by simp) rfl
  exact ⟨Toy.toy ap, _, _, w1', w2', _, _, b1, b2, Toy.toy_laws ap,
    Toy.client_healthy ap _ _ _ (by simp), Toy.client_attests ap _ _ _, .ecdsa _, h1, rfl,
    by simp [Toy.world, Toy.client], h2⟩

/-- A creation that is refused by the user, and one refused for want of a PIN. -/
example : ∃ (E : Env) (w1 w1' w2 : World) (d1 d2 : Bytes) (args : MakeCredArgs),
    Ctap.handleMessage E (0x01 :: d1) w1 = (.ok [0x27], w1') ∧
    (∃ a ∈ newAsks w1 w1', a.answer = false) ∧
    w2.client.pinEnabled = true ∧ w2.client.pinHash ≠ none ∧ E.decodeMakeCred d2 = some args ∧
    (∃ p ∈ args.params, p.alg = -7 ∧ p.type = ascii "public-key") ∧
    ¬ PinAuthOk E w2.client args.clientDataHash args.pinAuth args.pinProtocol := by
  let ap : List Ask → Action → Bytes → Bytes → Bool := fun _ _ _ _ => false
  refine ⟨Toy.toy ap, Toy.world false none 8,
    { Toy.world false none 8 with asks := [⟨.makeCredential, ascii "Example", [], false⟩] },
    Toy.world true (some [1]) 8, Toy.makeData [] none, Toy.makeData [] none, Toy.makeArgs [] none,
    ?_, ?_, rfl, by simp [Toy.world, Toy.client], Toy.make_decodes ap _ _ (.inl rfl) (by simp),
    ⟨_, List.mem_singleton.2 rfl, rfl, rfl⟩, by simp [PinAuthOk, Toy.makeArgs]⟩
  · rw [Ctap.handleMessage_make]
    unfold Ctap.handleMakeCredential
    simp only [Toy.make_decodes ap [] none (.inl rfl) (by simp)]
    rw [if_neg (by simp [Toy.makeArgs, Client.supported, Cose.algES256])]
    rfl
  · exact ⟨_, List.mem_singleton.2 rfl, rfl⟩

end VF.Props
