import Verif.Proofs.Toy
import Verif.Proofs.Progress

/-!
# A concrete device

A device in the toy environment with one credential, and requests for it.  Used to show that the
hypotheses of theorems can be met and as a witness where the code misbehaves.
-/

namespace VF.Toy

open VF.Fido VF.Spec.Platform VF.Spec.Client VF.Spec.Vault VF.Spec.Cose VF.Cbor

/-- A relying party, a user and a credential for them. -/
def rp : RPEntity := { id := ascii "example.org", name := ascii "Example" }
def user : UserEntity := { id := [1, 2, 3], displayName := ascii "Ann", name := ascii "ann" }

noncomputable def credential : Source :=
  { type := ascii "public-key", id := [7, 7, 7, 7]
    key := { ecdsa := some ((toy (fun _ _ _ _ => true)).genEC 1) }
    rp := some rp, user := some user, counter := 5 }

/-- The attestation certificate. -/
noncomputable def cert : Bytes :=
  certOf ({ ecdsa := some ((toy (fun _ _ _ _ => true)).genEC 0).pub },
    { ecdsa := some ((toy (fun _ _ _ _ => true)).genEC 0).pub }, some false)

noncomputable def client (pinEnabled : Bool) (pinHash : Option Bytes) (retries : Int) : Client :=
  { deviceKey := List.replicate 32 9, cert := cert
    certKey := { ecdsa := some ((toy (fun _ _ _ _ => true)).genEC 0) }
    authCounter := 1, pinEnabled := pinEnabled, pinToken := List.replicate 16 3
    keyAgreement := (toy (fun _ _ _ _ => true)).genECDH 2, pinRetries := retries
    pinHash := pinHash, vault := [credential] }

noncomputable def world (pinEnabled : Bool) (pinHash : Option Bytes) (retries : Int) : World :=
  { client := client pinEnabled pinHash retries, store := none, rnd := 3, asks := [] }

section
variable (ap : List Ask → Action → Bytes → Bytes → Bool)

theorem utf8_ascii_example : utf8 (ascii "example.org") ∧ utf8 (ascii "Example") ∧
    utf8 (ascii "Ann") ∧ utf8 (ascii "ann") :=
  ⟨⟨"example.org", by decide +kernel⟩, ⟨"Example", by decide +kernel⟩, ⟨"Ann", by decide +kernel⟩,
    ⟨"ann", by decide +kernel⟩⟩

theorem credential_complete : Complete (toy ap) credential :=
  ⟨.ecdsa _, (toy_laws ap).genEC_valid 1, Ctap.utf8_publicKey,
    ⟨rp, rfl, utf8_ascii_example.1, utf8_ascii_example.2.1⟩,
    ⟨user, rfl, utf8_ascii_example.2.2.1, utf8_ascii_example.2.2.2⟩⟩

theorem cert_made : (toy ap).createCert (Cose.caTemplate (toy ap) 0) none { ecdsa := some ((toy ap).genEC 0).pub }
    { ecdsa := some ((toy ap).genEC 0) } 0 = some cert := by
  have hv := (toy_laws ap).genEC_valid 0
  have hf := fits_ec _ (Vault.ecValid_bounds (toy_laws ap) hv).2.1 (Vault.ecValid_bounds (toy_laws ap) hv).2.2.1
  exact if_pos ⟨hf, hf⟩

theorem client_healthy (pe : Bool) (h : Option Bytes) (r : Int) (hh : h ≠ some []) :
    Healthy (toy ap) (client pe h r) := by
  refine ⟨((toy_laws ap).createCert_sound _ _ _ _ _ _ (cert_made ap)).1, .ecdsa _,
    (toy_laws ap).genEC_valid 0, hh, ?_⟩
  intro s hs
  have : s = credential := by simpa [client] using hs
  rw [this]
  exact credential_complete ap

theorem client_attests (pe : Bool) (h : Option Bytes) (r : Int) :
    CanAttest (toy ap) (client pe h r) :=
  ⟨(toy ap).genEC 0, rfl, (toy_laws ap).genEC_valid 0,
    ((toy_laws ap).createCert_sound _ _ _ _ _ _ (cert_made ap)).2.1⟩

/-- A request to create a credential. -/
def makeArgs (exclude : List Descriptor) (pinAuth : Option Bytes) : MakeCredArgs :=
  { clientDataHash := List.replicate 32 1, rp := some rp, user := some user
    params := [⟨ascii "public-key", -7⟩], excludeList := exclude, pinAuth := pinAuth
    pinProtocol := 1 }

def makeData (exclude : List Descriptor) (pinAuth : Option Bytes) : Bytes :=
  encode (makeCredItem (makeArgs exclude pinAuth))

theorem short_of_small {b : Bytes} (h : b.length < 1000) : Short b := by
  unfold Short; omega

theorem text_publicKey : textFits (ascii "public-key") :=
  ⟨Ctap.utf8_publicKey, short_of_small (by decide +kernel)⟩

/-- A descriptor of the credential. -/
def descriptor : Descriptor := { type := ascii "public-key", id := [7, 7, 7, 7], transports := [] }

theorem descriptor_fits : DescriptorFits descriptor :=
  ⟨short_of_small (by decide), text_publicKey, by simp [descriptor], by simp [descriptor]⟩

theorem make_fits (exclude : List Descriptor) (pinAuth : Option Bytes)
    (he : exclude = [] ∨ exclude = [descriptor]) (hp : ∀ b ∈ pinAuth, b.length = 16) :
    MakeCredFits (makeArgs exclude pinAuth) := by
  refine ⟨short_of_small (by dsimp only [makeArgs]; decide), ?_, ?_, ?_,
    by dsimp only [makeArgs]; decide, ?_, ?_, ?_⟩
  · intro r hr
    obtain rfl : rp = r := by simpa [makeArgs] using hr
    exact ⟨⟨utf8_ascii_example.1, short_of_small (by decide +kernel)⟩,
      ⟨utf8_ascii_example.2.1, short_of_small (by decide +kernel)⟩⟩
  · intro u hu
    obtain rfl : user = u := by simpa [makeArgs] using hu
    exact ⟨short_of_small (by decide),
      ⟨utf8_ascii_example.2.2.2, short_of_small (by decide +kernel)⟩,
      ⟨utf8_ascii_example.2.2.1, short_of_small (by decide +kernel)⟩⟩
  · intro p hp
    obtain rfl : p = ⟨ascii "public-key", -7⟩ := by simpa [makeArgs] using hp
    exact ⟨by unfold Int32Range; decide, text_publicKey⟩
  · intro d hd
    rcases he with rfl | rfl
    · simp [makeArgs] at hd
    · obtain rfl : d = descriptor := by simpa [makeArgs] using hd
      exact descriptor_fits
  · rcases he with rfl | rfl <;> simp [makeArgs]
  · intro b hb
    have := hp b hb
    exact short_of_small (by omega)

theorem make_decodes (exclude : List Descriptor) (pinAuth : Option Bytes)
    (he : exclude = [] ∨ exclude = [descriptor]) (hp : ∀ b ∈ pinAuth, b.length = 16) :
    (toy ap).decodeMakeCred (makeData exclude pinAuth) = some (makeArgs exclude pinAuth) :=
  (toy_laws ap).decode_makeCred _ (make_fits exclude pinAuth he hp)

/-- A request to log in. -/
def getArgs (allow : Option (List Descriptor)) (up : Option Bool) (pinAuth : Option Bytes) :
    GetAssertionArgs :=
  { rpId := ascii "example.org", clientDataHash := List.replicate 32 1, allowList := allow
    up := up, pinAuth := pinAuth, pinProtocol := 1 }

def getData (allow : Option (List Descriptor)) (up : Option Bool) (pinAuth : Option Bytes) : Bytes :=
  encode (getAssertionItem (getArgs allow up pinAuth))

theorem get_decodes (allow : Option (List Descriptor)) (up : Option Bool) (pinAuth : Option Bytes)
    (he : allow = none ∨ allow = some [descriptor]) (hp : ∀ b ∈ pinAuth, b.length = 16) :
    (toy ap).decodeGetAssertion (getData allow up pinAuth) = some (getArgs allow up pinAuth) := by
  apply (toy_laws ap).decode_getAssertion
  refine ⟨⟨utf8_ascii_example.1, short_of_small (by dsimp only [getArgs]; decide +kernel)⟩,
    short_of_small (by dsimp only [getArgs]; decide), ?_, ?_⟩
  · intro l hl
    rcases he with rfl | rfl
    · simp [getArgs] at hl
    · obtain rfl : [descriptor] = l := by simpa [getArgs] using hl
      refine ⟨?_, by simp⟩
      intro d hd
      obtain rfl : d = descriptor := by simpa using hd
      exact descriptor_fits
  · intro b hb
    have := hp b hb
    exact short_of_small (by omega)

theorem credential_matches (allow : Option (List Descriptor))
    (he : allow = none ∨ allow = some [descriptor]) :
    Matches (ascii "example.org") allow credential := by
  refine ⟨⟨rp, rfl, rfl⟩, ?_⟩
  intro l hl
  rcases he with rfl | rfl
  · cases hl
  · obtain rfl : [descriptor] = l := by simpa using hl
    exact ⟨descriptor, by simp, rfl⟩

/-- Creation succeeds without PIN support. -/
theorem make_succeeds (exclude : List Descriptor) (he : exclude = [] ∨ exclude = [descriptor])
    (ha : ap [] .makeCredential (ascii "Example") [] = true) :
    ∃ body w', Ctap.handleMessage (toy ap) (0x01 :: makeData exclude none)
      (world false none 8) = (.ok (0 :: body), w') :=
  Ctap.makeCredential_succeeds (toy_laws ap) (client_healthy ap _ _ _ (by simp))
    (client_attests ap _ _ _) (make_decodes ap exclude none he (by simp))
    (by dsimp only [makeArgs]; decide +kernel) rfl rfl
    (flags := 0) rfl ha

/-- ... and with a PIN set, given a valid `pinAuth`. -/
theorem make_succeeds_pin (h : Bytes) (hne : h ≠ [])
    (ha : ap [] .makeCredential (ascii "Example") [] = true) :
    ∃ body w', Ctap.handleMessage (toy ap) (0x01 :: makeData []
      (some (((toy ap).hmac (List.replicate 16 3) (List.replicate 32 1)).take 16)))
      (world true (some h) 8) = (.ok (0 :: body), w') := by
  refine Ctap.makeCredential_succeeds (toy_laws ap) (client_healthy ap _ _ _ (by simpa using hne))
    (client_attests ap _ _ _) (make_decodes ap [] _ (.inl rfl) ?_)
    (by dsimp only [makeArgs]; decide +kernel) rfl rfl
    (flags := 4) ?_ ha
  · intro b hb
    obtain rfl : _ = b := by simpa using hb
    simp [(toy_laws ap).hmac_length]
  · simp [Ctap.makeCredentialPIN, world, client, makeArgs, Ctap.derivePINAuth, Ctap.flagUV]

/-- Logging in succeeds. -/
theorem get_succeeds (pe : Bool) (h : Option Bytes) (hne : h ≠ some [])
    (allow : Option (List Descriptor)) (up : Option Bool)
    (he : allow = none ∨ allow = some [descriptor])
    (ha : up = some false ∨ ∀ rp user, ap [] .getAssertion rp user = true) :
    ∃ body w', Ctap.handleMessage (toy ap) (0x02 :: getData allow up none)
      (world pe h 8) = (.ok (0 :: body), w') := by
  refine Ctap.getAssertion_succeeds (toy_laws ap) (client_healthy ap _ _ _ hne)
    (get_decodes ap allow up none he (by simp)) (flags := 0) ?_
    ⟨credential, by simp [world, client], credential_matches allow he⟩ ha
  cases pe <;> rfl

theorem head_length (m n : Nat) : (Cbor.head m n).length ≤ 9 := by
  unfold Cbor.head
  dsimp only
  split
  · simp
  split
  · simp
  split
  · simp [Util.toBE16_eq]
  split
  · simp [Util.toBE32_eq]
  · simp [Util.toBE32_eq]

theorem answer_short (pe : Bool) (h : Option Bytes) (r : Int) {data body : Bytes} {w' : World}
    (hx : Ctap.handleMessage (toy ap) (0x02 :: data) (world pe h r) = (.ok (0 :: body), w')) :
    body.length < 18446744073709551616 := by
  have hc := Ctap.handleGetAssertion_cases (toy ap) data (world pe h r)
  rw [Ctap.handleMessage_get] at hx
  rw [hx] at hc
  dsimp only at hc
  cases hc with
  | nothing hw hr =>
    obtain ⟨e, he, -, hb⟩ := hr _ rfl
    simp at hb
    exact absurd hb.1.symm he
  | none args flags hd hp hm hw hr => simp at hr
  | unsaved args flags i s hd hp hi hn c hr hw => simp at hr
  | refused args flags i s rp user blob n hd hp hi hn hup hrp hu ha hr hw => simp at hr
  | saved args flags flags' i s rp user blob n asks hd hp hi hn hrp hu hq hw hr =>
    obtain ⟨sig, h1, h2⟩ := hr _ rfl
    have hs : s = credential := by
      have := List.mem_of_getElem? hi.1
      simpa [world, client] using this
    subst hs
    have hb : body = encode (Ctap.getAssertionItem credential.id
        (Ctap.makeAuthData (toy ap) args.rpId (Ctap.bumped credential) .none flags') sig) := by
      simpa using h2
    have hsig := (Ctap.signECDSA_ok (toy_laws ap) ((toy_laws ap).genEC_valid 1) (n := n) h1).2
    have had : (Ctap.makeAuthData (toy ap) args.rpId (Ctap.bumped credential) .none flags').length
        = 37 := by
      rw [(Ctap.authData_plain (toy ap) (toy_laws ap) args.rpId (Ctap.bumped credential) flags').1]
      simp [(toy_laws ap).sha256_length]
    have hid : credential.id.length = 4 := rfl
    rw [hb]
    simp only [Ctap.getAssertionItem, encode, encodeEntries, List.length_append, had, hid]
    have c1 : (Cbor.int 1).encode.length = 1 := by decide
    have c2 : (Cbor.int 2).encode.length = 1 := by decide
    have c3 : (Cbor.int 3).encode.length = 1 := by decide
    have c4 : (Cbor.str "id").encode.length = 3 := by decide +kernel
    have c5 : (Cbor.str "type").encode.length = 5 := by decide +kernel
    have c6 : (Cbor.str "public-key").encode.length = 11 := by decide +kernel
    have k1 := head_length 2 4
    have k2 := head_length 2 37
    have k3 := head_length 2 sig.length
    have k4 := fun n => head_length 5 n
    have k5 := k4 2
    have k6 := k4 3
    simp only [c1, c2, c3, c4, c5, c6, List.length_cons, List.length_nil, Nat.zero_add, Nat.reduceAdd]
    omega

end
end VF.Toy
