import Verif.Proofs.Answers
import Verif.Proofs.Restore
import Verif.Proofs.ClientPINCases

/-!
# Outcomes of the CTAP commands in terms of the specification
-/

namespace VF.Fido.Ctap

open VF.Cbor VF.Spec.Ctap VF.Spec.Client VF.Spec.Vault VF.Spec.Cose

theorem handleMessage_make (E : Env) (data : Bytes) :
    handleMessage E (0x01 :: data) = handleMakeCredential E data := rfl

theorem handleMessage_info (E : Env) (data : Bytes) :
    handleMessage E (0x04 :: data) = handleGetInfo := rfl

theorem handleMessage_get (E : Env) (data : Bytes) :
    handleMessage E (0x02 :: data) = handleGetAssertion E data := rfl

theorem handleMessage_pin (E : Env) (data : Bytes) :
    handleMessage E (0x06 :: data) = handleClientPIN E data := rfl

theorem handleMessage_other (E : Env) (c : UInt8) (data : Bytes) (h1 : c ≠ 1) (h2 : c ≠ 2)
    (h4 : c ≠ 4) (h6 : c ≠ 6) (w : World) :
    handleMessage E (c :: data) w = (.panic .explicit, w) := by
  simp [handleMessage, h1, h2, h4, h6]

/-- What the PIN check of MakeCredential establishes. -/
theorem makeCredentialPIN_ok {E : Env} {c : Client} {args : MakeCredArgs} {flags : UInt8}
    (h : makeCredentialPIN E c args = .ok flags) :
    (c.pinEnabled = false ∧ flags = 0) ∨
    (c.pinEnabled = true ∧ PinAuthOk E c args.clientDataHash args.pinAuth args.pinProtocol ∧
      flags = flagUV) ∨
    (c.pinEnabled = true ∧ args.pinAuth = none ∧ c.pinHash = none ∧ flags = 0) := by
  unfold makeCredentialPIN at h
  split at h
  · rename_i he; cases h; exact .inl ⟨he, rfl⟩
  · rename_i he
    have he : c.pinEnabled = true := by simpa using he
    split at h
    · rename_i auth ha
      split at h
      · rename_i hp
        split at h
        · rename_i hd
          cases h
          exact .inr (.inl ⟨he, ⟨hp, by rw [ha, ← hd]; rfl⟩, rfl⟩)
        · cases h
      · cases h
    · rename_i ha
      split at h
      · cases h
      · rename_i hh
        cases h
        exact .inr (.inr ⟨he, ha, by simpa using hh, rfl⟩)

theorem getAssertionPIN_ok {E : Env} {c : Client} {args : GetAssertionArgs} {flags : UInt8}
    (h : getAssertionPIN E c args = .ok flags) :
    (c.pinEnabled = false ∧ flags = 0) ∨
    (c.pinEnabled = true ∧ PinAuthOk E c args.clientDataHash args.pinAuth args.pinProtocol ∧
      flags = flagUV) ∨
    (c.pinEnabled = true ∧ args.pinAuth = none ∧ flags = 0) := by
  unfold getAssertionPIN at h
  split at h
  · rename_i he; cases h; exact .inl ⟨he, rfl⟩
  · rename_i he
    have he : c.pinEnabled = true := by simpa using he
    split at h
    · rename_i ha; cases h; exact .inr (.inr ⟨he, ha, rfl⟩)
    · rename_i auth ha
      split at h
      · cases h
      · rename_i hp
        split at h
        · rename_i hd
          cases h
          exact .inr (.inl ⟨he, ⟨by simpa using hp, by rw [ha, ← hd]; rfl⟩, rfl⟩)
        · cases h

/-- The user-verified flag and nothing else. -/
theorem uv_iff_make {E : Env} {c : Client} {args : MakeCredArgs} {flags : UInt8}
    (h : makeCredentialPIN E c args = .ok flags) :
    (flags = 0 ∧ ¬ (c.pinEnabled = true ∧
      PinAuthOk E c args.clientDataHash args.pinAuth args.pinProtocol)) ∨
    (flags = 4 ∧ c.pinEnabled = true ∧
      PinAuthOk E c args.clientDataHash args.pinAuth args.pinProtocol) := by
  rcases makeCredentialPIN_ok h with ⟨h1, h2⟩ | ⟨h1, h2, h3⟩ | ⟨h1, h2, h3, h4⟩
  · exact .inl ⟨h2, by simp [h1]⟩
  · exact .inr ⟨h3, h1, h2⟩
  · exact .inl ⟨h4, by simp [PinAuthOk, h2]⟩

theorem uv_iff_get {E : Env} {c : Client} {args : GetAssertionArgs} {flags : UInt8}
    (h : getAssertionPIN E c args = .ok flags) :
    (flags = 0 ∧ ¬ (c.pinEnabled = true ∧
      PinAuthOk E c args.clientDataHash args.pinAuth args.pinProtocol)) ∨
    (flags = 4 ∧ c.pinEnabled = true ∧
      PinAuthOk E c args.clientDataHash args.pinAuth args.pinProtocol) := by
  rcases getAssertionPIN_ok h with ⟨h1, h2⟩ | ⟨h1, h2, h3⟩ | ⟨h1, h2, h3⟩
  · exact .inl ⟨h2, by simp [h1]⟩
  · exact .inr ⟨h3, h1, h2⟩
  · exact .inl ⟨h3, by simp [PinAuthOk, h2]⟩

theorem authData_attested (E : Env) (L : Laws E) (rpId : Bytes) (s : Source) (a : Bytes)
    (flags : UInt8) :
    makeAuthData E rpId s (some a) flags =
      E.sha256 rpId ++ [flags ||| flagAT] ++ be32 s.counter ++ a ∧
    parseAuthData (makeAuthData E rpId s (some a) flags) = some
      { rpIdHash := E.sha256 rpId
        userPresent := bit (flags ||| flagAT) 0
        userVerified := bit (flags ||| flagAT) 2
        attestedData := bit (flags ||| flagAT) 6
        otherFlags := bit (flags ||| flagAT) 1 || bit (flags ||| flagAT) 3 ||
          bit (flags ||| flagAT) 4 || bit (flags ||| flagAT) 5 || bit (flags ||| flagAT) 7
        counter := s.counter.toNat
        rest := a } := by
  have e : makeAuthData E rpId s (some a) flags =
      E.sha256 rpId ++ [flags ||| flagAT] ++ be32 s.counter ++ a := by
    simp [makeAuthData, Util.concat_eq, Util.toBE32_eq]
  exact ⟨e, by rw [e]; exact parse_layout _ _ _ _ (L.sha256_length _)⟩

theorem authData_plain (E : Env) (L : Laws E) (rpId : Bytes) (s : Source) (flags : UInt8) :
    makeAuthData E rpId s none flags = E.sha256 rpId ++ [flags] ++ be32 s.counter ++ [] ∧
    parseAuthData (makeAuthData E rpId s none flags) = some
      { rpIdHash := E.sha256 rpId
        userPresent := bit flags 0
        userVerified := bit flags 2
        attestedData := bit flags 6
        otherFlags := bit flags 1 || bit flags 3 || bit flags 4 || bit flags 5 || bit flags 7
        counter := s.counter.toNat
        rest := [] } := by
  have e : makeAuthData E rpId s none flags =
      E.sha256 rpId ++ [flags] ++ be32 s.counter ++ [] := by
    simp [makeAuthData, Util.concat_eq, Util.toBE32_eq]
  exact ⟨e, by rw [e]; exact parse_layout _ _ _ _ (L.sha256_length _)⟩

theorem signECDSA_ok {E : Env} (L : Laws E) {k : ECPriv} (hk : ECValid E k) {data sig : Bytes}
    {n : Nat} (h : signECDSA E k data n = .ok sig) :
    E.verifyEC k.pub (E.sha256 data) sig = true ∧ sig.length ≤ 72 := by
  unfold signECDSA at h
  obtain ⟨s, h1, h2⟩ := L.signEC_verifies k (E.sha256 data) n hk
  rw [h1] at h
  obtain rfl := Res.ok.inj h
  exact ⟨h2, L.sig_short _ _ _ _ h1⟩

/-- What the answer to MakeCredential says. -/
theorem creation_answer {E : Env} (L : Laws E) {s : Source} {k : ECPriv} {rpId hash attested cert
    sig ca : Bytes} {issuer : PrivKey} {flags : UInt8} {n m : Nat}
    (hk : s.key = { ecdsa := some k }) (hv : ECValid E k) (l16 : s.id.length = 16)
    (hfl : flags = 0 ∨ flags = 4) (h1 : makeAttestedCredentialData s = .ok attested)
    (h2 : Cose.createAttestationCert E ca issuer s.key n = .ok (some cert))
    (h3 : Cose.sign E s.key (makeAuthData E rpId s (some attested) (flags ||| flagUP) ++ hash) m =
      .ok sig) :
    ∃ authData ad at' xb yb, authData = makeAuthData E rpId s (some attested) (flags ||| flagUP) ∧
      IsCreation (success :: Cbor.encode (makeCredentialItem authData sig cert)) authData sig cert ∧
      parseAuthData authData = some ad ∧ ad.rpIdHash = E.sha256 rpId ∧ ad.userPresent = true ∧
      (ad.userVerified = true ↔ flags = 4) ∧ ad.attestedData = true ∧ ad.otherFlags = false ∧
      ad.counter = s.counter.toNat ∧
      parseAttested ad.rest = some at' ∧ at'.aaguid = aaguid ∧ at'.id = s.id ∧
      Spec.Cbor.decode at'.key = some (.map [(.int 1, .int 2), (.int 3, .int (-7)),
        (.int (-1), .int 1), (.int (-2), .bytes xb), (.int (-3), .bytes yb)]) ∧
      Spec.Cbor.beNat xb = k.pub.x ∧ Spec.Cbor.beNat yb = k.pub.y ∧
      E.verifyEC k.pub (E.sha256 (authData ++ hash)) sig = true := by
  rw [hk] at h2 h3
  obtain ⟨bp, bx, bY, -⟩ := Vault.ecValid_bounds L hv
  obtain ⟨s1, s2⟩ := signECDSA_ok L hv h3
  simp only [makeAttestedCredentialData, hk, Cose.publicOf, Res.bind_ok,
    Cose.marshalPublic, Cose.encodeECDSAPublicKey, bp, if_true] at h1
  have sx := Cose.toBytes_short256 bx
  have sy := Cose.toBytes_short256 bY
  have wk := ec2Item_wf
    { kty := Cose.ktyEC2, alg := Cose.algES256, crv := Cose.crvP256,
      x := some (BigInt.toBytes k.pub.x),
      y := some (BigInt.toBytes k.pub.y), d := [] } Cose.int8_consts.1
      Cose.int8_consts.2.2.2.1 Cose.int8_consts.2.2.2.2.2.2.1 (by simpa using sx)
      (by simpa using sy) (by simp [Short])
  have ea := (Res.ok.inj h1).symm
  obtain ⟨a1, a2⟩ := authData_attested E L rpId s attested (flags ||| flagUP)
  have hcert := h2
  simp only [Cose.createAttestationCert, Cose.publicOf, Cose.extractPublicKey, Res.bind_ok] at hcert
  have hcs : Short cert := by
    cases he : Cose.extractPrivateKey issuer with
    | panic c => rw [he] at hcert; simp at hcert
    | ok issuer =>
      rw [he] at hcert
      simp only [Res.bind_ok] at hcert
      cases hcc : E.createCert (Cose.attestationTemplate E n) (some ca) { ecdsa := some k.pub } issuer n with
      | none => rw [hcc] at hcert; simp at hcert
      | some c =>
        rw [hcc] at hcert
        simp only at hcert
        split at hcert
        · obtain rfl := Option.some.inj (Res.ok.inj hcert)
          exact (L.createCert_sound _ _ _ _ _ _ hcc).2.2.2
        · simp at hcert
  have keylen : (Cbor.encode (Cose.ec2Item
      { kty := Cose.ktyEC2, alg := Cose.algES256, crv := Cose.crvP256,
        x := some (BigInt.toBytes k.pub.x),
        y := some (BigInt.toBytes k.pub.y), d := [] })).length ≤ 200 := by
    have e32 : (256 : Nat) ^ 32 = 2 ^ 256 := by decide +kernel
    have lx := BigInt.toBytes_length_le 32 _ (show k.pub.x < 256 ^ 32 by omega)
    have ly := BigInt.toBytes_length_le 32 _ (show k.pub.y < 256 ^ 32 by omega)
    have hh : ∀ n, n ≤ 32 → (Cbor.head 2 n).length ≤ 2 := by
      intro n hn
      unfold Cbor.head
      simp only
      split
      · simp
      · rw [if_pos (by omega)]; simp
    have p1 := hh _ lx
    have p2 := hh _ ly
    have c1 : (Cbor.int 1).encode.length = 1 := by decide
    have c2 : (Cbor.int 3).encode.length = 1 := by decide
    have c3 : (Cbor.int (-1)).encode.length = 1 := by decide
    have c4 : (Cbor.int (-2)).encode.length = 1 := by decide
    have c5 : (Cbor.int (-3)).encode.length = 1 := by decide
    have c6 : (Cbor.int 2).encode.length = 1 := by decide
    have c7 : (Cbor.int (-7)).encode.length = 1 := by decide
    have c8 : (Cbor.head 5 5).length = 1 := by decide
    simp only [Cose.ec2Item, Cose.omitEmpty, Cose.bytesOrNull, List.isEmpty_nil, if_true,
      List.append_nil, encode, encodeEntries, List.length_append, List.length_cons,
      List.length_nil, Cose.ktyEC2, Cose.algES256, Cose.crvP256, c1, c2, c3, c4, c5, c6, c7]
    simp only [Nat.zero_add, Nat.reduceAdd, c8]
    omega
  have sat : attested.length ≤ 300 := by
    rw [ea]
    simp only [Util.concat_eq, Util.toBE16_eq, List.flatten_cons, List.flatten_nil,
      List.append_nil, List.length_append, be16_length, l16]
    have : aaguid.length = 16 := rfl
    omega
  have sad : Short (makeAuthData E rpId s (some attested) (flags ||| flagUP)) := by
    rw [a1]
    unfold Short
    have := L.sha256_length rpId
    simp only [List.length_append, List.length_cons, List.length_nil, be32_length]
    omega
  have ssig : Short sig := by unfold Short; omega
  have hpa := parse_attested aaguid s.id (Cbor.encode (Cose.ec2Item
      { kty := Cose.ktyEC2, alg := Cose.algES256, crv := Cose.crvP256,
        x := some (BigInt.toBytes k.pub.x),
        y := some (BigInt.toBytes k.pub.y), d := [] })) rfl (by omega)
  refine ⟨_, _,
    ⟨aaguid, s.id, Cbor.encode (Cose.ec2Item
      { kty := Cose.ktyEC2, alg := Cose.algES256, crv := Cose.crvP256,
        x := some (BigInt.toBytes k.pub.x),
        y := some (BigInt.toBytes k.pub.y), d := [] })⟩,
    BigInt.toBytes k.pub.x, BigInt.toBytes k.pub.y, rfl,
    success_of_wf (makeCredentialItem_wf sad ssig hcs), a2, rfl, ?_, ?_, ?_, ?_, rfl, ?_, rfl, rfl, ?_,
    BigInt.ofBytes_toBytes _, BigInt.ofBytes_toBytes _, s1⟩
  · dsimp only; rcases hfl with rfl | rfl <;> decide
  · dsimp only; rcases hfl with rfl | rfl <;> decide
  · dsimp only; rcases hfl with rfl | rfl <;> decide
  · dsimp only; rcases hfl with rfl | rfl <;> decide
  · dsimp only
    rw [ea]
    simp only [Util.concat_eq, Util.toBE16_eq, List.flatten_cons, List.flatten_nil,
      List.append_nil]
    rw [← hpa]
    simp only [List.append_assoc]
  · exact decode_encode _ wk

/-- Everything about a successful MakeCredential. -/
theorem creation_spec {E : Env} (L : Laws E) {data body : Bytes} {w w' : World}
    (h : handleMessage E (0x01 :: data) w = (.ok (0 :: body), w')) :
    ∃ args rp flags blob n k authData sig cert ad at' xb yb,
      E.decodeMakeCred data = some args ∧ Client.supported args.params = true ∧
      args.rp = some rp ∧ makeCredentialPIN E w.client args = .ok flags ∧
      w'.asks = w.asks ++ [⟨.makeCredential, rp.name, [], true⟩] ∧
      k = E.genEC (w.rnd + 1) ∧
      w'.client = { w.client with vault := w.client.vault ++
        [⟨ascii "public-key", E.rand w.rnd 16, { ecdsa := some k }, some rp, args.user, 0⟩] } ∧
      Saves E w'.client (w.rnd + 2) blob n ∧ w'.store = some blob ∧ w'.rnd = n + 2 ∧
      IsCreation (0 :: body) authData sig cert ∧
      parseAuthData authData = some ad ∧ ad.rpIdHash = E.sha256 rp.id ∧ ad.userPresent = true ∧
      (ad.userVerified = true ↔ flags = 4) ∧ ad.attestedData = true ∧ ad.otherFlags = false ∧
      ad.counter = 0 ∧
      parseAttested ad.rest = some at' ∧ at'.aaguid = aaguid ∧ at'.id = E.rand w.rnd 16 ∧
      Spec.Cbor.decode at'.key = some (.map [(.int 1, .int 2), (.int 3, .int (-7)),
        (.int (-1), .int 1), (.int (-2), .bytes xb), (.int (-3), .bytes yb)]) ∧
      Spec.Cbor.beNat xb = k.pub.x ∧ Spec.Cbor.beNat yb = k.pub.y ∧
      E.verifyEC k.pub (E.sha256 (authData ++ args.clientDataHash)) sig = true ∧
      Cose.createAttestationCert E w.client.cert w.client.certKey { ecdsa := some k } n
        = .ok (some cert) := by
  have hc := handleMakeCredential_cases E data w
  rw [handleMessage_make] at h
  rw [h] at hc
  dsimp only at hc
  cases hc with
  | nothing hw hr =>
    obtain ⟨e, he, hb⟩ := hr _ rfl
    simp at hb
    exact absurd hb.1.symm he
  | refused args rp flags hd hs hp hrp ha hr hw => simp at hr
  | unsaved args rp flags hd hs hp hrp ha hn c hr hw => simp at hr
  | saved args rp flags blob n m hd hs hp hrp ha hn hm hw hr =>
    obtain ⟨attested, cert, sig, h1, h2, h3, h4, h5⟩ := hr _ rfl
    have hv : ECValid E (E.genEC (w.rnd + 1)) := L.genEC_valid _
    have hfl : flags = 0 ∨ flags = 4 := by
      rcases uv_iff_make hp with h | h
      · exact .inl h.1
      · exact .inr h.1
    obtain ⟨authData, ad, at', xb, yb, e, q⟩ := creation_answer L
      (s := Vault.newIdentity E args.rp args.user w.rnd) rfl hv (L.rand_length _ _) hfl h1 h2 h3
    rw [← e] at h5
    rw [show success = (0 : UInt8) from rfl, ← h5] at q
    obtain ⟨q1, q2, q3, q4, q5, q6, q7, q8, q9⟩ := q
    exact ⟨args, rp, flags, blob, n, E.genEC (w.rnd + 1), authData, sig, cert, ad, at', xb, yb,
      hd, hs, hrp, hp, by rw [hw], rfl, by rw [hw, hrp]; rfl, by rw [hw]; exact hn, by rw [hw],
      by rw [hw]; exact h4, q1, q2, q3, q4, q5, q6, q7, q8, q9.1, q9.2.1, q9.2.2.1, q9.2.2.2.1,
      q9.2.2.2.2.1, q9.2.2.2.2.2.1, q9.2.2.2.2.2.2, h2⟩

/-- A signature by a valid key verifies. -/
theorem sign_verifies {E : Env} (L : Laws E) {k : PrivKey} (hk : KeyValid E k) {data sig : Bytes}
    {n : Nat} (h : Cose.sign E k data n = .ok sig) :
    ∃ pub, Cose.publicOf k = .ok pub ∧ Cose.verify E pub data sig = .ok true := by
  rcases k with ⟨ec, ed, rsa⟩
  cases ec with
  | some ec =>
    refine ⟨_, rfl, ?_⟩
    exact congrArg Res.ok (signECDSA_ok L (show ECValid E ec from hk) h).1
  | none =>
    cases ed with
    | some ed =>
      obtain ⟨seed, hs, rfl⟩ := (show EdValid E ed from hk)
      have hl := L.edPublic_length seed
      have he : Cose.edPublicOf (seed ++ E.edPublic seed) = .ok (E.edPublic seed) :=
        Cose.edPublicOf_valid L hs
      refine ⟨{ ed25519 := some (E.edPublic seed) }, ?_, ?_⟩
      · simp only [Cose.publicOf, he, Res.bind_ok]
      · simp only [Cose.sign, signEd25519] at h
        split at h
        · obtain rfl := Res.ok.inj h
          simp [Cose.verify, hl, L.signEd_verifies seed data hs]
        · cases h
    | none =>
      cases rsa with
      | some r =>
        refine ⟨_, rfl, ?_⟩
        simp only [Cose.sign, signRSA] at h
        obtain ⟨s, h1, h2⟩ := L.signRSA_verifies r (E.sha256 data) n hk
        rw [h1] at h
        obtain rfl := Res.ok.inj h
        simp [Cose.verify, h2]
      | none => exact absurd hk (by simp [KeyValid])

/-- What the answer to GetAssertion says. -/
theorem assertion_answer {E : Env} (L : Laws E) {s : Source} {k : ECPriv} {rpId hash sig : Bytes}
    {flags up : UInt8} {m : Nat} (hk : s.key.ecdsa = some k) (hv : ECValid E k)
    (hid : s.id.length = 16) (hfl : flags = 0 ∨ flags = 4) (hup : up = 0 ∨ up = 1)
    (h : Cose.sign E s.key (makeAuthData E rpId s none (flags ||| up) ++ hash) m = .ok sig) :
    ∃ authData ad, authData = makeAuthData E rpId s none (flags ||| up) ∧
      IsAssertion (success :: Cbor.encode (getAssertionItem s.id authData sig)) s.id authData sig ∧
      parseAuthData authData = some ad ∧ ad.rpIdHash = E.sha256 rpId ∧
      (ad.userPresent = true ↔ up = 1) ∧ (ad.userVerified = true ↔ flags = 4) ∧
      ad.attestedData = false ∧ ad.otherFlags = false ∧ ad.counter = s.counter.toNat ∧
      ad.rest = [] ∧ E.verifyEC k.pub (E.sha256 (authData ++ hash)) sig = true := by
  have h' : signECDSA E k (makeAuthData E rpId s none (flags ||| up) ++ hash) m = .ok sig := by
    unfold Cose.sign at h
    rw [hk] at h
    exact h
  obtain ⟨s1, s2⟩ := signECDSA_ok L hv h'
  obtain ⟨a1, a2⟩ := authData_plain E L rpId s (flags ||| up)
  have sad : Short (makeAuthData E rpId s none (flags ||| up)) := by
    rw [a1]
    unfold Short
    have := L.sha256_length rpId
    simp only [List.length_append, List.length_cons, List.length_nil, be32_length]
    omega
  refine ⟨_, _, rfl, success_of_wf (getAssertionItem_wf (by unfold Short; omega) sad
    (by unfold Short; omega)), a2, rfl, ?_, ?_, ?_, ?_, rfl, rfl, s1⟩
  all_goals
    dsimp only
    rcases hup with rfl | rfl <;> rcases hfl with rfl | rfl <;> decide

/-- Everything about a successful GetAssertion. -/
theorem assertion_spec {E : Env} (L : Laws E) {data body : Bytes} {w w' : World}
    (h : handleMessage E (0x02 :: data) w = (.ok (0 :: body), w'))
    (hlen : body.length < 18446744073709551616) :
    ∃ args i s rp user flags blob n authData sig ad,
      E.decodeGetAssertion data = some args ∧ First w.client.vault args.rpId args.allowList i s ∧
      s.rp = some rp ∧ s.user = some user ∧ getAssertionPIN E w.client args = .ok flags ∧
      w'.client = { w.client with vault := Client.bump w.client.vault i } ∧
      Saves E w'.client w.rnd blob n ∧ w'.store = some blob ∧ w'.rnd = n + 1 ∧
      ((args.up = some false ∧ w'.asks = w.asks ∧ ad.userPresent = false) ∨
        (args.up ≠ some false ∧
          w'.asks = w.asks ++ [⟨.getAssertion, rp.name, user.name, true⟩] ∧
          ad.userPresent = true)) ∧
      IsAssertion (0 :: body) s.id authData sig ∧
      parseAuthData authData = some ad ∧ ad.rpIdHash = E.sha256 args.rpId ∧
      (ad.userVerified = true ↔ flags = 4) ∧ ad.attestedData = false ∧ ad.otherFlags = false ∧
      ad.counter = (s.counter + 1).toNat ∧ ad.rest = [] ∧
      Cose.sign E s.key (authData ++ args.clientDataHash) n = .ok sig := by
  have hc := handleGetAssertion_cases E data w
  rw [handleMessage_get] at h
  rw [h] at hc
  dsimp only at hc
  cases hc with
  | nothing hw hr =>
    obtain ⟨e, he, -, hb⟩ := hr _ rfl
    simp at hb
    exact absurd hb.1.symm he
  | none args flags hd hp hm hw hr => simp at hr
  | unsaved args flags i s hd hp hi hn c hr hw => simp at hr
  | refused args flags i s rp user blob n hd hp hi hn hup hrp hu ha hr hw => simp at hr
  | saved args flags flags' i s rp user blob n asks hd hp hi hn hrp hu hq hw hr =>
    obtain ⟨sig, h1, h2⟩ := hr _ rfl
    have hfl : flags = 0 ∨ flags = 4 := by
      rcases uv_iff_get hp with h | h
      · exact .inl h.1
      · exact .inr h.1
    obtain ⟨a1, a2⟩ := authData_plain E L args.rpId (bumped s) flags'
    have hb : body = Cbor.encode (getAssertionItem s.id
        (makeAuthData E args.rpId (bumped s) .none flags') sig) := by simpa using h2
    have hl := getAssertionItem_length s.id (makeAuthData E args.rpId (bumped s) .none flags') sig
    rw [← hb] at hl
    refine ⟨args, i, s, rp, user, flags, blob, n, _, sig, _, hd, hi, hrp, hu, hp, by rw [hw],
      by rw [hw]; exact hn, by rw [hw], by rw [hw], ?_, ?_, a2, rfl, ?_, ?_, ?_, rfl, rfl, h1⟩
    · rcases hq with ⟨q1, q2, q3⟩ | ⟨q1, q2, q3, q4⟩
      · refine .inl ⟨q1, by rw [hw]; exact q2, ?_⟩
        dsimp only
        subst q3
        rcases hfl with rfl | rfl <;> decide
      · refine .inr ⟨q1, by rw [hw]; exact q3, ?_⟩
        dsimp only
        subst q4
        rcases hfl with rfl | rfl <;> decide
    · rw [h2]
      exact success_of_wf (getAssertionItem_wf (by unfold Short; omega) (by unfold Short; omega)
        (by unfold Short; omega))
    all_goals
      dsimp only
      rcases hq with ⟨q1, q2, rfl⟩ | ⟨q1, q2, q3, rfl⟩ <;> rcases hfl with rfl | rfl <;> decide

end VF.Fido.Ctap
