import Verif.Spec.Cose
import Verif.Proofs.Cose
import Verif.Proofs.CborWF
import Verif.Proofs.Toy
import Verif.Proofs.RsaWitness

/-!
# COSE keys (C29–C33)

`E` is any environment satisfying the library laws; `Verif.Proofs.Toy` shows that there is one.
-/

set_option exponentiation.threshold 70000

namespace VF.Props

open VF.Fido VF.Fido.Cose VF.Spec.Cose VF.Cbor

/-! ## C29 -/

/-- P-256 keys survive, whatever their numbers (leading zero bytes or not). -/
theorem C29_ecdsa_private_round_trip {E : Env} (L : Laws E) (k : ECPriv) (hp : k.pub.p256 = true)
    (hx : k.pub.x < 2 ^ 256) (hy : k.pub.y < 2 ^ 256) (hd : k.d < 2 ^ 256) :
    ∃ b, marshalPrivate { ecdsa := some k } = .ok b ∧
      unmarshalPrivate E b = .ok (some { ecdsa := some k }) := by
  obtain ⟨b, h1, h2⟩ := ecPrivate_round_trip L k hp hx hy hd
  exact ⟨b, h1, h2⟩

theorem C29_ed25519_private_round_trip {E : Env} (L : Laws E) (k : Bytes) (hv : EdValid E k) :
    ∃ b, marshalPrivate { ed25519 := some k } = .ok b ∧
      unmarshalPrivate E b = .ok (some { ed25519 := some k }) := by
  obtain ⟨b, h1, h2⟩ := edPrivate_round_trip L k hv
  exact ⟨b, h1, h2⟩

theorem C29_rsa_private_round_trip {E : Env} (L : Laws E) (k : RSAPriv) (hv : RSAValid k) :
    ∃ b k', marshalPrivate { rsa := some k } = .ok b ∧
      unmarshalPrivate E b = .ok (some k') ∧ SamePrivate { rsa := some k } k' := by
  obtain ⟨b, k', h1, h2, h3, h4, h5⟩ := rsaPrivate_round_trip L k hv
  exact ⟨b, _, h1, h2, rfl, rfl, by simp [rsaMaterial, h3, h4, h5]⟩

theorem ecValid_bounds {E : Env} (L : Laws E) {k : ECPriv} (h : ECValid E k) :
    k.pub.p256 = true ∧ k.pub.x < 2 ^ 256 ∧ k.pub.y < 2 ^ 256 ∧ k.d < 2 ^ 256 := by
  obtain ⟨hp, -, hd, he⟩ := h
  have hb := L.ecPublic_lt k.d
  rw [← he] at hb
  have : p256Order < 2 ^ 256 := by decide +kernel
  exact ⟨hp, hb.1, hb.2, by omega⟩

/-- Every valid key is restored with the same material; `Equal` agrees. -/
theorem C29_private_round_trip {E : Env} (L : Laws E) (k : PrivKey) (ho : Only k)
    (hv : KeyValid E k) :
    ∃ b k', marshalPrivate k = .ok b ∧ unmarshalPrivate E b = .ok (some k') ∧
      SamePrivate k k' ∧ privEqual k k' = true := by
  cases ho with
  | ecdsa k =>
    obtain ⟨hp, hx, hy, hd⟩ := ecValid_bounds L (show ECValid E k from hv)
    obtain ⟨b, h1, h2⟩ := C29_ecdsa_private_round_trip L k hp hx hy hd
    exact ⟨b, _, h1, h2, ⟨rfl, rfl, rfl⟩, by simp [privEqual, ecPrivEqual, ecPubEqual]⟩
  | ed25519 k =>
    obtain ⟨b, h1, h2⟩ := C29_ed25519_private_round_trip L k hv
    exact ⟨b, _, h1, h2, ⟨rfl, rfl, rfl⟩, by simp [privEqual]⟩
  | rsa k =>
    obtain ⟨b, k', h1, h2, h3, h4, h5⟩ := rsaPrivate_round_trip L k hv
    exact ⟨b, _, h1, h2, ⟨rfl, rfl, by simp [rsaMaterial, h3, h4, h5]⟩,
      by simp [privEqual, rsaPrivEqual, rsaPubEqual, h3, h4, h5]⟩

/-! ## C30 -/

theorem C30_ecdsa_public_round_trip {E : Env} (L : Laws E) (k : ECPub) (hp : k.p256 = true)
    (hx : k.x < 2 ^ 256) (hy : k.y < 2 ^ 256) :
    ∃ b, marshalPublic { ecdsa := some k } = .ok b ∧
      unmarshalPublic E b = .ok (some { ecdsa := some k }) := by
  obtain ⟨b, h1, h2⟩ := ecPublic_round_trip L k hp hx hy
  exact ⟨b, h1, h2⟩

theorem C30_ed25519_public_round_trip {E : Env} (L : Laws E) (k : Bytes) (hk : k.length = 32) :
    ∃ b, marshalPublic { ed25519 := some k } = .ok b ∧
      unmarshalPublic E b = .ok (some { ed25519 := some k }) :=
  ⟨_, rfl, edPublic_round_trip L k (short_of_le (Nat.le_of_eq hk) (by omega))⟩

/-- RSA: marshalling succeeds, but the exponent is not in the result, and unmarshalling it
panics, for every key. -/
theorem C30_rsa_public_refuted {E : Env} (L : Laws E) (k : RSAPub) (hn : k.n < 2 ^ 65536) :
    ∃ b, marshalPublic { rsa := some k } = .ok b ∧
      (∀ e', marshalPublic { rsa := some { k with e := e' } } = .ok b) ∧
      (unmarshalPublic E b).isPanic = true := by
  refine ⟨_, rfl, fun _ => rfl, ?_⟩
  obtain ⟨e1, e2⟩ := L.decode_rsa
    { kty := ktyRSA, alg := algPS256, n := some (BigInt.toBytes k.n), e := none, d := [], p := [],
      q := [], dp := [], dq := [], qinv := [] } int8_consts.2.2.1
    int8_consts.2.2.2.2.2.1 (by simp; exact toBytes_short65536 hn)
    (by simp) (by simp [Short]) (by simp [Short]) (by simp [Short]) (by simp [Short])
    (by simp [Short]) (by simp [Short])
  have n1 : algPS256 ≠ algES256 := by decide
  have n2 : algPS256 ≠ algEd25519 := by decide
  simp only [encodeRSAPublicKey, unmarshalPublic, e2, n1, n2, if_false, if_true,
    decodeRSAPublicKey, e1]
  rfl

/-! ## C31 -/

/-- The marshalled key is a canonical CBOR map with the key type, algorithm and curve of RFC 9053
and the two coordinates as byte strings; they are 32 bytes long exactly if neither coordinate is
below `2^248`. -/
theorem C31_coordinate_lengths (k : ECPub) (hp : k.p256 = true)
    (hx : k.x < 2 ^ 256) (hy : k.y < 2 ^ 256) :
    ∃ (b xb yb : Bytes), marshalPublic { ecdsa := some k } = .ok b ∧
      Spec.Cbor.decode b = some (.map [(.int 1, .int 2), (.int 3, .int (-7)), (.int (-1), .int 1),
        (.int (-2), .bytes xb), (.int (-3), .bytes yb)]) ∧
      Spec.Cbor.beNat xb = k.x ∧ Spec.Cbor.beNat yb = k.y ∧
      xb.length ≤ 32 ∧ yb.length ≤ 32 ∧
      (xb.length = 32 ↔ 2 ^ 248 ≤ k.x) ∧ (yb.length = 32 ↔ 2 ^ 248 ≤ k.y) := by
  have sx := toBytes_short256 hx
  have sy := toBytes_short256 hy
  have e : (256 : Nat) ^ 32 = 2 ^ 256 := by decide +kernel
  have w := ec2Item_wf
    { kty := ktyEC2, alg := algES256, crv := crvP256,
      x := some (BigInt.toBytes k.x), y := some (BigInt.toBytes k.y), d := [] } int8_consts.1
      int8_consts.2.2.2.1 int8_consts.2.2.2.2.2.2.1 (by simpa using sx) (by simpa using sy)
      (by simp [Short])
  exact ⟨_, BigInt.toBytes k.x, BigInt.toBytes k.y,
    by simp only [marshalPublic, encodeECDSAPublicKey, hp]; rfl,
    by rw [Cbor.decode_encode _ w]; rfl,
    BigInt.ofBytes_toBytes _, BigInt.ofBytes_toBytes _,
    BigInt.toBytes_length_le 32 _ (by omega), BigInt.toBytes_length_le 32 _ (by omega),
    BigInt.toBytes_length_32 _ hx, BigInt.toBytes_length_32 _ hy⟩

/-- Ed25519 keys have the form of RFC 9053 (key type OKP, algorithm EdDSA, curve Ed25519 and the key itself). -/
theorem C31_ed25519_form (k : Bytes) (h : k.length = 32) :
    ∃ b, marshalPublic { ed25519 := some k } = .ok b ∧
      Spec.Cbor.decode b = some (.map [(.int 1, .int 1), (.int 3, .int (-8)), (.int (-1), .int 6), (.int (-2), .bytes k)]) := by
  have w := okpItem_wf { kty := ktyOKP, alg := algEd25519, crv := crvEd25519, x := some k, d := [] } int8_consts.2.1
    int8_consts.2.2.2.2.1 int8_consts.2.2.2.2.2.2.2.1 (by simp [Short, h]) (by simp [Short])
  exact ⟨_, rfl, by rw [encodeEd25519PublicKey, Cbor.decode_encode _ w]; rfl⟩

/-- RSA keys have the form of RFC 8230 (key type RSA, algorithm PS256, the modulus), but in the place of the exponent is null. -/
theorem C31_rsa_form (k : RSAPub) (h : k.n < 2 ^ 65536) :
    ∃ b nb, marshalPublic { rsa := some k } = .ok b ∧ Spec.Cbor.beNat nb = k.n ∧
      Spec.Cbor.decode b = some (.map [(.int 1, .int 3), (.int 3, .int (-37)), (.int (-1), .bytes nb), (.int (-2), .null)]) := by
  have w := rsaItem_wf
    { kty := ktyRSA, alg := algPS256, n := some (BigInt.toBytes k.n), e := none, d := [], p := [],
      q := [], dp := [], dq := [], qinv := [] } int8_consts.2.2.1 int8_consts.2.2.2.2.2.1
    (by simp; exact toBytes_short65536 h) (by simp) (by simp [Short]) (by simp [Short]) (by simp [Short]) (by simp [Short])
    (by simp [Short]) (by simp [Short])
  exact ⟨_, BigInt.toBytes k.n, rfl, BigInt.ofBytes_toBytes _, by rw [encodeRSAPublicKey, Cbor.decode_encode _ w]; rfl⟩

/-- There are points on P-256 whose marshalled form has a coordinate of fewer than 32 bytes: this
is the public key with private scalar 43. -/
theorem C31_32_bytes_refuted : ∃ k : ECPub, k.p256 = true ∧ onCurve k.x k.y ∧
    ∃ (b xb yb : Bytes), marshalPublic { ecdsa := some k } = .ok b ∧
      Spec.Cbor.decode b = some (.map [(.int 1, .int 2), (.int 3, .int (-7)), (.int (-1), .int 1),
        (.int (-2), .bytes xb), (.int (-3), .bytes yb)]) ∧ yb.length < 32 := by
  let k : ECPub :=
    { p256 := true
      x := 0x986ae2506f1ff104d04230861d8f4b498f4bc4c6d009b30f7544dc129b82d28d
      y := 0x3cccc0a6460e0ae328a4d97d3c7b61d86fc6289c189f2525110c441bb07e97 }
  have hx : k.x < 2 ^ 256 := by decide +kernel
  have hy : k.y < 2 ^ 256 := by decide +kernel
  obtain ⟨b, xb, yb, h1, h2, -, -, -, h3, -, h4⟩ := C31_coordinate_lengths k rfl hx hy
  refine ⟨k, rfl, by decide +kernel, b, xb, yb, h1, h2, ?_⟩
  have n32 : ¬ yb.length = 32 := by
    rw [h4]; decide +kernel
  omega

/-! ## C32 -/

/-- `Equal` on private keys decides whether the key material is the same. -/
theorem C32_private_equal_iff (a b : PrivKey) : privEqual a b = true ↔ SamePrivate a b := by
  rcases a with ⟨ae, ad, ar⟩
  rcases b with ⟨be, bd, br⟩
  have h1 : ∀ x y : ECPriv, ecPrivEqual x y = true ↔ x = y := by
    rintro ⟨⟨p, x, y⟩, d⟩ ⟨⟨p', x', y'⟩, d'⟩
    simp only [ecPrivEqual, ecPubEqual, Bool.and_eq_true, beq_iff_eq, ECPriv.mk.injEq,
      ECPub.mk.injEq]
    constructor <;> (intro h; simp_all)
  have h2 : ∀ x y : RSAPriv, rsaPrivEqual x y = true ↔ rsaMaterial x = rsaMaterial y := by
    rintro ⟨⟨n, e⟩, d, ps, pc⟩ ⟨⟨n', e'⟩, d', ps', pc'⟩
    simp [rsaPrivEqual, rsaPubEqual, rsaMaterial, and_assoc]
  cases ae <;> cases be <;> cases ad <;> cases bd <;> cases ar <;> cases br <;>
    simp [privEqual, SamePrivate, h1, h2, and_assoc]

/-- Hence it is an equivalence relation. -/
theorem C32_private_equal_refl (a : PrivKey) : privEqual a a = true :=
  (C32_private_equal_iff a a).2 ⟨rfl, rfl, rfl⟩

theorem C32_private_equal_symm (a b : PrivKey) : privEqual a b = privEqual b a := by
  rw [Bool.eq_iff_iff, C32_private_equal_iff, C32_private_equal_iff]
  exact ⟨fun ⟨h1, h2, h3⟩ => ⟨h1.symm, h2.symm, h3.symm⟩,
    fun ⟨h1, h2, h3⟩ => ⟨h1.symm, h2.symm, h3.symm⟩⟩

theorem C32_private_equal_trans (a b c : PrivKey) (h1 : privEqual a b = true)
    (h2 : privEqual b c = true) : privEqual a c = true := by
  rw [C32_private_equal_iff] at *
  exact ⟨h1.1.trans h2.1, h1.2.1.trans h2.2.1, h1.2.2.trans h2.2.2⟩

/-- `Equal` on public keys says "equal" exactly for equal keys that hold no Ed25519 key. -/
theorem C32_public_equal_iff (a b : PubKey) :
    pubEqual a b = true ↔ a = b ∧ a.ed25519 = none := by
  rcases a with ⟨ae, ad, ar⟩
  rcases b with ⟨be, bd, br⟩
  have h1 : ∀ x y : ECPub, ecPubEqual x y = true ↔ x = y := by
    rintro ⟨p, x, y⟩ ⟨p', x', y'⟩
    simp [ecPubEqual]; constructor <;> (intro h; simp_all)
  have h2 : ∀ x y : RSAPub, rsaPubEqual x y = true ↔ x = y := by
    rintro ⟨n, e⟩ ⟨n', e'⟩
    simp [rsaPubEqual]
  cases ae <;> cases be <;> cases ad <;> cases bd <;> cases ar <;> cases br <;>
    simp [pubEqual, h1, h2, and_assoc]

theorem C32_public_equal_symm (a b : PubKey) : pubEqual a b = pubEqual b a := by
  rw [Bool.eq_iff_iff, C32_public_equal_iff, C32_public_equal_iff]
  exact ⟨fun ⟨h1, h2⟩ => ⟨h1.symm, h1 ▸ h2⟩, fun ⟨h1, h2⟩ => ⟨h1.symm, h1 ▸ h2⟩⟩

theorem C32_public_equal_trans (a b c : PubKey) (h1 : pubEqual a b = true)
    (h2 : pubEqual b c = true) : pubEqual a c = true := by
  rw [C32_public_equal_iff] at *
  exact ⟨h1.1.trans h2.1, h1.2⟩

/-- It is not reflexive: no Ed25519 public key equals itself. -/
theorem C32_public_equal_refl_refuted (k : Bytes) :
    pubEqual { ed25519 := some k } { ed25519 := some k } = false := rfl

/-! ## C33 -/

/-- The signature made with a private key structure verifies under `Public()`. -/
theorem C33_sign_verifies {E : Env} (L : Laws E) (k : PrivKey) (hv : KeyValid E k)
    (data : Bytes) (rnd : Nat) :
    ∃ sig pub, sign E k data rnd = .ok sig ∧ publicOf k = .ok pub ∧
      verify E pub data sig = .ok true := by
  rcases k with ⟨_ | ec, _ | ed, _ | r⟩ <;> simp only [KeyValid] at hv
  · obtain ⟨s, h1, h2⟩ := L.signRSA_verifies r (E.sha256 data) rnd hv
    exact ⟨s, _, by simp [sign, signRSA, h1], rfl, by simp [verify, h2]⟩
  all_goals first
    | (obtain ⟨seed, hs, rfl⟩ := hv
       have hl : (seed ++ E.edPublic seed).length = 64 := by simp [hs, L.edPublic_length]
       exact ⟨_, _, by simp [sign, signEd25519, hl]; rfl,
         by simp [publicOf, edPublicOf_valid L hs]; rfl,
         by simp [verify, L.edPublic_length, L.signEd_verifies seed data hs]⟩)
    | (obtain ⟨s, h1, h2⟩ := L.signEC_verifies ec (E.sha256 data) rnd hv
       exact ⟨s, _, by simp [sign, signECDSA, h1], rfl, by simp [verify, h2]⟩)

/-- Nothing is accepted that the algorithm of a key in the structure rejects. -/
theorem C33_verify_accepts_genuine {E : Env} {k : PubKey} {data sig : Bytes} (h : verify E k data sig = .ok true) :
    Genuine E k data sig := by
  rcases k with ⟨_ | ec, _ | ed, _ | r⟩ <;> simp only [verify] at h
  · cases h
  · exact .inr (.inr ⟨r, rfl, Res.ok.inj h⟩)
  all_goals first
    | exact .inl ⟨ec, rfl, Res.ok.inj h⟩
    | (split at h
       · exact .inr (.inl ⟨ed, rfl, Res.ok.inj h⟩)
       · cases h)

/-- A key with a signature that is rejected. -/
example : ∃ (E : Env) (k : PubKey) (data sig bad : Bytes), Laws E ∧ verify E k data sig = .ok true ∧ ¬ Genuine E k data bad := by
  have L := Toy.toy_laws (fun _ _ _ _ => true)
  refine ⟨Toy.toy (fun _ _ _ _ => true), { ed25519 := some (List.replicate 32 0) }, [1], [1], [2], L, rfl, ?_⟩
  rintro (⟨ec, h, -⟩ | ⟨ed, -, h⟩ | ⟨r, h, -⟩)
  · cases h
  · exact absurd (show (([2] : Bytes) == [1]) = true from h) (by decide)
  · cases h

/-- ... and under the key in the attestation certificate. -/
theorem C33_certificate_has_signing_key {E : Env} (L : Laws E) (k ca : PrivKey)
    (caCert cert : Bytes) (rnd rnd' : Nat) (data sig : Bytes)
    (hv : KeyValid E k)
    (hc : createAttestationCert E caCert ca k rnd = .ok (some cert))
    (hs : sign E k data rnd' = .ok sig) :
    ∃ pub, E.certSubject cert = some pub ∧ verify E pub data sig = .ok true := by
  obtain ⟨sig', pub, h1, h2, h3⟩ := C33_sign_verifies L k hv data rnd'
  rw [hs] at h1
  obtain rfl := Res.ok.inj h1
  refine ⟨pub, ?_, h3⟩
  have hx : extractPublicKey pub = .ok pub := by
    rcases k with ⟨_ | ec, _ | ed, _ | r⟩ <;> simp only [publicOf] at h2 <;>
      first
      | (obtain rfl := Res.ok.inj h2; rfl)
      | (cases he : edPublicOf ed <;> rw [he] at h2 <;> simp at h2; subst h2; rfl)
      | cases h2
  simp only [createAttestationCert, h2, Res.bind_ok, hx] at hc
  cases he : extractPrivateKey ca <;> rw [he] at hc <;> simp at hc
  split at hc
  · simp at hc
  · rename_i c hcc
    split at hc
    · simp at hc; subst hc
      exact (L.createCert_sound _ _ _ _ _ _ hcc).2.1
    · simp at hc

theorem issuer_same {E : Env} {ca issuer : PrivKey} (hv : KeyValid E ca) (h : extractPrivateKey ca = .ok issuer) :
    KeyValid E issuer ∧ publicOf issuer = publicOf ca := by
  rcases ca with ⟨_ | ec, _ | ed, _ | r⟩ <;> cases h <;> exact ⟨hv, rfl⟩

/-- ... and certificates made with a key, attestation certificates and those of an authority, are signed with it: they verify under
its `Public()`. -/
theorem C33_certificate_signed {E : Env} (L : Laws E) (ca : PrivKey) (hv : KeyValid E ca) {cert : Bytes} {rnd : Nat}
    (hc : (∃ caCert k, createAttestationCert E caCert ca k rnd = .ok (some cert)) ∨ createSelfSignedCA E ca rnd = .ok (some cert)) :
    ∃ pub, publicOf ca = .ok pub ∧ E.certSignedBy cert pub = true := by
  obtain ⟨-, pub, -, hp, -⟩ := C33_sign_verifies L ca hv [] 0
  refine ⟨pub, hp, ?_⟩
  rcases hc with ⟨caCert, k, hc⟩ | hc
  · unfold createAttestationCert at hc
    cases h1 : publicOf k with
    | panic e => rw [h1] at hc; cases hc
    | ok q =>
      rw [h1, Res.bind_ok] at hc
      cases h2 : extractPublicKey q with
      | panic e => rw [h2] at hc; cases hc
      | ok sub =>
        rw [h2, Res.bind_ok] at hc
        cases h3 : extractPrivateKey ca with
        | panic e => rw [h3] at hc; cases hc
        | ok issuer =>
          rw [h3, Res.bind_ok] at hc
          obtain ⟨g1, g2⟩ := issuer_same hv h3
          split at hc
          · cases hc
          · next c h4 =>
            split at hc
            · cases hc
              exact L.createCert_signed _ _ _ _ _ _ _ h4 g1 (g2.trans hp)
            · cases hc
  · unfold createSelfSignedCA at hc
    rw [hp, Res.bind_ok] at hc
    cases h2 : extractPublicKey pub with
    | panic e => rw [h2] at hc; cases hc
    | ok sub =>
      rw [h2, Res.bind_ok] at hc
      cases h3 : extractPrivateKey ca with
      | panic e => rw [h3] at hc; cases hc
      | ok issuer =>
        rw [h3, Res.bind_ok] at hc
        obtain ⟨g1, g2⟩ := issuer_same hv h3
        split at hc
        · cases hc
        · next c h4 =>
          split at hc
          · cases hc
            exact L.createCert_signed _ _ _ _ _ _ _ h4 g1 (g2.trans hp)
          · cases hc

/-- ... and the marshalled form is that of the same key: the restored key has the same `Public()`
(and so verifies the same signatures). -/
theorem C33_marshalled_key_is_signing_key {E : Env} (L : Laws E) (k : PrivKey)
    (hv : KeyValid E k) :
    ∃ b k' pub, marshalPrivate k = .ok b ∧ unmarshalPrivate E b = .ok (some k') ∧
      publicOf k = .ok pub ∧ publicOf k' = .ok pub := by
  rcases k with ⟨_ | ec, _ | ed, _ | r⟩ <;> simp only [KeyValid] at hv
  · obtain ⟨b, k', h1, h2, h3, h4, h5⟩ := rsaPrivate_round_trip L r hv
    exact ⟨b, _, _, h1, h2, rfl, by simp [publicOf, h3]⟩
  all_goals first
    | (obtain ⟨b, h1, h2⟩ := edPrivate_round_trip L ed hv
       obtain ⟨seed, hs, rfl⟩ := hv
       refine ⟨b, _, { ed25519 := some (E.edPublic seed) }, h1, h2, ?_, ?_⟩ <;>
         simp [publicOf, edPublicOf_valid L hs])
    | (obtain ⟨hp, hx, hy, hd⟩ := ecValid_bounds L hv
       obtain ⟨b, h1, h2⟩ := ecPrivate_round_trip L ec hp hx hy hd
       exact ⟨b, _, _, h1, h2, rfl, rfl⟩)

/-- A structure without key panics in all of them. -/
theorem C33_no_key_panics (E : Env) (data : Bytes) (rnd : Nat) (ca : PrivKey) (caCert : Bytes) :
    (sign E {} data rnd).isPanic = true ∧ (publicOf {}).isPanic = true ∧
    (marshalPrivate {}).isPanic = true ∧ (marshalPublic {}).isPanic = true ∧
    (∀ sig, (verify E {} data sig).isPanic = true) ∧
    (createAttestationCert E caCert ca {} rnd).isPanic = true ∧
    (createAttestationCert E caCert {} ca rnd).isPanic = true := by
  refine ⟨rfl, rfl, rfl, rfl, fun _ => rfl, rfl, ?_⟩
  simp only [createAttestationCert]
  cases publicOf ca with
  | panic c => rfl
  | ok p =>
    simp only [Res.bind_ok]
    cases extractPublicKey p <;> rfl

/-! ## The hypotheses can be met

There is an environment with all the laws, and in it valid keys of all three kinds. -/

example : ∃ E : Env, Laws E ∧
    (∃ k, ECValid E k ∧ Only { ecdsa := some k } ∧ KeyValid E { ecdsa := some k }) ∧
    (∃ k, EdValid E k ∧ KeyValid E { ed25519 := some k }) ∧
    (∃ k, RSAValid k ∧ KeyValid E { rsa := some k }) ∧
    (∃ ec r, KeyValid E { ecdsa := some ec, rsa := some r }) := by
  have L := Toy.toy_laws (fun _ _ _ _ => true)
  refine ⟨_, L, ⟨_, L.genEC_valid 0, .ecdsa _, L.genEC_valid 0⟩, ?_,
    ⟨_, RsaWitness.key_valid, RsaWitness.key_valid⟩, ⟨_, RsaWitness.key, L.genEC_valid 0⟩⟩
  exact ⟨_, ⟨List.replicate 32 7, by simp, rfl⟩, ⟨List.replicate 32 7, by simp, rfl⟩⟩

/-- C31: a key whose coordinates are both long enough (the generator of the group). -/
example : ∃ k : ECPub, k.p256 = true ∧ onCurve k.x k.y ∧ 2 ^ 248 ≤ k.x ∧ 2 ^ 248 ≤ k.y ∧
    k.x < 2 ^ 256 ∧ k.y < 2 ^ 256 :=
  ⟨{ p256 := true
     x := 0x6b17d1f2e12c4247f8bce6e563a440f277037d812deb33a0f4a13945d898c296
     y := 0x4fe342e2fe1a7f9b8ee7eb4a7c0f9e162bce33576b315ececbb6406837bf51f5 },
    rfl, by decide +kernel, by decide +kernel, by decide +kernel, by decide +kernel,
    by decide +kernel⟩

/-- C33: a certificate is made. -/
example : ∃ (E : Env) (k ca : PrivKey) (caCert cert : Bytes) (rnd : Nat), Laws E ∧ KeyValid E k ∧
    createAttestationCert E caCert ca k rnd = .ok (some cert) := by
  have L := Toy.toy_laws (fun _ _ _ _ => true)
  let E := Toy.toy (fun _ _ _ _ => true)
  have hv := L.genEC_valid 0
  have hf := Toy.fits_ec _ (ecValid_bounds L hv).2.1 (ecValid_bounds L hv).2.2.1
  have hc : E.createCert (attestationTemplate E 0) (some []) { ecdsa := some (E.genEC 0).pub }
      { ecdsa := some (E.genEC 0) } 0 = some (Toy.certOf ({ ecdsa := some (E.genEC 0).pub },
        { ecdsa := some (E.genEC 0).pub }, Toy.kindOf (attestationTemplate E 0) (some []))) :=
    if_pos ⟨hf, hf⟩
  refine ⟨E, { ecdsa := some (E.genEC 0) }, { ecdsa := some (E.genEC 0) }, [],
    Toy.certOf ({ ecdsa := some (E.genEC 0).pub }, { ecdsa := some (E.genEC 0).pub },
      Toy.kindOf (attestationTemplate E 0) (some [])), 0, L, hv, ?_⟩
  have hp := (L.createCert_sound _ _ _ _ _ _ hc).1
  simp only [createAttestationCert, publicOf, extractPublicKey, extractPrivateKey, Res.bind_ok, hc]
  exact if_pos hp

end VF.Props
