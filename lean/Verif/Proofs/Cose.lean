import Verif.Spec.Laws
import Verif.Proofs.BigInt
import Verif.Proofs.Cbor
import Verif.Proofs.Util

namespace VF.Fido.Cose

theorem short_of_le {b : Bytes} {k : Nat} (h : b.length ≤ k) (hk : k ≤ 1000000) : Short b := by
  unfold Short; omega

theorem toBytes_short256 {n : Nat} (h : n < 2 ^ 256) : Short (BigInt.toBytes n) := by
  have e1 : (256 : Nat) ^ 32 = 2 ^ 256 := by decide +kernel
  exact short_of_le (BigInt.toBytes_length_le 32 n (by omega)) (by omega)

theorem toBytes_short65536 {n : Nat} (h : n < 2 ^ 65536) : Short (BigInt.toBytes n) := by
  have e1 : (256 : Nat) ^ 8192 = 2 ^ 65536 := by
    rw [show (256 : Nat) = 2 ^ 8 from rfl, ← Nat.pow_mul]
  exact short_of_le (BigInt.toBytes_length_le 8192 n (by rw [e1]; exact h)) (by omega)

theorem int8_consts : Int8Range ktyEC2 ∧ Int8Range ktyOKP ∧ Int8Range ktyRSA ∧
    Int8Range algES256 ∧ Int8Range algEd25519 ∧ Int8Range algPS256 ∧ Int8Range crvP256 ∧
    Int8Range crvEd25519 ∧ Int8Range algECDH ∧ Int8Range 0 := by
  unfold Int8Range; decide

theorem ecPrivate_round_trip {E : Env} (L : Laws E) (k : ECPriv) (hp : k.pub.p256 = true)
    (hx : k.pub.x < 2 ^ 256) (hy : k.pub.y < 2 ^ 256) (hd : k.d < 2 ^ 256) :
    ∃ b, encodeECDSAPrivateKey k = .ok b ∧
      unmarshalPrivate E b = .ok (some { ecdsa := some k }) := by
  obtain ⟨i1, i2, i3, i4, i5, i6, i7, i8, i9, i10⟩ := int8_consts
  refine ⟨Cbor.encode (ec2Item
    { kty := ktyEC2, alg := algES256, crv := crvP256, x := some (BigInt.toBytes k.pub.x),
      y := some (BigInt.toBytes k.pub.y), d := BigInt.toBytes k.d }),
    by simp [encodeECDSAPrivateKey, hp], ?_⟩
  obtain ⟨e1, e2⟩ := L.decode_ec2
    { kty := ktyEC2, alg := algES256, crv := crvP256, x := some (BigInt.toBytes k.pub.x),
      y := some (BigInt.toBytes k.pub.y), d := BigInt.toBytes k.d } i1 i4 i7
    (by simp; exact toBytes_short256 hx) (by simp; exact toBytes_short256 hy)
    (toBytes_short256 hd)
  simp only [unmarshalPrivate, e2, decodeECDSAPrivateKey, e1]
  simp [BigInt.ofBytes_toBytes]
  rcases k with ⟨⟨p, x, y⟩, d⟩
  simp_all

theorem ecPublic_round_trip {E : Env} (L : Laws E) (k : ECPub) (hp : k.p256 = true)
    (hx : k.x < 2 ^ 256) (hy : k.y < 2 ^ 256) :
    ∃ b, encodeECDSAPublicKey k = .ok b ∧
      unmarshalPublic E b = .ok (some { ecdsa := some k }) := by
  obtain ⟨i1, i2, i3, i4, i5, i6, i7, i8, i9, i10⟩ := int8_consts
  refine ⟨Cbor.encode (ec2Item
    { kty := ktyEC2, alg := algES256, crv := crvP256, x := some (BigInt.toBytes k.x),
      y := some (BigInt.toBytes k.y), d := [] }), by simp [encodeECDSAPublicKey, hp], ?_⟩
  obtain ⟨e1, e2⟩ := L.decode_ec2
    { kty := ktyEC2, alg := algES256, crv := crvP256, x := some (BigInt.toBytes k.x),
      y := some (BigInt.toBytes k.y), d := [] } i1 i4 i7
    (by simp; exact toBytes_short256 hx) (by simp; exact toBytes_short256 hy)
    (by simp [Short])
  simp only [unmarshalPublic, e2, decodeECDSAPublicKey, e1]
  simp [BigInt.ofBytes_toBytes]
  rcases k with ⟨p, x, y⟩
  simp_all

theorem edPublicOf_valid {E : Env} (L : Laws E) {seed : Bytes} (h : seed.length = 32) :
    edPublicOf (seed ++ E.edPublic seed) = .ok (E.edPublic seed) := by
  have hp := L.edPublic_length seed
  have e : (seed ++ E.edPublic seed).drop 32 = E.edPublic seed := List.drop_left' h
  have t : (E.edPublic seed).take 32 = E.edPublic seed := List.take_of_length_le (by omega)
  simp [edPublicOf, e, t, hp, h]

theorem edPrivate_round_trip {E : Env} (L : Laws E) (k : Bytes) (hv : EdValid E k) :
    ∃ b, encodeEd25519PrivateKey k = .ok b ∧
      unmarshalPrivate E b = .ok (some { ed25519 := some k }) := by
  obtain ⟨i1, i2, i3, i4, i5, i6, i7, i8, i9, i10⟩ := int8_consts
  obtain ⟨seed, hs, rfl⟩ := hv
  have t : (seed ++ E.edPublic seed).take 32 = seed := List.take_left' hs
  refine ⟨Cbor.encode (okpItem
    { kty := ktyOKP, alg := algEd25519, crv := crvEd25519, x := some (E.edPublic seed),
      d := seed }), by simp [encodeEd25519PrivateKey, edPublicOf_valid L hs, t], ?_⟩
  obtain ⟨e1, e2⟩ := L.decode_okp
    { kty := ktyOKP, alg := algEd25519, crv := crvEd25519, x := some (E.edPublic seed), d := seed }
    i2 i5 i8 (by simp; exact short_of_le (Nat.le_of_eq (L.edPublic_length seed)) (by omega))
    (short_of_le (Nat.le_of_eq hs) (by omega))
  have na : algEd25519 ≠ algES256 := by decide
  simp only [unmarshalPrivate, e2, na, if_false, decodeEd25519PrivateKey, e1, hs]
  simp

theorem edPublic_round_trip {E : Env} (L : Laws E) (k : Bytes) (hk : Short k) :
    unmarshalPublic E (encodeEd25519PublicKey k) = .ok (some { ed25519 := some k }) := by
  obtain ⟨i1, i2, i3, i4, i5, i6, i7, i8, i9, i10⟩ := int8_consts
  obtain ⟨e1, e2⟩ := L.decode_okp
    { kty := ktyOKP, alg := algEd25519, crv := crvEd25519, x := some k, d := [] }
    i2 i5 i8 (by simpa using hk) (by simp [Short])
  have na : algEd25519 ≠ algES256 := by decide
  simp only [encodeEd25519PublicKey, unmarshalPublic, e2, na, if_false, decodeEd25519PublicKey, e1]
  simp

theorem int32_round_trip (e : Int) (h0 : 0 ≤ e) (h1 : e < 2147483648) :
    (UInt32.ofInt e).toInt32.toInt = e := by
  obtain ⟨n, rfl⟩ := Int.eq_ofNat_of_zero_le h0
  have hn : n < 2147483648 := by omega
  have : UInt32.ofInt (n : Int) = UInt32.ofNat n := by
    have e : ((n : Int) % 2 ^ 32).toNat = n := by omega
    rw [UInt32.ofInt, e]
  rw [this]
  have hb : (UInt32.ofNat n).toNat = n := by simp [UInt32.toNat_ofNat']; omega
  simp only [Int32.toInt, UInt32.toInt32, BitVec.toInt]
  have : (UInt32.ofNat n).toBitVec.toNat = n := hb
  simp only [Int32.toBitVec, this]
  split <;> omega

theorem rsaPrivate_round_trip_valid {E : Env} (L : Laws E) (k : RSAPriv) (hv : RSAValid k) :
    ∃ b k', encodeRSAPrivateKey k = .ok b ∧
      unmarshalPrivate E b = .ok (some { rsa := some k' }) ∧
      k'.pub = k.pub ∧ k'.d = k.d ∧ k'.primes = k.primes ∧ RSAValid k' := by
  have hv0 := hv
  obtain ⟨i1, i2, i3, i4, i5, i6, i7, i8, i9, i10⟩ := int8_consts
  obtain ⟨p, q, hpr, hp1, hq1, -, -, -, hn, -, hn2, he0, he1, hd, -, -, qinv, hqi, hpc⟩ := hv
  have hpn : p < 2 ^ 65536 := by
    refine Nat.lt_of_le_of_lt ?_ hn2
    rw [hn]; exact Nat.le_mul_of_pos_right p (by omega)
  have hqn : q < 2 ^ 65536 := by
    refine Nat.lt_of_le_of_lt ?_ hn2
    rw [hn]; exact Nat.le_mul_of_pos_left q (by omega)
  have hdn : k.d < 2 ^ 65536 := Nat.lt_trans hd hn2
  have hdp : k.d % (p - 1) < 2 ^ 65536 := Nat.lt_of_le_of_lt (Nat.mod_le _ _) hdn
  have hdq : k.d % (q - 1) < 2 ^ 65536 := Nat.lt_of_le_of_lt (Nat.mod_le _ _) hdn
  have hqv : qinv < 2 ^ 65536 := Nat.lt_trans hqi hpn
  have enc : encodeRSAPrivateKey k = .ok (Cbor.encode (rsaItem
    { kty := ktyRSA, alg := algPS256, n := some (BigInt.toBytes k.pub.n),
      e := some (Util.toBE32 (UInt32.ofInt k.pub.e)),
      d := BigInt.toBytes k.d, p := BigInt.toBytes p, q := BigInt.toBytes q,
      dp := BigInt.toBytes (k.d % (p - 1)), dq := BigInt.toBytes (k.d % (q - 1)),
      qinv := BigInt.toBytes qinv })) := by
    simp [encodeRSAPrivateKey, hpr, hpc]
  obtain ⟨e1, e2⟩ := L.decode_rsa
    { kty := ktyRSA, alg := algPS256, n := some (BigInt.toBytes k.pub.n),
      e := some (Util.toBE32 (UInt32.ofInt k.pub.e)),
      d := BigInt.toBytes k.d, p := BigInt.toBytes p, q := BigInt.toBytes q,
      dp := BigInt.toBytes (k.d % (p - 1)), dq := BigInt.toBytes (k.d % (q - 1)),
      qinv := BigInt.toBytes qinv } i3 i6
    (by simp; exact toBytes_short65536 hn2) (by simp [Short, Util.toBE32])
    (toBytes_short65536 hdn) (toBytes_short65536 hpn) (toBytes_short65536 hqn)
    (toBytes_short65536 hdp) (toBytes_short65536 hdq) (toBytes_short65536 hqv)
  have n1 : algPS256 ≠ algES256 := by decide
  have n2 : algPS256 ≠ algEd25519 := by decide
  have rd : Util.readBE32 (Util.toBE32 (UInt32.ofInt k.pub.e)) =
      .ok (UInt32.ofInt k.pub.e, []) := by
    have := Util.readBE32_be32 (UInt32.ofInt k.pub.e) []
    simpa [Util.toBE32_eq] using this
  have c : ¬ (p ≤ 1 ∨ q ≤ 1) := by omega
  refine ⟨_, { pub := k.pub, d := k.d, primes := [p, q],
               precomp := some (k.d % (p - 1), k.d % (q - 1), E.rsaQinv p q) }, enc, ?_, rfl, rfl,
    hpr.symm, ?_⟩
  rotate_left
  · obtain ⟨p', q', g1, g2, g3, g4, g5, g6, g7, g8, g9, g10, g11, g12, g13, g14, -⟩ := hv0
    rw [hpr] at g1
    simp only [List.cons.injEq, and_true] at g1
    obtain ⟨rfl, rfl⟩ := g1
    exact ⟨p, q, rfl, g2, g3, g4, g5, g6, g7, g8, g9, g10, g11, g12, g13, g14, _,
      L.rsaQinv_lt p q hp1, rfl⟩
  simp only [unmarshalPrivate, e2, n1, n2, if_false, if_true, decodeRSAPrivateKey, e1]
  simp only [Option.getD_some, rd, Res.bind_ok, BigInt.ofBytes_toBytes, c, if_false,
    int32_round_trip k.pub.e (by omega) he1]

theorem rsaPrivate_round_trip {E : Env} (L : Laws E) (k : RSAPriv) (hv : RSAValid k) :
    ∃ b k', encodeRSAPrivateKey k = .ok b ∧
      unmarshalPrivate E b = .ok (some { rsa := some k' }) ∧
      k'.pub = k.pub ∧ k'.d = k.d ∧ k'.primes = k.primes := by
  obtain ⟨b, k', h1, h2, h3, h4, h5, -⟩ := rsaPrivate_round_trip_valid L k hv
  exact ⟨b, k', h1, h2, h3, h4, h5⟩

end VF.Fido.Cose
