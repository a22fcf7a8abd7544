import Verif.Proofs.U2fCases
import Verif.Proofs.Answers
import Verif.Proofs.Progress
import Verif.Proofs.Util
import Verif.Spec.U2f

/-!
# U2F answers in terms of the specification
-/

namespace VF.Fido.U2f

open VF.Spec.U2f VF.Spec.Client Client

theorem bufRead_append (a r : Bytes) (h : a ++ r ≠ []) :
    Util.bufRead a.length (a ++ r) = .ok (a, r) := by
  unfold Util.bufRead
  have : (a ++ r).isEmpty = false := by simpa using h
  rw [this]
  simp [Util.pad]

theorem decodeMessage_apdu (cla ins p1 p2 : UInt8) (data : Bytes) (le : Option UInt16)
    (h0 : data ≠ []) (h1 : data.length ≤ 65535) :
    decodeMessage (apdu cla ins p1 p2 data le) =
      .ok ({ cla := cla, command := ins, param1 := p1, param2 := p2 }, data, le.getD 0) := by
  have hn : (UInt16.ofNat data.length).toNat = data.length := by simp; omega
  have hb : ∀ r, Util.bufRead (UInt16.ofNat data.length).toNat (data ++ r) = .ok (data, r) := by
    intro r
    rw [hn]
    exact bufRead_append _ _ (by simp [h0])
  have hi : ∀ r, (data ++ r).isEmpty = false := by intro r; simp [h0]
  cases le with
  | none =>
    have := hb []
    have hi := hi []
    rw [List.append_nil] at this hi
    simp only [apdu, decodeMessage, List.cons_append, List.nil_append, List.append_assoc, List.append_nil,
      ne_eq, not_true_eq_false, if_false, Util.readBE16_be16, Res.bind_ok, this, hi,
      Bool.false_eq_true, List.isEmpty_nil, if_true, Option.getD]
  | some n =>
    have e : Util.readBE16 (be16 n) = .ok (n, []) := by
      have := Util.readBE16_be16 n []
      rwa [List.append_nil] at this
    have e' : (be16 n).isEmpty = false := rfl
    simp only [apdu, decodeMessage, List.cons_append, List.nil_append, List.append_assoc, List.append_nil,
      ne_eq, not_true_eq_false, if_false, Util.readBE16_be16, Res.bind_ok, hb, hi, e, e',
      Bool.false_eq_true, Option.getD]

theorem handleMessage_register (E : Env) (cla p1 p2 : UInt8) (data : Bytes) (le : Option UInt16)
    (w : World) (h0 : data ≠ []) (h1 : data.length ≤ 65535) :
    handleMessage E (apdu cla 1 p1 p2 data le) w = handleRegister E data w := by
  unfold handleMessage
  rw [decodeMessage_apdu _ _ _ _ _ _ h0 h1, Go.lift_ok_bind]
  rfl

theorem handleMessage_authenticate (E : Env) (cla control p2 : UInt8) (data : Bytes)
    (le : Option UInt16) (w : World) (h0 : data ≠ []) (h1 : data.length ≤ 65535) :
    handleMessage E (apdu cla 2 control p2 data le) w = handleAuthenticate E control data w := by
  unfold handleMessage
  rw [decodeMessage_apdu _ _ _ _ _ _ h0 h1, Go.lift_ok_bind]
  rfl

theorem decodeAuthenticate_data (challenge application handle : Bytes)
    (hc : challenge.length = 32) (ha : application.length = 32) (h0 : handle ≠ [])
    (h1 : handle.length ≤ 255) :
    decodeAuthenticate (authenticateData challenge application handle) =
      .ok (challenge, application, handle) := by
  have n : (UInt8.ofNat handle.length).toNat = handle.length := by simp; omega
  have e1 : ∀ r, r ≠ [] → Util.bufRead 32 (challenge ++ r) = .ok (challenge, r) := by
    intro r hr
    have := bufRead_append challenge r (by simp [hr])
    rwa [hc] at this
  have e2 : ∀ r, r ≠ [] → Util.bufRead 32 (application ++ r) = .ok (application, r) := by
    intro r hr
    have := bufRead_append application r (by simp [hr])
    rwa [ha] at this
  have e3 : Util.bufRead (UInt8.ofNat handle.length).toNat handle = .ok (handle, []) := by
    have := bufRead_append handle [] (by simp [h0])
    rw [List.append_nil] at this
    rw [n]; exact this
  unfold decodeAuthenticate authenticateData
  rw [List.append_assoc, List.append_assoc, e1 _ (by simp), Res.bind_ok]
  dsimp only
  rw [e2 _ (by simp), Res.bind_ok]
  dsimp only [List.cons_append, List.nil_append]
  rw [Util.readLE8_cons, Res.bind_ok]
  dsimp only
  rw [e3]
  rfl

theorem authenticateData_ne (challenge application handle : Bytes) :
    authenticateData challenge application handle ≠ [] := by
  simp [authenticateData]

theorem authenticateData_length (challenge application handle : Bytes)
    (hc : challenge.length = 32) (ha : application.length = 32) :
    (authenticateData challenge application handle).length = 65 + handle.length := by
  simp [authenticateData, hc, ha]; omega

/-! ### Key handles -/

/-- The handle made in a registration with the draws from `n` on. -/
def madeHandle (E : Env) (deviceKey application : Bytes) (n : Nat) : Bytes :=
  Cbor.encode (boxItem
    { data := E.gcmSeal deviceKey (E.rand (n + 1) 12)
        (Cbor.encode (keyHandleItem
          { privateKey := some (ecToDER (E.genEC n)), applicationID := application }))
      iv := E.rand (n + 1) 12 })

theorem ellipticMarshal_length {x y : Nat} (hx : x < 2 ^ 256) (hy : y < 2 ^ 256) :
    (ellipticMarshal x y).length = 65 := by
  simp [ellipticMarshal, BigInt.fill32_length x hx, BigInt.fill32_length y hy]

theorem ecToDER_length {E : Env} (L : Laws E) {k : ECPriv} (h : ECValid E k) :
    (ecToDER k).length = 121 := by
  obtain ⟨-, bx, bY, bd⟩ := Vault.ecValid_bounds L h
  simp only [ecToDER, List.length_append, BigInt.fill32_length _ bd,
    ellipticMarshal_length bx bY]
  rfl

theorem keyHandle_length {der application : Bytes} (hd : der.length = 121)
    (ha : application.length = 32) :
    (Cbor.encode (keyHandleItem { privateKey := some der, applicationID := application })).length
      = 160 := by
  simp [keyHandleItem, Cose.bytesOrNull, Cbor.encode, Cbor.encodeEntries, Cbor.head, Cbor.int,
    hd, ha]

/-- The handle of a key and nonce. -/
def handleOf (E : Env) (deviceKey application : Bytes) (k : ECPriv) (iv : Bytes) : Bytes :=
  Cbor.encode (boxItem
    { data := E.gcmSeal deviceKey iv
        (Cbor.encode (keyHandleItem { privateKey := some (ecToDER k), applicationID := application }))
      iv := iv })

theorem handleOf_length {E : Env} (L : Laws E) {deviceKey application iv : Bytes} {k : ECPriv}
    (hv : ECValid E k) (hiv : iv.length = 12) (hk : aesKeyOk deviceKey = true)
    (ha : application.length = 32) : (handleOf E deviceKey application k iv).length = 194 := by
  have h1 := keyHandle_length (ecToDER_length L hv) ha
  have h2 := L.gcm_length deviceKey iv
    (Cbor.encode (keyHandleItem { privateKey := some (ecToDER k), applicationID := application })) hk hiv
  rw [h1] at h2
  simp [handleOf, boxItem, Cbor.encode, Cbor.encodeEntries, Cbor.head, Cbor.int, h2, hiv]

theorem handleOf_sealed {E : Env} (L : Laws E) {deviceKey application iv : Bytes} {k : ECPriv}
    (hv : ECValid E k) (hiv : iv.length = 12) (hk : aesKeyOk deviceKey = true)
    (ha : application.length = 32) :
    Sealed E deviceKey (handleOf E deviceKey application k iv) application k := by
  have h1 := keyHandle_length (ecToDER_length L hv) ha
  have h2 := L.gcm_length deviceKey iv
    (Cbor.encode (keyHandleItem { privateKey := some (ecToDER k), applicationID := application })) hk hiv
  rw [h1] at h2
  refine ⟨_, _, _, L.decode_box _ ?_ ?_, L.gcm_open _ _ _ hk hiv,
    L.decode_keyHandle _ ?_ ?_, L.parseECDER_toDER _ hv⟩
  · unfold Short; dsimp only; omega
  · unfold Short; dsimp only; rw [hiv]; omega
  · intro x hx
    obtain rfl := Option.some.inj hx
    unfold Short
    rw [ecToDER_length L hv]; omega
  · unfold Short; dsimp only; omega

theorem madeHandle_length {E : Env} (L : Laws E) {deviceKey application : Bytes} (n : Nat)
    (hk : aesKeyOk deviceKey = true) (ha : application.length = 32) :
    (madeHandle E deviceKey application n).length = 194 :=
  handleOf_length L (L.genEC_valid n) (L.rand_length _ _) hk ha

theorem madeHandle_sealed {E : Env} (L : Laws E) {deviceKey application : Bytes} (n : Nat)
    (hk : aesKeyOk deviceKey = true) (ha : application.length = 32) :
    Sealed E deviceKey (madeHandle E deviceKey application n) application (E.genEC n) :=
  handleOf_sealed L (L.genEC_valid n) (L.rand_length _ _) hk ha

/-- Opening a handle that was sealed. -/
theorem openKeyHandle_sealed {E : Env} {c : Client} {handle application : Bytes} {key : ECPriv}
    (hk : aesKeyOk c.deviceKey = true) (h : Sealed E c.deviceKey handle application key)
    (hiv : ∀ box, E.decodeBox handle = some box → box.iv.length = 12) :
    ∃ der, openKeyHandle E c handle =
        .ok (some { privateKey := some der, applicationID := application }) ∧
      E.parseECDER der = some key := by
  obtain ⟨box, plain, der, h1, h2, h3, h4⟩ := h
  refine ⟨der, ?_, h4⟩
  simp [openKeyHandle, h1, openBox, decrypt, hk, hiv box h1, h2, h3]

/-- The converse. -/
theorem sealed_of_handleKey {E : Env} {c : Client} {handle application : Bytes} {key : ECPriv}
    (h : HandleKey E c handle application key) :
    Sealed E c.deviceKey handle application key := by
  obtain ⟨box, plain, k, der, h1, h2, h3, h4, h5, h6⟩ := h
  refine ⟨box, plain, der, h1, ?_, ?_, h6⟩
  · unfold openBox decrypt at h2
    by_cases hk : aesKeyOk c.deviceKey = true
    · by_cases hn : box.iv.length = 12
      · simp only [hk, hn, if_true] at h2
        cases hg : E.gcmOpen c.deviceKey box.iv box.data with
        | none => rw [hg] at h2; cases h2
        | some d => rw [hg] at h2; rw [Res.ok.inj h2]
      · simp only [hk, hn, if_true, if_false] at h2
        cases h2
    · simp only [hk, if_false] at h2
      cases h2
  · rw [h3, ← h5, ← h4]

/-! ### Answers -/

theorem succeeded_append (b : Bytes) : succeeded (b ++ [0x90, 0x00]) = some b := by
  have e : (b ++ [0x90, 0x00]).length - 2 = b.length := by simp
  unfold succeeded
  rw [e]
  simp

theorem succeeded_error {b : Bytes} (h : isError b) : succeeded b = none := by
  rcases h with rfl | rfl | rfl <;> decide

theorem parsePoint_marshal {x y : Nat} (hx : x < 2 ^ 256) (hy : y < 2 ^ 256) :
    parsePoint (ellipticMarshal x y) = some (x, y) := by
  have lx := BigInt.fill32_length x hx
  have ly := BigInt.fill32_length y hy
  have ex : Spec.Cbor.beNat (BigInt.fill 32 x) = x := BigInt.ofBytes_fill 32 x
  have ey : Spec.Cbor.beNat (BigInt.fill 32 y) = y := BigInt.ofBytes_fill 32 y
  unfold parsePoint ellipticMarshal
  simp only
  rw [if_pos (by simp [lx, ly]), List.take_left' lx, List.drop_left' lx, ex, ey]

theorem parseRegistration_answer {pub handle cert sig : Bytes} (hp : pub.length = 65)
    (hh : handle.length ≤ 255)
    (hc : ∀ rest, derSequence (cert ++ rest) = some (cert, rest)) :
    parseRegistration ([5] ++ pub ++ [UInt8.ofNat handle.length] ++ handle ++ cert ++ sig ++
      [0x90, 0x00]) = some
        { publicKey := pub, keyHandle := handle, certificate := cert, signature := sig } := by
  have n : (UInt8.ofNat handle.length).toNat = handle.length := by simp; omega
  unfold parseRegistration
  rw [succeeded_append]
  have e : [5] ++ pub ++ [UInt8.ofNat handle.length] ++ handle ++ cert ++ sig =
      5 :: (pub ++ (UInt8.ofNat handle.length :: (handle ++ (cert ++ sig)))) := by simp
  rw [e]
  simp only
  rw [List.drop_left' hp]
  dsimp only
  rw [n, if_neg (by simp), List.drop_left' rfl, hc]
  rw [List.take_left' hp, List.take_left' rfl]

theorem parseAuthentication_answer (n : UInt32) (sig : Bytes) :
    parseAuthentication ([1] ++ Util.toBE32 n ++ sig ++ [0x90, 0x00]) = some
      { userPresence := 1, counter := n.toNat, counterBytes := be32 n, signature := sig } := by
  unfold parseAuthentication
  rw [succeeded_append, Util.toBE32_eq]
  have e : [1] ++ be32 n ++ sig = 1 :: (be32 n ++ sig) := by simp
  rw [e]
  dsimp only
  have l : (be32 n).length = 4 := rfl
  rw [if_neg (by simp), List.take_left' l, List.drop_left' l, Ctap.beNat_be32]

end VF.Fido.U2f

namespace VF.Fido.U2f

open VF.Spec.U2f VF.Spec.Client Client

/-- A message that is answered was decoded, with the header its first four bytes say. -/
theorem decodeMessage_header {cla ins p1 p2 : UInt8} {rest : Bytes} {p : Header × Bytes × UInt16}
    (h : decodeMessage (cla :: ins :: p1 :: p2 :: rest) = .ok p) :
    p.1 = { cla := cla, command := ins, param1 := p1, param2 := p2 } := by
  rcases rest with _ | ⟨z, rest⟩
  · obtain rfl := Res.ok.inj h
    rfl
  · simp only [decodeMessage] at h
    by_cases hz : z = 0
    · rw [if_neg (by simpa using hz)] at h
      cases h1 : Util.readBE16 rest with
      | panic c => rw [h1] at h; cases h
      | ok q =>
        rw [h1, Res.bind_ok] at h
        split at h
        · obtain rfl := Res.ok.inj h
          rfl
        · cases h2 : Util.bufRead q.1.toNat q.2 with
          | panic c => rw [h2] at h; cases h
          | ok s =>
            rw [h2, Res.bind_ok] at h
            split at h
            · obtain rfl := Res.ok.inj h
              rfl
            · cases h3 : Util.readBE16 s.2 with
              | panic c => rw [h3] at h; cases h
              | ok t =>
                rw [h3, Res.bind_ok] at h
                obtain rfl := Res.ok.inj h
                rfl
    · rw [if_pos hz] at h
      cases h

theorem handleMessage_cases_register (E : Env) (cla p1 p2 : UInt8) (rest : Bytes) (w : World) :
    (∃ c, handleMessage E (cla :: 1 :: p1 :: p2 :: rest) w = (.panic c, w)) ∨
    ∃ data n, decodeMessage (cla :: 1 :: p1 :: p2 :: rest) =
        .ok ({ cla := cla, command := 1, param1 := p1, param2 := p2 }, data, n) ∧
      handleMessage E (cla :: 1 :: p1 :: p2 :: rest) w = handleRegister E data w := by
  unfold handleMessage
  cases h : decodeMessage (cla :: 1 :: p1 :: p2 :: rest) with
  | panic c => exact .inl ⟨c, rfl⟩
  | ok p =>
    obtain ⟨header, data, n⟩ := p
    obtain rfl := decodeMessage_header h
    exact .inr ⟨data, n, rfl, by rw [Go.lift_ok_bind]; rfl⟩

theorem handleMessage_cases_authenticate (E : Env) (cla control p2 : UInt8) (rest : Bytes)
    (w : World) :
    (∃ c, handleMessage E (cla :: 2 :: control :: p2 :: rest) w = (.panic c, w)) ∨
    ∃ data n, decodeMessage (cla :: 2 :: control :: p2 :: rest) =
        .ok ({ cla := cla, command := 2, param1 := control, param2 := p2 }, data, n) ∧
      handleMessage E (cla :: 2 :: control :: p2 :: rest) w =
        handleAuthenticate E control data w := by
  unfold handleMessage
  cases h : decodeMessage (cla :: 2 :: control :: p2 :: rest) with
  | panic c => exact .inl ⟨c, rfl⟩
  | ok p =>
    obtain ⟨header, data, n⟩ := p
    obtain rfl := decodeMessage_header h
    exact .inr ⟨data, n, rfl, by rw [Go.lift_ok_bind]; rfl⟩

/-- A certificate that was created. -/
theorem attestation_sound {E : Env} (L : Laws E) {ca cert : Bytes} {issuer : PrivKey} {k : ECPriv}
    {n : Nat} (h : Cose.createAttestationCert E ca issuer { ecdsa := some k } n = .ok (some cert)) :
    E.certSubject cert = some { ecdsa := some k.pub } ∧
      ∀ rest, derSequence (cert ++ rest) = some (cert, rest) := by
  simp only [Cose.createAttestationCert, Cose.publicOf, Cose.extractPublicKey, Res.bind_ok] at h
  cases he : Cose.extractPrivateKey issuer with
  | panic c => rw [he] at h; cases h
  | ok i =>
    rw [he] at h
    simp only [Res.bind_ok] at h
    cases hcc : E.createCert (Cose.attestationTemplate E n) (some ca) { ecdsa := some k.pub } i n with
    | none => rw [hcc] at h; simp at h
    | some c =>
      rw [hcc] at h
      simp only at h
      split at h
      · obtain rfl := Option.some.inj (Res.ok.inj h)
        obtain ⟨-, h1, h2, -⟩ := L.createCert_sound _ _ _ _ _ _ hcc
        exact ⟨h1, h2⟩
      · simp at h

/-- A registration that was answered, with what is known of the certificate. -/
theorem register_spec_cert {E : Env} (L : Laws E) {request answer : Bytes} {w w' : World}
    (h : handleRegister E request w = (.ok answer, w')) :
    request.length = 64 ∧ aesKeyOk w.client.deviceKey = true ∧
    ((E.approve w.asks .u2fRegister [] [] = false ∧ answer = [0x69, 0x85] ∧
        w' = { w with
          rnd := w.rnd + 2, asks := w.asks ++ [⟨.u2fRegister, [], [], false⟩] }) ∨
      (E.approve w.asks .u2fRegister [] [] = true ∧
        w' = { w with rnd := w.rnd + 4, asks := w.asks ++ [⟨.u2fRegister, [], [], true⟩] } ∧
        ∃ cert sig,
          parseRegistration answer = some
            { publicKey := ellipticMarshal (E.genEC w.rnd).pub.x (E.genEC w.rnd).pub.y
              keyHandle := madeHandle E w.client.deviceKey (request.drop 32) w.rnd
              certificate := cert
              signature := sig } ∧
          Cose.createAttestationCert E w.client.cert w.client.certKey { ecdsa := some (E.genEC w.rnd) }
            (w.rnd + 1 + 1) = .ok (some cert) ∧
          E.certSubject cert = some { ecdsa := some (E.genEC w.rnd).pub } ∧
          E.verifyEC (E.genEC w.rnd).pub
            (E.sha256 ([0] ++ request.drop 32 ++ request.take 32 ++
              madeHandle E w.client.deviceKey (request.drop 32) w.rnd ++
              ellipticMarshal (E.genEC w.rnd).pub.x (E.genEC w.rnd).pub.y)) sig = true)) := by
  have hc := handleRegister_cases E request w
  rw [h] at hc
  dsimp only at hc
  cases hc with
  | nothing c n hr hn hw => cases hr
  | refused hl hk ha hr hw =>
    exact ⟨hl, hk, .inl ⟨ha, Res.ok.inj hr, hw⟩⟩
  | agreed n hl hk ha hn hw hr =>
    rcases hr with ⟨c, hr⟩ | ⟨cert, sig, handle, hh, h1, h2, h3, hr⟩
    · cases hr
    · subst hh h3
      have hv := L.genEC_valid w.rnd
      obtain ⟨bp, bx, bY, -⟩ := Vault.ecValid_bounds L hv
      obtain ⟨c1, c2⟩ := attestation_sound L h1
      refine ⟨hl, hk, .inr ⟨ha, hw, cert, sig, ?_, h1, c1, (Ctap.signECDSA_ok L hv h2).1⟩⟩
      rw [Res.ok.inj hr]
      have hle := madeHandle_length L w.rnd hk (application := request.drop 32) (by simp [hl])
      exact parseRegistration_answer (ellipticMarshal_length bx bY)
        (by unfold madeHandle at hle; omega) c2

/-- A registration that was answered. -/
theorem register_spec {E : Env} (L : Laws E) {request answer : Bytes} {w w' : World}
    (h : handleRegister E request w = (.ok answer, w')) :
    request.length = 64 ∧ aesKeyOk w.client.deviceKey = true ∧
    ((E.approve w.asks .u2fRegister [] [] = false ∧ answer = [0x69, 0x85] ∧
        w' = { w with
          rnd := w.rnd + 2, asks := w.asks ++ [⟨.u2fRegister, [], [], false⟩] }) ∨
      (E.approve w.asks .u2fRegister [] [] = true ∧
        w' = { w with rnd := w.rnd + 4, asks := w.asks ++ [⟨.u2fRegister, [], [], true⟩] } ∧
        ∃ cert sig,
          parseRegistration answer = some
            { publicKey := ellipticMarshal (E.genEC w.rnd).pub.x (E.genEC w.rnd).pub.y
              keyHandle := madeHandle E w.client.deviceKey (request.drop 32) w.rnd
              certificate := cert
              signature := sig } ∧
          E.certSubject cert = some { ecdsa := some (E.genEC w.rnd).pub } ∧
          E.verifyEC (E.genEC w.rnd).pub
            (E.sha256 ([0] ++ request.drop 32 ++ request.take 32 ++
              madeHandle E w.client.deviceKey (request.drop 32) w.rnd ++
              ellipticMarshal (E.genEC w.rnd).pub.x (E.genEC w.rnd).pub.y)) sig = true)) := by
  obtain ⟨h1, h2, h3 | ⟨h3, h4, cert, sig, h5, -, h6⟩⟩ := register_spec_cert L h
  · exact ⟨h1, h2, .inl h3⟩
  · exact ⟨h1, h2, .inr ⟨h3, h4, cert, sig, h5, h6⟩⟩

/-- An authentication that was answered with success. -/
theorem authenticate_spec {E : Env} {control : UInt8} {request answer : Bytes} {w w' : World}
    {auth : Authentication} (h : handleAuthenticate E control request w = (.ok answer, w'))
    (hp : parseAuthentication answer = some auth) :
    ∃ challenge application handle key asks sig,
      decodeAuthenticate request = .ok (challenge, application, handle) ∧
      Sealed E w.client.deviceKey handle application key ∧
      ((control = 3 ∧ E.approve w.asks .u2fAuthenticate [] [] = true ∧
          asks = w.asks ++ [⟨.u2fAuthenticate, [], [], true⟩]) ∨
        (control = 8 ∧ asks = w.asks)) ∧
      w' = { w with
        client := { w.client with authCounter := w.client.authCounter + 1 }
        rnd := w.rnd + 1
        asks := asks } ∧
      signECDSA E key (application ++ [1] ++ be32 w.client.authCounter ++ challenge) w.rnd
        = .ok sig ∧
      auth = { userPresence := 1, counter := w.client.authCounter.toNat
               counterBytes := be32 w.client.authCounter, signature := sig } := by
  have hc := handleAuthenticate_cases E control request w
  rw [h] at hc
  dsimp only at hc
  cases hc with
  | nothing hw hr =>
    simp [parseAuthentication, succeeded_error (hr _ rfl)] at hp
  | refused challenge application handle key hd hk hc ha hr hw =>
    obtain rfl := Res.ok.inj hr
    simp [parseAuthentication, succeeded_error (.inr (.inl rfl))] at hp
  | signed challenge application handle key asks hd hk hc hw hr =>
    rcases hr with ⟨c, hr⟩ | ⟨sig, hs, hr⟩
    · cases hr
    · obtain rfl := Res.ok.inj hr
      rw [parseAuthentication_answer] at hp
      rw [Util.toBE32_eq] at hs
      exact ⟨challenge, application, handle, key, asks, sig, hd, sealed_of_handleKey hk, hc, hw, hs,
        (Option.some.inj hp).symm⟩

theorem madeHandle_iv {E : Env} (L : Laws E) {deviceKey application : Bytes} {n : Nat} {box : Box}
    (hk : aesKeyOk deviceKey = true) (ha : application.length = 32)
    (hb : E.decodeBox (madeHandle E deviceKey application n) = some box) : box.iv.length = 12 := by
  have h1 := keyHandle_length (ecToDER_length L (L.genEC_valid n)) ha
  have h2 := L.gcm_length deviceKey (E.rand (n + 1) 12)
    (Cbor.encode (keyHandleItem
      { privateKey := some (ecToDER (E.genEC n)), applicationID := application })) hk
    (L.rand_length _ _)
  rw [h1] at h2
  unfold madeHandle at hb
  rw [L.decode_box _ (by unfold Short; dsimp only; omega)
    (by unfold Short; dsimp only; rw [L.rand_length]; omega)] at hb
  obtain rfl := Option.some.inj hb
  exact L.rand_length _ _

/-- With a handle made by a device with the same sealing key, an authentication for the same
application goes as far as the control byte lets it. -/
theorem authenticate_made {E : Env} (L : Laws E) {deviceKey application challenge : Bytes} {n : Nat}
    {control : UInt8} {w : World} (hk : aesKeyOk deviceKey = true)
    (hw : w.client.deviceKey = deviceKey) (ha : application.length = 32)
    (hc : challenge.length = 32) (app : Bytes) (hal : app.length = 32) :
    handleAuthenticate E control
        (authenticateData challenge app (madeHandle E deviceKey application n)) w =
      (if application ≠ app then (.ok [0x6A, 0x80], w)
      else if control = 7 then (.ok [0x69, 0x85], w)
      else if control = 3 then
        if E.approve w.asks .u2fAuthenticate [] [] = true then
          finishAuthenticate E (E.genEC n) app challenge
            { w with asks := w.asks ++ [⟨.u2fAuthenticate, [], [], true⟩] }
        else (.ok [0x69, 0x85],
          { w with asks := w.asks ++ [⟨.u2fAuthenticate, [], [], false⟩] })
      else if control = 8 then finishAuthenticate E (E.genEC n) app challenge w
      else (.ok [0x67, 0x00], w)) := by
  have hl := madeHandle_length L n hk ha
  have hd := decodeAuthenticate_data challenge app
    (madeHandle E deviceKey application n) hc hal (by intro h; rw [h] at hl; simp at hl)
    (by omega)
  have hbox : ∀ box, E.decodeBox (madeHandle E deviceKey application n) = some box →
      box.iv.length = 12 := fun box hb => madeHandle_iv L hk ha hb
  obtain ⟨der, ho, hder⟩ := openKeyHandle_sealed (c := w.client) (by rw [hw]; exact hk)
    (by rw [hw]; exact madeHandle_sealed L n hk ha) hbox
  unfold handleAuthenticate
  rw [hd, Go.lift_ok_bind]
  dsimp only
  rw [Go.get_bind_run, ho, Go.lift_ok_bind]
  dsimp only
  by_cases happ : application = app
  · rw [if_neg (by simpa using happ), if_neg (by simpa using happ)]
    simp only [hder]
    by_cases c7 : control = 7
    · rw [if_pos c7, if_pos c7]; rfl
    · rw [if_neg c7, if_neg c7]
      by_cases c3 : control = 3
      · rw [if_pos c3, if_pos c3, Go.run_bind]
        simp only [approve]
        cases hap : E.approve w.asks .u2fAuthenticate [] [] with
        | false => rfl
        | true => rfl
      · rw [if_neg c3, if_neg c3]
        by_cases c8 : control = 8
        · rw [if_pos c8, if_pos c8]
        · rw [if_neg c8, if_neg c8]; rfl
  · rw [if_pos happ, if_pos happ]
    rfl

theorem finishAuthenticate_succeeds {E : Env} {key : ECPriv} (application challenge : Bytes)
    (w : World) (h : ∃ sig, signECDSA E key
      (application ++ [1] ++ be32 w.client.authCounter ++ challenge) w.rnd = .ok sig) :
    ∃ sig, signECDSA E key
        (application ++ [1] ++ be32 w.client.authCounter ++ challenge) w.rnd = .ok sig ∧
      finishAuthenticate E key application challenge w =
        (.ok ([1] ++ Util.toBE32 w.client.authCounter ++ sig ++ [0x90, 0x00]),
          { w with
            client := { w.client with authCounter := w.client.authCounter + 1 }
            rnd := w.rnd + 1 }) := by
  obtain ⟨sig, hs⟩ := h
  obtain ⟨h1, h2⟩ := finishAuthenticate_run E key application challenge w
  refine ⟨sig, hs, ?_⟩
  rw [Util.toBE32_eq] at h2 ⊢
  rcases h2 with ⟨c, h2⟩ | ⟨sig', hs', h2⟩
  · exfalso
    simp only [finishAuthenticate, newAuthCounter, Go.run_bind, Go.run_get, update, Go.modify,
      signWith, draw, Go.run_lift, Go.run_pure, Cose.sign, Util.concat, List.foldl,
      List.nil_append, Util.toBE32_eq, hs] at h2
    cases h2
  · rw [hs] at hs'
    obtain rfl := Res.ok.inj hs'
    exact Prod.ext h2 h1

theorem register_succeeds {E : Env} (L : Laws E) {request : Bytes} {w : World}
    (hl : request.length = 64) (hk : aesKeyOk w.client.deviceKey = true)
    (hh : Healthy E w.client) (hat : CanAttest E w.client) :
    ∃ answer w', handleRegister E request w = (.ok answer, w') := by
  unfold handleRegister
  rw [if_neg (by omega)]
  dsimp only
  rw [if_neg (by simp [hl])]
  simp only [newPrivateKey, draw, Go.run_bind, Go.run_pure, sealKeyHandle, Go.run_get, sealBox,
    encrypt, hk, if_true, Go.run_lift, approve]
  cases ha : E.approve w.asks .u2fRegister [] [] with
  | false => exact ⟨_, _, rfl⟩
  | true =>
    simp only [Bool.true_eq_false, if_false, createCertificate, Go.run_bind, draw, Go.run_get,
      Go.run_lift]
    obtain ⟨cert, hc⟩ := Ctap.attestation_succeeds L hh hat w.rnd (w.rnd + 1 + 1)
    simp only [hc, Go.run_pure, signWith, Go.run_bind, draw, Go.run_lift]
    generalize Util.concat _ = d
    obtain ⟨sig, hs⟩ := Ctap.sign_succeeds L
      (show KeyValid E { ecdsa := some (E.genEC w.rnd) } from L.genEC_valid _) d (w.rnd + 1 + 1 + 1)
    simp only [hs]
    exact ⟨_, _, rfl⟩

end VF.Fido.U2f
