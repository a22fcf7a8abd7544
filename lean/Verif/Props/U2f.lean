import Verif.Proofs.U2fSpec
import Verif.Proofs.ToyDevice

/-!
# U2F (C62–C66, C68)

A request is a byte string.  `cla :: 1 :: …` is a registration, `cla :: 2 :: control :: …` an
authentication.  `w` is the device with its surroundings before the request, `w'` after it.
-/

namespace VF.Props

open VF.Fido VF.Spec.U2f VF.Spec.Client

/-! ## C68 -/

/-- Extended-length requests with data are read exactly. -/
theorem C68_framing (cla ins p1 p2 : UInt8) (data : Bytes) (le : Option UInt16)
    (h0 : 1 ≤ data.length) (h1 : data.length ≤ 65535) :
    U2f.decodeMessage (apdu cla ins p1 p2 data le) =
      .ok ({ cla := cla, command := ins, param1 := p1, param2 := p2 }, data, le.getD 0) :=
  U2f.decodeMessage_apdu cla ins p1 p2 data le (by intro h; simp [h] at h0) h1

/-- Requests without data: the header alone, or with the length of the answer. -/
theorem C68_framing_without_data (cla ins p1 p2 : UInt8) (le : UInt16) :
    U2f.decodeMessage [cla, ins, p1, p2] =
      .ok ({ cla := cla, command := ins, param1 := p1, param2 := p2 }, [], 0) ∧
    U2f.decodeMessage ([cla, ins, p1, p2, 0] ++ be16 le) =
      .ok ({ cla := cla, command := ins, param1 := p1, param2 := p2 }, [], le) := by
  refine ⟨rfl, ?_⟩
  have := Util.readBE16_be16 le []
  rw [List.append_nil] at this
  simp only [List.cons_append, List.nil_append, U2f.decodeMessage, this]
  simp

/-- Hence no two different requests with data look the same to the device. -/
theorem C68_framing_injective {cla ins p1 p2 cla' ins' p1' p2' : UInt8} {data data' : Bytes}
    {le le' : Option UInt16} (h0 : 1 ≤ data.length) (h1 : data.length ≤ 65535)
    (h0' : 1 ≤ data'.length) (h1' : data'.length ≤ 65535)
    (h : apdu cla ins p1 p2 data le = apdu cla' ins' p1' p2' data' le') :
    cla = cla' ∧ ins = ins' ∧ p1 = p1' ∧ p2 = p2' ∧ data = data' ∧ le.getD 0 = le'.getD 0 := by
  have a := C68_framing cla ins p1 p2 data le h0 h1
  rw [h, C68_framing cla' ins' p1' p2' data' le' h0' h1'] at a
  simp only [Res.ok.injEq, Prod.mk.injEq, U2f.Header.mk.injEq] at a
  obtain ⟨⟨a1, a2, a3, a4⟩, a5, a6⟩ := a
  exact ⟨a1.symm, a2.symm, a3.symm, a4.symm, a5.symm, a6.symm⟩

/-- Version requests, in any of the forms, are answered `U2F_V2` and have no effect. -/
theorem C68_version (E : Env) (cla p1 p2 : UInt8) (data : Bytes) (le : Option UInt16) (w : World)
    (h0 : 1 ≤ data.length) (h1 : data.length ≤ 65535) :
    U2f.handleMessage E (apdu cla 3 p1 p2 data le) w =
        (.ok (ascii "U2F_V2" ++ [0x90, 0x00]), w) ∧
      U2f.handleMessage E [cla, 3, p1, p2] w = (.ok (ascii "U2F_V2" ++ [0x90, 0x00]), w) := by
  constructor
  · unfold U2f.handleMessage
    rw [C68_framing _ _ _ _ _ _ h0 h1, Go.lift_ok_bind]
    rfl
  · unfold U2f.handleMessage
    rw [(C68_framing_without_data cla 3 p1 p2 0).1, Go.lift_ok_bind]
    rfl

/-! ## C62 -/

/-- Whatever the request, a registration that is answered either was refused by the user and is
answered 0x6985, or was agreed to and the answer parses into a public key, a handle of at most
255 bytes, a certificate of the key and a signature that verifies; memory and saved data are
unchanged in either case. -/
theorem C62_registration {E : Env} (L : Laws E) {cla p1 p2 : UInt8} {rest answer : Bytes}
    {w w' : World}
    (h : U2f.handleMessage E (cla :: 1 :: p1 :: p2 :: rest) w = (.ok answer, w')) :
    w'.client = w.client ∧ w'.store = w.store ∧
    ((newAsks w w' = [⟨.u2fRegister, [], [], false⟩] ∧ answer = [0x69, 0x85] ∧
        parseRegistration answer = none) ∨
      (newAsks w w' = [⟨.u2fRegister, [], [], true⟩] ∧
        ∃ challenge application reg x y n header,
          U2f.decodeMessage (cla :: 1 :: p1 :: p2 :: rest) =
            .ok (header, registerData challenge application, n) ∧
          challenge.length = 32 ∧ application.length = 32 ∧
          parseRegistration answer = some reg ∧
          1 ≤ reg.keyHandle.length ∧ reg.keyHandle.length ≤ 255 ∧
          parsePoint reg.publicKey = some (x, y) ∧
          E.verifyEC { p256 := true, x := x, y := y }
            (E.sha256 ([0] ++ application ++ challenge ++ reg.keyHandle ++ reg.publicKey))
            reg.signature = true ∧
          E.certSubject reg.certificate = some { ecdsa := some { p256 := true, x := x, y := y } } ∧
          ∃ key, key.pub = { p256 := true, x := x, y := y } ∧
            Sealed E w.client.deviceKey reg.keyHandle application key)) := by
  rcases U2f.handleMessage_cases_register E cla p1 p2 rest w with ⟨c, hp⟩ | ⟨data, n, hd, hm⟩
  · rw [hp] at h; cases h
  · rw [hm] at h
    obtain ⟨hl, hk, ⟨-, rfl, rfl⟩ | ⟨-, rfl, cert, sig, h1, h2, h3⟩⟩ := U2f.register_spec L h
    · exact ⟨rfl, rfl, .inl ⟨by simp [newAsks], rfl, by decide⟩⟩
    · obtain ⟨bp, bx, bY, -⟩ := Vault.ecValid_bounds L (L.genEC_valid w.rnd)
      have hal : (data.drop 32).length = 32 := by simp [hl]
      have hle := U2f.madeHandle_length L w.rnd hk hal
      have hpub : (E.genEC w.rnd).pub =
          { p256 := true, x := (E.genEC w.rnd).pub.x, y := (E.genEC w.rnd).pub.y } := by
        rw [← bp]
      refine ⟨rfl, rfl, .inr ⟨by simp [newAsks], data.take 32, data.drop 32, _,
        (E.genEC w.rnd).pub.x, (E.genEC w.rnd).pub.y, n,
        { cla := cla, command := 1, param1 := p1, param2 := p2 }, ?_, by simp [hl], hal, h1,
        by dsimp only; omega, by dsimp only; omega, U2f.parsePoint_marshal bx bY, ?_, ?_,
        E.genEC w.rnd, hpub, U2f.madeHandle_sealed L w.rnd hk hal⟩⟩
      · rw [registerData, List.take_append_drop]; exact hd
      · rw [← hpub]; exact h3
      · rw [← hpub]; exact h2

/-- In a healthy device registrations are answered, and the user's decision is what counts. -/
theorem C62_registration_succeeds {E : Env} (L : Laws E) (cla p1 p2 : UInt8)
    (challenge application : Bytes) (le : Option UInt16) (w : World)
    (hc : challenge.length = 32) (ha : application.length = 32)
    (hk : aesKeyOk w.client.deviceKey = true) (hh : Healthy E w.client)
    (hat : CanAttest E w.client) :
    ∃ answer w', U2f.handleMessage E
        (apdu cla 1 p1 p2 (registerData challenge application) le) w = (.ok answer, w') ∧
      ((parseRegistration answer).isSome ↔ E.approve w.asks .u2fRegister [] [] = true) := by
  have hl : (registerData challenge application).length = 64 := by simp [registerData, hc, ha]
  rw [U2f.handleMessage_register E cla p1 p2 _ le w (by intro h; simp [h] at hl) (by omega)]
  obtain ⟨answer, w', h⟩ := U2f.register_succeeds L hl hk hh hat
  refine ⟨answer, w', h, ?_⟩
  obtain ⟨-, -, ⟨hf, rfl, -⟩ | ⟨ht, -, cert, sig, h1, -⟩⟩ := U2f.register_spec L h
  · rw [hf, show parseRegistration [0x69, 0x85] = none by decide]
    simp
  · rw [h1, ht]; simp

/-- The hypotheses can be met: the toy device answers a registration. -/
example : ∃ answer w', U2f.handleMessage (Toy.toy (fun _ _ _ _ => true))
    (apdu 0 1 0 0 (registerData (List.replicate 32 1) (List.replicate 32 2)) none)
      (Toy.world false none 8) = (.ok answer, w') ∧ (parseRegistration answer).isSome := by
  obtain ⟨answer, w', h, hi⟩ := C62_registration_succeeds (Toy.toy_laws (fun _ _ _ _ => true)) 0 0 0
    (List.replicate 32 1) (List.replicate 32 2) none (Toy.world false none 8) (by simp) (by simp)
    (by dsimp only [Toy.world, Toy.client]; decide) (Toy.client_healthy _ _ _ _ (by simp))
    (Toy.client_attests _ _ _ _)
  exact ⟨answer, w', h, hi.2 rfl⟩

/-- Registration requests of another size are not answered: the device panics, without effect
on memory and saved data and without asking. -/
theorem C62_wrong_size_panics (E : Env) (cla p1 p2 : UInt8) (data : Bytes) (le : Option UInt16)
    (w : World) (h0 : 1 ≤ data.length) (h1 : data.length ≤ 65535) (hl : data.length ≠ 64) :
    ∃ c, U2f.handleMessage E (apdu cla 1 p1 p2 data le) w = (.panic c, w) := by
  rw [U2f.handleMessage_register E cla p1 p2 data le w (by intro h; simp [h] at h0) h1]
  unfold U2f.handleRegister
  by_cases hs : data.length < 32
  · rw [if_pos hs]; exact ⟨_, rfl⟩
  · rw [if_neg hs]
    dsimp only
    rw [if_pos (by simp; omega)]
    exact ⟨_, rfl⟩

/-! ## C63 -/

/-- A registration: the request, and what the client reads from the answer. -/
structure Registered (E : Env) (w : World) (application : Bytes) (reg : Registration)
    (x y : Nat) : Prop where
  application_length : application.length = 32
  registered : ∃ cla p1 p2 le challenge answer w', challenge.length = 32 ∧
    U2f.handleMessage E (apdu cla 1 p1 p2 (registerData challenge application) le) w =
      (.ok answer, w') ∧
    parseRegistration answer = some reg
  point : parsePoint reg.publicKey = some (x, y)

theorem registered_handle {E : Env} (L : Laws E) {w : World} {application : Bytes}
    {reg : Registration} {x y : Nat} (h : Registered E w application reg x y) :
    aesKeyOk w.client.deviceKey = true ∧
    reg.keyHandle = U2f.madeHandle E w.client.deviceKey application w.rnd ∧
    (E.genEC w.rnd).pub = { p256 := true, x := x, y := y } := by
  obtain ⟨ha, ⟨cla, p1, p2, le, challenge, answer, w', hc, hm, hp⟩, hq⟩ := h
  have hl : (registerData challenge application).length = 64 := by simp [registerData, hc, ha]
  rw [U2f.handleMessage_register E cla p1 p2 _ le w (by intro h; simp [h] at hl) (by omega)] at hm
  obtain ⟨-, hk, ⟨-, rfl, -⟩ | ⟨-, -, cert, sig, h1, -⟩⟩ := U2f.register_spec L hm
  · rw [show parseRegistration [0x69, 0x85] = none by decide] at hp
    cases hp
  · rw [h1] at hp
    obtain rfl := Option.some.inj hp
    obtain ⟨bp, bx, bY, -⟩ := Vault.ecValid_bounds L (L.genEC_valid w.rnd)
    rw [U2f.parsePoint_marshal bx bY] at hq
    simp only [Option.some.injEq, Prod.mk.injEq] at hq
    refine ⟨hk, ?_, ?_⟩
    · simp [registerData, ← hc]
    · rw [← hq.1, ← hq.2, ← bp]

/-- With the handle of a registration, a device with the same sealing key signs for the same
application, and the signature verifies under the registered key.  (Control byte 3 with the
user's consent, or control byte 8.) -/
theorem C63_own_application {E : Env} (L : Laws E) {w : World} {application : Bytes}
    {reg : Registration} {x y : Nat} (h : Registered E w application reg x y) {v : World}
    (hv : v.client.deviceKey = w.client.deviceKey) (cla control p2 : UInt8) (le : Option UInt16)
    (challenge : Bytes) (hc : challenge.length = 32)
    (hu : (control = 3 ∧ E.approve v.asks .u2fAuthenticate [] [] = true) ∨ control = 8) :
    ∃ answer v' auth,
      U2f.handleMessage E
        (apdu cla 2 control p2 (authenticateData challenge application reg.keyHandle) le) v =
        (.ok answer, v') ∧
      parseAuthentication answer = some auth ∧
      auth.counter = v.client.authCounter.toNat ∧
      E.verifyEC { p256 := true, x := x, y := y }
        (E.sha256 (application ++ [auth.userPresence] ++ auth.counterBytes ++ challenge))
        auth.signature = true ∧
      auth.userPresence = 1 := by
  obtain ⟨hk, he, hpub⟩ := registered_handle L h
  have ha := h.application_length
  have hl := U2f.madeHandle_length L w.rnd hk ha
  have hal := U2f.authenticateData_length challenge application reg.keyHandle hc ha
  rw [he] at hal ⊢
  rw [U2f.handleMessage_authenticate E cla control p2 _ le v (U2f.authenticateData_ne _ _ _)
    (by omega), U2f.authenticate_made L hk hv ha hc application ha, if_neg (by simp)]
  have hsign : ∀ d n, ∃ sig, signECDSA E (E.genEC w.rnd) d n = .ok sig := by
    intro d n
    obtain ⟨s, h1, -⟩ := L.signEC_verifies (E.genEC w.rnd) (E.sha256 d) n (L.genEC_valid w.rnd)
    exact ⟨s, by simp [signECDSA, h1]⟩
  have fin : ∀ u : World, u.client = v.client → ∃ answer v' auth,
      U2f.finishAuthenticate E (E.genEC w.rnd) application challenge u = (.ok answer, v') ∧
      parseAuthentication answer = some auth ∧
      auth.counter = v.client.authCounter.toNat ∧
      E.verifyEC { p256 := true, x := x, y := y }
        (E.sha256 (application ++ [auth.userPresence] ++ auth.counterBytes ++ challenge))
        auth.signature = true ∧
      auth.userPresence = 1 := by
    intro u hu
    obtain ⟨sig, h1, h2⟩ := U2f.finishAuthenticate_succeeds application challenge u (hsign _ _)
    refine ⟨_, _, _, h2, U2f.parseAuthentication_answer _ _, by rw [hu], ?_, rfl⟩
    rw [← hpub]
    exact (Ctap.signECDSA_ok L (L.genEC_valid w.rnd) h1).1
  rcases hu with ⟨rfl, hap⟩ | rfl
  · rw [if_neg (by decide), if_pos rfl, if_pos hap]
    exact fin _ rfl
  · rw [if_neg (by decide), if_neg (by decide), if_pos rfl]
    exact fin _ rfl

/-- For every other application the handle is answered WRONG_DATA, without effect and without
asking, whatever the control byte. -/
theorem C63_other_application {E : Env} (L : Laws E) {w : World} {application : Bytes}
    {reg : Registration} {x y : Nat} (h : Registered E w application reg x y) {v : World}
    (hv : v.client.deviceKey = w.client.deviceKey) (cla control p2 : UInt8) (le : Option UInt16)
    (challenge other : Bytes) (hc : challenge.length = 32) (ho : other.length = 32)
    (hne : other ≠ application) :
    U2f.handleMessage E
        (apdu cla 2 control p2 (authenticateData challenge other reg.keyHandle) le) v =
      (.ok [0x6A, 0x80], v) := by
  obtain ⟨hk, he, -⟩ := registered_handle L h
  have ha := h.application_length
  have hl := U2f.madeHandle_length L w.rnd hk ha
  have hal := U2f.authenticateData_length challenge other reg.keyHandle hc ho
  rw [he] at hal ⊢
  rw [U2f.handleMessage_authenticate E cla control p2 _ le v (U2f.authenticateData_ne _ _ _)
    (by omega), U2f.authenticate_made L hk hv ha hc other ho,
    if_pos (fun e => hne e.symm)]

/-- A check for the own application is recognized (0x6985), without effect and without asking. -/
theorem C63_check_only {E : Env} (L : Laws E) {w : World} {application : Bytes}
    {reg : Registration} {x y : Nat} (h : Registered E w application reg x y) {v : World}
    (hv : v.client.deviceKey = w.client.deviceKey) (cla p2 : UInt8) (le : Option UInt16)
    (challenge : Bytes) (hc : challenge.length = 32) :
    U2f.handleMessage E
        (apdu cla 2 7 p2 (authenticateData challenge application reg.keyHandle) le) v =
      (.ok [0x69, 0x85], v) := by
  obtain ⟨hk, he, -⟩ := registered_handle L h
  have ha := h.application_length
  have hl := U2f.madeHandle_length L w.rnd hk ha
  have hal := U2f.authenticateData_length challenge application reg.keyHandle hc ha
  rw [he] at hal ⊢
  rw [U2f.handleMessage_authenticate E cla 7 p2 _ le v (U2f.authenticateData_ne _ _ _)
    (by omega), U2f.authenticate_made L hk hv ha hc application ha, if_neg (by simp), if_pos rfl]

/-- A restart from saved data that holds the registering device has the same sealing key, so
that the theorems above apply after it. -/
theorem C63_after_restart {E : Env} {cfg : Client.Config} {store : Option Bytes} {c c' : Client}
    {rnd : Nat} (hh : Holds E cfg store c) (hs : Client.start E cfg store rnd = .ok c') :
    c'.deviceKey = c.deviceKey := by
  obtain ⟨c'', h1, h2⟩ := hh rnd
  rw [hs] at h1
  obtain rfl := Res.ok.inj h1
  exact h2.1.symm

/-- A healthy device registers. -/
theorem registers {E : Env} (L : Laws E) {w : World} (hk : aesKeyOk w.client.deviceKey = true)
    (hh : Healthy E w.client) (hat : CanAttest E w.client)
    (hap : E.approve w.asks .u2fRegister [] [] = true) :
    ∃ reg x y, Registered E w (List.replicate 32 2) reg x y := by
  obtain ⟨answer, w', h, hi⟩ := C62_registration_succeeds L 0 0 0
    (List.replicate 32 1) (List.replicate 32 2) none w (by simp) (by simp) hk hh hat
  have hs := hi.2 hap
  obtain ⟨reg, hreg⟩ := Option.isSome_iff_exists.1 hs
  have hr := C62_registration L (cla := 0) (p1 := 0) (p2 := 0) h
  rcases hr.2.2 with ⟨-, -, hn⟩ | ⟨-, _, _, reg', x, y, _, _, -, -, -, hp, -, -, hq, -⟩
  · rw [hreg] at hn; cases hn
  · refine ⟨reg', x, y, by simp, ⟨0, 0, 0, none, List.replicate 32 1, answer, w', by simp, h, hp⟩, hq⟩

/-- The toy device registers. -/
theorem toy_registered (ap : List Ask → Action → Bytes → Bytes → Bool)
    (hap : ap [] .u2fRegister [] [] = true) :
    ∃ reg x y, Registered (Toy.toy ap) (Toy.world false none 8) (List.replicate 32 2) reg x y :=
  registers (Toy.toy_laws ap) (by dsimp only [Toy.world, Toy.client]; decide)
    (Toy.client_healthy _ _ _ _ (by simp)) (Toy.client_attests _ _ _ _) hap

/-! ## C64 -/

/-- Whatever the request, a successful answer means that the handle in it opens under the
device's sealing key to a private key bound to the application in it, and that this key made the
signature. -/
theorem C64_signs_only_for_own_handles (E : Env) {cla control p2 : UInt8} {rest answer : Bytes}
    {w w' : World} {auth : Authentication}
    (h : U2f.handleMessage E (cla :: 2 :: control :: p2 :: rest) w = (.ok answer, w'))
    (hp : parseAuthentication answer = some auth) :
    ∃ header data n challenge application handle key,
      U2f.decodeMessage (cla :: 2 :: control :: p2 :: rest) = .ok (header, data, n) ∧
      U2f.decodeAuthenticate data = .ok (challenge, application, handle) ∧
      Sealed E w.client.deviceKey handle application key ∧
      E.signEC key (E.sha256 (application ++ [1] ++ auth.counterBytes ++ challenge)) w.rnd =
        some auth.signature := by
  rcases U2f.handleMessage_cases_authenticate E cla control p2 rest w with ⟨c, hq⟩ | ⟨data, n, hd, hm⟩
  · rw [hq] at h; cases h
  · rw [hm] at h
    obtain ⟨challenge, application, handle, key, asks, sig, h1, h2, -, -, h3, rfl⟩ :=
      U2f.authenticate_spec h hp
    refine ⟨_, data, n, challenge, application, handle, key, hd, h1, h2, ?_⟩
    dsimp only
    unfold signECDSA at h3
    cases hs : E.signEC key
        (E.sha256 (application ++ [1] ++ be32 w.client.authCounter ++ challenge)) w.rnd with
    | none => rw [hs] at h3; cases h3
    | some s => rw [hs] at h3; rw [Res.ok.inj h3]

/-- The same for well-formed requests, in terms of their fields. -/
theorem C64_well_formed (E : Env) {cla control p2 : UInt8} {challenge application handle : Bytes}
    {le : Option UInt16} {answer : Bytes} {w w' : World} {auth : Authentication}
    (hc : challenge.length = 32) (ha : application.length = 32) (h0 : 1 ≤ handle.length)
    (h1 : handle.length ≤ 255)
    (h : U2f.handleMessage E
      (apdu cla 2 control p2 (authenticateData challenge application handle) le) w =
        (.ok answer, w'))
    (hp : parseAuthentication answer = some auth) :
    ∃ key, Sealed E w.client.deviceKey handle application key := by
  have hl := U2f.authenticateData_length challenge application handle hc ha
  rw [U2f.handleMessage_authenticate E cla control p2 _ le w (U2f.authenticateData_ne _ _ _)
    (by omega)] at h
  obtain ⟨c, a, k, key, -, -, hd, hs, -⟩ := U2f.authenticate_spec h hp
  rw [U2f.decodeAuthenticate_data challenge application handle hc ha
    (by intro e; simp [e] at h0) h1] at hd
  simp only [Res.ok.injEq, Prod.mk.injEq] at hd
  obtain ⟨rfl, rfl, rfl⟩ := hd
  exact ⟨key, hs⟩

/-! ## C65 -/

/-- A handle that is not an encoded box is answered WRONG_DATA, without effect. -/
theorem C65_undecodable_partial (E : Env) (cla control p2 : UInt8)
    (challenge application handle : Bytes) (le : Option UInt16) (w : World)
    (hc : challenge.length = 32) (ha : application.length = 32) (h0 : 1 ≤ handle.length)
    (h1 : handle.length ≤ 255) (hb : E.decodeBox handle = none) :
    U2f.handleMessage E
        (apdu cla 2 control p2 (authenticateData challenge application handle) le) w =
      (.ok [0x6A, 0x80], w) := by
  have hl := U2f.authenticateData_length challenge application handle hc ha
  rw [U2f.handleMessage_authenticate E cla control p2 _ le w (U2f.authenticateData_ne _ _ _)
    (by omega)]
  unfold U2f.handleAuthenticate
  rw [U2f.decodeAuthenticate_data challenge application handle hc ha
    (by intro e; simp [e] at h0) h1, Go.lift_ok_bind]
  dsimp only
  rw [Go.get_bind_run]
  simp only [U2f.openKeyHandle, hb, Go.lift_ok_bind]
  rfl

/-- Every handle that is an encoded box but does not open under the sealing key makes the device
panic. -/
theorem C65_foreign_box_panics (E : Env) (cla control p2 : UInt8)
    (challenge application handle : Bytes) (le : Option UInt16) (w : World) {box : Box}
    (hc : challenge.length = 32) (ha : application.length = 32) (h0 : 1 ≤ handle.length)
    (h1 : handle.length ≤ 255) (hb : E.decodeBox handle = some box)
    (ho : E.gcmOpen w.client.deviceKey box.iv box.data = none) :
    ∃ c, U2f.handleMessage E
        (apdu cla 2 control p2 (authenticateData challenge application handle) le) w =
      (.panic c, w) := by
  have hl := U2f.authenticateData_length challenge application handle hc ha
  rw [U2f.handleMessage_authenticate E cla control p2 _ le w (U2f.authenticateData_ne _ _ _)
    (by omega)]
  unfold U2f.handleAuthenticate
  rw [U2f.decodeAuthenticate_data challenge application handle hc ha
    (by intro e; simp [e] at h0) h1, Go.lift_ok_bind]
  dsimp only
  rw [Go.get_bind_run]
  have hop : ∃ c, openBox E w.client.deviceKey box = .panic c := by
    unfold openBox decrypt
    by_cases hk : aesKeyOk w.client.deviceKey = true
    · by_cases hn : box.iv.length = 12
      · simp only [hk, hn, if_true, ho]; exact ⟨_, rfl⟩
      · simp only [hk, hn, if_true, if_false]; exact ⟨_, rfl⟩
    · simp only [hk, if_false]; exact ⟨_, rfl⟩
  obtain ⟨c, hop⟩ := hop
  simp only [U2f.openKeyHandle, hb, hop]
  exact ⟨c, rfl⟩

/-- Hence the property is false: a handle of a device with another sealing key crashes this
one. -/
theorem C65_wrong_data_refuted :
    ∃ (E : Env) (_ : Laws E) (challenge application handle : Bytes) (w : World) (c : Cause),
      challenge.length = 32 ∧ application.length = 32 ∧ handle.length ≤ 255 ∧
      Healthy E w.client ∧
      (∀ app key, ¬ Sealed E w.client.deviceKey handle app key) ∧
      U2f.handleMessage E (apdu 0 2 3 0 (authenticateData challenge application handle) none) w =
        (.panic c, w) := by
  have L := Toy.toy_laws (fun _ _ _ _ => true)
  have hk : aesKeyOk (List.replicate 32 (8 : UInt8)) = true := by decide
  have ha : (List.replicate 32 (2 : UInt8)).length = 32 := by simp
  have hl := U2f.madeHandle_length L 5 hk ha
  obtain ⟨box, plain, der, h1, h2, -⟩ := U2f.madeHandle_sealed L 5 hk ha
  have h3 : (Toy.toy (fun _ _ _ _ => true)).gcmOpen (List.replicate 32 9) box.iv box.data = none := by
    simp only [Toy.toy] at h2 ⊢
    split at h2
    · rename_i hc
      rw [if_neg]
      rintro ⟨-, hd⟩
      rw [hc.2] at hd
      exact absurd hd (by decide)
    · cases h2
  obtain ⟨c, hp⟩ := C65_foreign_box_panics (Toy.toy (fun _ _ _ _ => true)) 0 3 0
    (List.replicate 32 1) (List.replicate 32 2) _ none (Toy.world false none 8) (by simp)
    (by simp) (by omega) (by omega) h1 h3
  refine ⟨_, L, _, _, _, Toy.world false none 8, c, by simp, ha, by omega,
    Toy.client_healthy _ _ _ _ (by simp), ?_, hp⟩
  rintro app key ⟨box', plain', der', e1, e2, -⟩
  rw [h1] at e1
  obtain rfl := Option.some.inj e1
  simp only [Toy.world, Toy.client] at e2
  rw [h3] at e2
  cases e2

/-! ## C66 -/

/-- Control byte 3: success only if the user was asked and agreed.  Any other control byte but 8
never succeeds.  So the user presence byte tells the truth except for control byte 8. -/
theorem C66_presence (E : Env) {cla control p2 : UInt8} {rest answer : Bytes} {w w' : World}
    {auth : Authentication}
    (h : U2f.handleMessage E (cla :: 2 :: control :: p2 :: rest) w = (.ok answer, w'))
    (hp : parseAuthentication answer = some auth) :
    (control = 3 ∧ newAsks w w' = [⟨.u2fAuthenticate, [], [], true⟩]) ∨
      (control = 8 ∧ newAsks w w' = []) := by
  rcases U2f.handleMessage_cases_authenticate E cla control p2 rest w with ⟨c, hq⟩ | ⟨data, n, hd, hm⟩
  · rw [hq] at h; cases h
  · rw [hm] at h
    obtain ⟨_, _, _, _, _, _, -, -, hc, rfl, -⟩ := U2f.authenticate_spec h hp
    rcases hc with ⟨hc, -, rfl⟩ | ⟨hc, rfl⟩
    · exact .inl ⟨hc, by simp [newAsks]⟩
    · exact .inr ⟨hc, by simp [newAsks]⟩

/-- Control byte 7 never signs, never asks, and has no effect at all; neither do control bytes
other than 3 and 8. -/
theorem C66_check_only (E : Env) {cla control p2 : UInt8} {rest : Bytes} {w w' : World}
    {r : Res Bytes}
    (h : U2f.handleMessage E (cla :: 2 :: control :: p2 :: rest) w = (r, w'))
    (hc : control ≠ 3 ∧ control ≠ 8) :
    w' = w ∧ ∀ answer, r = .ok answer → parseAuthentication answer = none := by
  rcases U2f.handleMessage_cases_authenticate E cla control p2 rest w with ⟨c, hq⟩ | ⟨data, n, hd, hm⟩
  · rw [hq] at h
    simp only [Prod.mk.injEq] at h
    refine ⟨h.2.symm, fun answer ha => ?_⟩
    rw [← h.1] at ha; cases ha
  · rw [hm] at h
    have ho := U2f.handleAuthenticate_cases E control data w
    rw [h] at ho
    dsimp only at ho
    cases ho with
    | nothing hw hr =>
      exact ⟨hw, fun a ha => by simp [parseAuthentication, U2f.succeeded_error (hr a ha)]⟩
    | refused _ _ _ _ _ _ hc' => exact absurd hc' hc.1
    | signed _ _ _ _ _ _ _ hc' =>
      rcases hc' with ⟨hc', -⟩ | ⟨hc', -⟩
      · exact absurd hc' hc.1
      · exact absurd hc' hc.2

/-- A refusal is answered 0x6985, and changes nothing. -/
theorem C66_refusal (E : Env) {cla control p2 : UInt8} {rest : Bytes} {w w' : World}
    {r : Res Bytes}
    (h : U2f.handleMessage E (cla :: 2 :: control :: p2 :: rest) w = (r, w'))
    {a : Ask} (ha : a ∈ newAsks w w') (hf : a.answer = false) :
    r = .ok [0x69, 0x85] ∧ w'.client = w.client ∧ w'.store = w.store := by
  rcases U2f.handleMessage_cases_authenticate E cla control p2 rest w with ⟨c, hq⟩ | ⟨data, n, hd, hm⟩
  · rw [hq] at h
    simp only [Prod.mk.injEq] at h
    rw [← h.2] at ha
    simp [newAsks] at ha
  · rw [hm] at h
    have ho := U2f.handleAuthenticate_cases E control data w
    rw [h] at ho
    dsimp only at ho
    cases ho with
    | nothing hw hr => subst hw; simp [newAsks] at ha
    | refused _ _ _ _ _ _ _ _ hr hw => subst hw; exact ⟨hr, rfl, rfl⟩
    | signed _ _ _ _ _ _ _ hc' hw =>
      subst hw
      rcases hc' with ⟨-, -, rfl⟩ | ⟨-, rfl⟩
      · simp [newAsks] at ha; subst ha; cases hf
      · simp [newAsks] at ha

/-- The user presence byte claims presence although nobody was asked, and this user never agrees
to authentications: control byte 8. -/
theorem C66_presence_byte_refuted :
    ∃ (E : Env) (_ : Laws E) (message answer : Bytes) (w w' : World) (auth : Authentication),
      (∀ asks rp user, E.approve asks .u2fAuthenticate rp user = false) ∧
      U2f.handleMessage E message w = (.ok answer, w') ∧
      parseAuthentication answer = some auth ∧ auth.userPresence = 1 ∧ newAsks w w' = [] := by
  obtain ⟨reg, x, y, h⟩ := toy_registered (fun _ a _ _ => a = .u2fRegister) (by decide)
  have L := Toy.toy_laws (fun _ a _ _ => a = .u2fRegister)
  obtain ⟨answer, v', auth, h1, h2, -, -, h3⟩ := C63_own_application L h
    (v := Toy.world false none 8) rfl 0 8 0 none (List.replicate 32 3) (by simp) (.inr rfl)
  refine ⟨_, L, _, answer, Toy.world false none 8, v', auth, ?_, h1, h2, h3, ?_⟩
  · intro asks rp user; rfl
  · rcases C66_presence _ (cla := 0) (control := 8) (p2 := 0) h1 h2 with ⟨hc, -⟩ | ⟨-, hn⟩
    · cases hc
    · exact hn

end VF.Props
