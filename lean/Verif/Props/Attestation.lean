import Verif.Proofs.Attestation
import Verif.Props.U2fParty

/-!
# C122: what is in attestation certificates
-/

namespace VF.Props

open VF.Fido VF.Fido.Device VF.Spec.Client VF.Spec.History VF.Spec.Attestation

variable {E : Env} {cfg : Client.Config}

/-- Of a device that keeps its attestation: what is in the certificate of a registration. -/
theorem certificate_facts (L : Laws E) {d d' : Device} {op : Op} {r : Reply}
    (hk : Keeps E cfg d) (h : step E cfg d op = (r, d')) (hr : registered (op, r) = true) :
    ∃ cert n sub issuer, certificateOf (op, r) = some cert ∧ d.world.rnd ≤ n ∧ n < d'.world.rnd ∧
      Cose.extractPrivateKey d.world.client.certKey = .ok issuer ∧ d.world.client.cert = cfg.cert ∧
      E.createCert (Cose.attestationTemplate E n) (some cfg.cert) sub issuer n = some cert := by
  obtain ⟨hal, cert, n, k, h1, h2, h3, h4⟩ := certificate_made L h hr
  obtain ⟨sub, issuer, h5, h6⟩ := createAttestationCert_made h4
  obtain ⟨c, -, -, ⟨-, k2, -⟩, k4⟩ := hk
  obtain rfl := k4 hal
  rw [k2] at h6
  exact ⟨cert, n, sub, issuer, h1, h2, h3, h5, k2, h6⟩

/-- **What is in the certificate.**  Whatever happened before (restarts and crashes included): the answer to
every registration that succeeds, by CTAP2 or U2F, has a certificate that meets the requirements of
WebAuthn, has been valid since a moment during the registration and is so for ten years, and is issued in the
name of the authority the device was configured with. -/
theorem C122_certificate (L : Laws E) (hu : Usable E cfg) (ops : List Op) {op : Op} {r : Reply} {d d' : Device}
    (hd : after E cfg (boot E cfg) ops = d) (h : step E cfg d op = (r, d'))
    (hr : registered (op, r) = true) :
    ∃ cert n info, certificateOf (op, r) = some cert ∧ d.world.rnd ≤ n ∧ n < d'.world.rnd ∧
      E.certInfo cert = some info ∧ Packed info.fields ∧
      info.fields.notBefore = E.now n ∧ info.fields.notAfter = E.addYears (E.now n) 10 ∧
      ValidAt info.fields (E.now n) ∧
      ∀ ca, E.certInfo cfg.cert = some ca → info.issuer = ca.fields.subject := by
  subst hd
  obtain ⟨cert, n, sub, issuer, h1, h2, h3, -, -, h6⟩ := certificate_facts L (keeps_reachable L hu ops) h hr
  obtain ⟨name, h7, h8⟩ := L.createCert_info _ _ _ _ _ h6
  refine ⟨cert, n, _, h1, h2, h3, h7, ⟨⟨85, 83, rfl⟩, ⟨_, rfl, by decide +kernel⟩, by show ascii _ ≠ []; decide +kernel,
    rfl, rfl⟩, rfl, rfl, ⟨Nat.le_refl _, ?_⟩, h8⟩
  exact Nat.le_of_lt (L.addYears_later _ _ (by decide))

/-- **The authority of the demo.**  Making an authority succeeds with every fresh key; its certificate says that it
is an authority that may sign certificates, is its own issuer, and is accepted under itself for ten years from a
moment during its making.  A device can be configured with it. -/
theorem C122_authority (L : Laws E) (i j : Nat) :
    ∃ ca, Cose.createSelfSignedCA E (Cose.createCAPrivateKey E i) j = .ok (some ca) ∧
      (∀ time, E.now j ≤ time → time ≤ E.addYears (E.now j) 10 → Chains E time ca ca) ∧
      E.now j < E.addYears (E.now j) 10 ∧
      ∀ deviceKey enablePIN, Usable E ⟨ca, Cose.createCAPrivateKey E i, deviceKey, enablePIN⟩ ∧
        CanAttest E (boot E ⟨ca, Cose.createCAPrivateKey E i, deviceKey, enablePIN⟩).world.client := by
  have hv := L.genEC_valid i
  obtain ⟨ca, hc⟩ := L.createCA_ok _ j hv
  obtain ⟨h1, h2, -, -⟩ := L.createCert_sound _ _ _ _ _ _ hc
  have h3 := L.createCA_info _ _ _ _ hc
  have h4 := L.createCert_signed _ _ _ _ { ecdsa := some (E.genEC i).pub } _ _ hc hv rfl
  refine ⟨ca, ?_, ?_, L.addYears_later _ _ (by decide), ?_⟩
  · show (match E.createCert (Cose.caTemplate E j) none { ecdsa := some (E.genEC i).pub }
      { ecdsa := some (E.genEC i) } j with
      | none => Res.ok none
      | some cert => if E.parseCert cert then Res.ok (some cert) else Res.ok none) = _
    rw [hc]
    simp only [h1, if_true]
  · intro time t1 t2
    exact ⟨_, _, _, h3, h3, h2, h4, rfl, fun e => (nomatch e), rfl, rfl, ⟨t1, t2⟩, ⟨t1, t2⟩⟩
  · intro deviceKey enablePIN
    exact ⟨⟨h1, .ecdsa _, hv⟩, ⟨_, rfl, hv, h2⟩⟩

/-- A device that keeps an authority like the demo's: its certificates are accepted under the authority. -/
theorem certificate_chains (L : Laws E) {d d' : Device} {op : Op} {r : Reply} {i j : Nat}
    (hkey : cfg.certKey = Cose.createCAPrivateKey E i)
    (hca : Cose.createSelfSignedCA E cfg.certKey j = .ok (some cfg.cert))
    (hk : Keeps E cfg d) (h : step E cfg d op = (r, d')) (hr : registered (op, r) = true) :
    ∃ cert n, certificateOf (op, r) = some cert ∧ d.world.rnd ≤ n ∧ n < d'.world.rnd ∧
      d.world.client.cert = cfg.cert ∧
      ∀ time, E.now n ≤ time → time ≤ E.addYears (E.now n) 10 →
        E.now j ≤ time → time ≤ E.addYears (E.now j) 10 → Chains E time cert cfg.cert := by
  have hal := (certificate_made L h hr).1
  obtain ⟨cert, n, sub, issuer, h1, h2, h3, h4, h5, h6⟩ := certificate_facts L hk h hr
  have hv := L.genEC_valid i
  obtain ⟨ca, q1, q2, q3, q4⟩ := C122_authority L i j
  obtain rfl : ca = cfg.cert := by
    rw [hkey, q1] at hca
    exact Option.some.inj (Res.ok.inj hca)
  obtain ⟨-, hat⟩ := q4 [] false
  obtain ⟨iss, e1, -, e2⟩ := hat
  obtain rfl : iss = E.genEC i := by
    have e1 : (⟨some (E.genEC i), none, none⟩ : PrivKey) = ⟨some iss, none, none⟩ := e1
    cases e1; rfl
  have e2 : E.certSubject cfg.cert = some { ecdsa := some (E.genEC i).pub } := e2
  obtain ⟨info, above, -, -, g2, -, -, -, g4, g5, g6, -, -⟩ := q2 (E.now j) (Nat.le_refl _) (Nat.le_of_lt q3)
  refine ⟨cert, n, h1, h2, h3, h5, ?_⟩
  intro time t1 t2 t3 t4
  obtain ⟨-, above', -, -, g2', -, -, -, -, -, -, -, g8⟩ := q2 time t3 t4
  obtain rfl := Option.some.inj (g2'.symm.trans g2)
  obtain ⟨name, h7, h8⟩ := L.createCert_info _ _ _ _ _ h6
  obtain ⟨c, -, -, ⟨-, -, k3⟩, k4⟩ := hk
  obtain rfl := k4 hal
  have k3 := k3.1
  rw [hkey] at k3
  have k3 : some (E.genEC i) = d.world.client.certKey.ecdsa := k3
  have hiss : issuer = { ecdsa := some (E.genEC i) } := by
    unfold Cose.extractPrivateKey at h4
    rw [← k3] at h4
    simpa using h4.symm
  rw [hiss] at h6
  exact ⟨_, _, _, h7, g2, e2, L.createCert_signed _ _ _ _ _ _ _ h6 hv rfl, h8 _ g2, g4, g5, g6, ⟨t1, t2⟩, g8⟩

/-- **Accepted under the authority.**  A device configured with an authority as the demo makes it: whoever trusts
this authority accepts the certificate of every registration that succeeds, whatever happened before, as long as
both certificates are valid. -/
theorem C122_chain (L : Laws E) {i j : Nat} (hkey : cfg.certKey = Cose.createCAPrivateKey E i)
    (hca : Cose.createSelfSignedCA E cfg.certKey j = .ok (some cfg.cert)) (ops : List Op) {op : Op} {r : Reply}
    {d d' : Device} (hd : after E cfg (boot E cfg) ops = d) (h : step E cfg d op = (r, d'))
    (hr : registered (op, r) = true) :
    ∃ cert n, certificateOf (op, r) = some cert ∧ d.world.rnd ≤ n ∧ n < d'.world.rnd ∧
      ∀ time, E.now n ≤ time → time ≤ E.addYears (E.now n) 10 →
        E.now j ≤ time → time ≤ E.addYears (E.now j) 10 → Chains E time cert cfg.cert := by
  subst hd
  obtain ⟨ca, q1, -, -, q4⟩ := C122_authority L i j
  have hu : Usable E cfg := by
    rw [hkey, q1] at hca
    have := (q4 cfg.deviceKey cfg.enablePIN).1
    rw [Option.some.inj (Res.ok.inj hca), ← hkey] at this
    exact this
  obtain ⟨cert, n, h1, h2, h3, -, h4⟩ := certificate_chains L hkey hca (keeps_reachable L hu ops) h hr
  exact ⟨cert, n, h1, h2, h3, h4⟩

/-- **Serial numbers** are neither positive nor unique: the certificate of every registration has number 0, and
so has the authority's own, which has the same issuer. -/
theorem C122_serials_refuted (L : Laws E) {i j : Nat} (hkey : cfg.certKey = Cose.createCAPrivateKey E i)
    (hca : Cose.createSelfSignedCA E cfg.certKey j = .ok (some cfg.cert)) (ops : List Op) {op : Op} {r : Reply}
    {d d' : Device} (hd : after E cfg (boot E cfg) ops = d) (h : step E cfg d op = (r, d'))
    (hr : registered (op, r) = true) :
    ∃ cert info above, certificateOf (op, r) = some cert ∧ E.certInfo cert = some info ∧
      E.certInfo cfg.cert = some above ∧ info.fields.serial = 0 ∧ above.fields.serial = 0 ∧
      info.issuer = above.issuer ∧ cert ≠ cfg.cert ∧ ¬ PositiveSerial E cert ∧ ¬ UniqueSerials E [cert, cfg.cert] := by
  subst hd
  obtain ⟨ca, q1, -, -, q4⟩ := C122_authority L i j
  have hu : Usable E cfg := by
    rw [hkey, q1] at hca
    have := (q4 cfg.deviceKey cfg.enablePIN).1
    rw [Option.some.inj (Res.ok.inj hca), ← hkey] at this
    exact this
  obtain ⟨cert, n, sub, issuer, h1, h2, h3, -, -, h6⟩ := certificate_facts L (keeps_reachable L hu ops) h hr
  obtain ⟨name, h7, h8⟩ := L.createCert_info _ _ _ _ _ h6
  have hci : E.certInfo cfg.cert = some ⟨Cose.caTemplate E j, (Cose.caTemplate E j).subject⟩ := by
    obtain ⟨ca', hc⟩ := L.createCA_ok _ j (L.genEC_valid i)
    have : ca' = cfg.cert := by
      rw [hkey] at hca
      have hca : (match E.createCert (Cose.caTemplate E j) none { ecdsa := some (E.genEC i).pub }
        { ecdsa := some (E.genEC i) } j with
        | none => .ok none
        | some cert => if E.parseCert cert then .ok (some cert) else .ok none) = Res.ok (some cfg.cert) := hca
      rw [hc] at hca
      simp only [(L.createCert_sound _ _ _ _ _ _ hc).1, if_true] at hca
      exact Option.some.inj (Res.ok.inj hca)
    rw [← this]
    exact L.createCA_info _ _ _ _ hc
  have hne : cert ≠ cfg.cert := by
    intro e
    rw [e, hci] at h7
    have := congrArg (fun x => x.map (fun y : CertInfo => y.fields.isCA)) h7
    simp [Cose.caTemplate, Cose.attestationTemplate] at this
  refine ⟨cert, _, _, h1, h7, hci, rfl, rfl, h8 _ hci, hne, ?_, ?_⟩
  · intro hs
    exact absurd (hs _ h7) (Nat.lt_irrefl 0)
  · intro hs
    exact hne (hs cert (by simp) cfg.cert (by simp) _ _ h7 hci (h8 _ hci) rfl)

/-- **A concrete case**: a device with an authority as the demo makes it, and a registration that succeeds. -/
theorem C122_case : ∃ (E : Env) (cfg : Client.Config) (i j : Nat) (make body cert : Bytes) (d' : Device),
    Laws E ∧ cfg.certKey = Cose.createCAPrivateKey E i ∧
    Cose.createSelfSignedCA E cfg.certKey j = .ok (some cfg.cert) ∧
    step E cfg (boot E cfg) (.ctap (1 :: make)) = (.answer (0 :: body), d') ∧
    registered (.ctap (1 :: make), .answer (0 :: body)) = true ∧
    certificateOf (.ctap (1 :: make), .answer (0 :: body)) = some cert ∧ Chains E 5 cert cfg.cert := by
  have L := Toy.toy_laws (fun _ _ _ _ => true)
  obtain ⟨body, w', blob, m, n, h1, -⟩ := Device.made L (w := (boot (Toy.toy (fun _ _ _ _ => true)) (Toy.config false)).world)
    (Toy.boot_healthy _ false) (Toy.boot_attests _ false) (Toy.make_decodes _ [] none (.inl rfl) (by simp))
    (by dsimp only [Toy.makeArgs]; decide +kernel) rfl rfl (flags := 0) rfl rfl
  have s1 := step_ctap (E := Toy.toy (fun _ _ _ _ => true)) (cfg := Toy.config false)
    (d := boot (Toy.toy (fun _ _ _ _ => true)) (Toy.config false)) rfl h1
  have hkey : (Toy.config false).certKey = Cose.createCAPrivateKey (Toy.toy (fun _ _ _ _ => true)) 0 := rfl
  have hca : Cose.createSelfSignedCA (Toy.toy (fun _ _ _ _ => true)) (Toy.config false).certKey 0 =
      .ok (some (Toy.config false).cert) := by
    obtain ⟨ca, q1, -⟩ := C122_authority L 0 0
    have q2 := Toy.cert_made (fun _ _ _ _ => true)
    rw [hkey]
    show (match (Toy.toy (fun _ _ _ _ => true)).createCert (Cose.caTemplate (Toy.toy (fun _ _ _ _ => true)) 0) none
      { ecdsa := some ((Toy.toy (fun _ _ _ _ => true)).genEC 0).pub }
      { ecdsa := some ((Toy.toy (fun _ _ _ _ => true)).genEC 0) } 0 with
      | none => Res.ok none
      | some cert => if (Toy.toy (fun _ _ _ _ => true)).parseCert cert then Res.ok (some cert) else Res.ok none) = _
    rw [q2]
    simp only [(L.createCert_sound _ _ _ _ _ _ q2).1, if_true]
    rfl
  obtain ⟨cert, _, e1, -, -, ch⟩ := C122_chain L hkey hca [] rfl s1 rfl
  exact ⟨_, _, 0, 0, _, body, cert, _, L, hkey, hca, s1, rfl, e1,
    ch 5 (Nat.zero_le _) (by decide : 5 ≤ 10) (Nat.zero_le _) (by decide : 5 ≤ 10)⟩

end VF.Props
