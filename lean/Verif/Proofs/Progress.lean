import Verif.Proofs.Health

/-!
# Requests that succeed
-/

namespace VF.Fido.Ctap

open VF.Spec.Client VF.Spec.Vault VF.Spec.Cose Client

theorem sign_succeeds {E : Env} (L : Laws E) {k : PrivKey} (hk : KeyValid E k) (data : Bytes)
    (n : Nat) : ∃ sig, Cose.sign E k data n = .ok sig := by
  rcases k with ⟨_ | ec, _ | ed, _ | r⟩ <;> simp only [KeyValid] at hk
  · obtain ⟨s, h1, -⟩ := L.signRSA_verifies r (E.sha256 data) n hk
    exact ⟨s, by simp [Cose.sign, signRSA, h1]⟩
  all_goals first
    | (obtain ⟨seed, hs, rfl⟩ := hk
       have hl : (seed ++ E.edPublic seed).length = 64 := by simp [hs, L.edPublic_length]
       exact ⟨_, by simp [Cose.sign, signEd25519, hl]; rfl⟩)
    | (obtain ⟨s, h1, -⟩ := L.signEC_verifies ec (E.sha256 data) n hk
       exact ⟨s, by simp [Cose.sign, signECDSA, h1]⟩)

theorem attestation_succeeds {E : Env} (L : Laws E) {c : Client} (h : Healthy E c)
    (ha : CanAttest E c) (i n : Nat) :
    ∃ cert, Cose.createAttestationCert E c.cert c.certKey { ecdsa := some (E.genEC i) } n
      = .ok (some cert) := by
  obtain ⟨issuer, hk, hv, hs⟩ := ha
  obtain ⟨cert, hc⟩ := L.createCert_ok c.cert (E.genEC i) issuer n h.1 (L.genEC_valid i) hv hs
  refine ⟨cert, ?_⟩
  have hp := (L.createCert_sound _ _ _ _ _ _ hc).1
  simp only [Cose.createAttestationCert, Cose.publicOf, Cose.extractPublicKey, hk,
    Cose.extractPrivateKey, Res.bind_ok, hc]
  exact if_pos hp

theorem makeCredential_succeeds {E : Env} (L : Laws E) {data : Bytes} {w : World}
    {args : MakeCredArgs} {rp : RPEntity} {user : UserEntity} {flags : UInt8}
    (hh : Healthy E w.client) (hat : CanAttest E w.client)
    (hd : E.decodeMakeCred data = some args) (hs : supported args.params = true)
    (hrp : args.rp = some rp) (hu : args.user = some user)
    (hp : makeCredentialPIN E w.client args = .ok flags)
    (ha : E.approve w.asks .makeCredential rp.name [] = true) :
    ∃ body w', handleMessage E (0x01 :: data) w = (.ok (0 :: body), w') := by
  have hc := newIdentity_complete L hd hrp hu w.rnd
  have hh' := healthy_append hh hc
  rw [hrp] at hh'
  obtain ⟨blob, hsv⟩ := healthy_saves L hh' (w.rnd + 1 + 1)
  rw [handleMessage_make]
  unfold handleMakeCredential
  simp only [hd, hs, Bool.true_eq_false, if_false, Go.get_bind_run, hp, hrp]
  rw [Go.run_bind]
  simp only [approveAccountCreation, approve, ha]
  rw [if_neg (by simp)]
  simp only [newCredentialSource, hs, Bool.true_eq_false, if_false, draw, Go.run_bind,
    update, Go.modify, Vault.addIdentity]
  rcases saveData_cases E
    { w with
      client := { w.client with
        vault := w.client.vault ++ [Vault.newIdentity E (some rp) args.user w.rnd] }
      rnd := w.rnd + 1 + 1
      asks := w.asks ++ [⟨.makeCredential, rp.name, [], true⟩] } with
    ⟨c, h, hn⟩ | ⟨blob', n, hsv', h⟩
  · exact absurd hsv (hn _ _)
  · simp only [h, Go.run_pure]
    obtain ⟨bp, -⟩ := Vault.ecValid_bounds L (L.genEC_valid (w.rnd + 1))
    have hm : ∃ a, makeAttestedCredentialData (Vault.newIdentity E (some rp) args.user w.rnd)
        = .ok a := by
      simp only [makeAttestedCredentialData, Vault.newIdentity, Cose.publicOf, Res.bind_ok,
        Cose.marshalPublic, Cose.encodeECDSAPublicKey, bp, if_true]
      exact ⟨_, rfl⟩
    obtain ⟨attested, hm⟩ := hm
    simp only [hm, Go.run_lift, createCertificate, Go.run_bind, draw, Go.run_get]
    obtain ⟨cert, hcert⟩ := attestation_succeeds L hh hat (w.rnd + 1) n
    have hcert' : Cose.createAttestationCert E w.client.cert w.client.certKey
      (Vault.newIdentity E (some rp) args.user w.rnd).key n = .ok (some cert) := hcert
    simp only [hcert', Go.run_pure, signWith, Go.run_bind, draw, Go.run_lift]
    obtain ⟨sig, hsig⟩ := sign_succeeds L
      (show KeyValid E (Vault.newIdentity E (some rp) args.user w.rnd).key from
        L.genEC_valid (w.rnd + 1))
      (makeAuthData E rp.id (Vault.newIdentity E (some rp) args.user w.rnd)
        (some attested) (flags ||| flagUP) ++ args.clientDataHash) (n + 1)
    simp only [hsig]
    exact ⟨_, _, rfl⟩

theorem healthy_getMatching {E : Env} {c : Client} (h : Healthy E c) (rpId : Bytes)
    (allow : Option (List Descriptor)) :
    ∃ ps, Vault.getMatching rpId allow 0 c.vault = .ok ps := by
  have hr : ∀ s ∈ c.vault, s.rp.isSome := by
    intro s hs
    obtain ⟨-, -, -, ⟨rp, hrp, -⟩, -⟩ := h.2.2.2.2 s hs
    simp [hrp]
  obtain ⟨ps, h1, -⟩ := Vault.getMatching_spec rpId allow c.vault 0 hr
  exact ⟨ps, h1⟩

theorem getAssertion_succeeds {E : Env} (L : Laws E) {data : Bytes} {w : World}
    {args : GetAssertionArgs} {flags : UInt8} (hh : Healthy E w.client)
    (hd : E.decodeGetAssertion data = some args)
    (hp : getAssertionPIN E w.client args = .ok flags)
    (hm : ∃ s ∈ w.client.vault, Matches args.rpId args.allowList s)
    (ha : args.up = some false ∨ ∀ rp user, E.approve w.asks .getAssertion rp user = true) :
    ∃ body w', handleMessage E (0x02 :: data) w = (.ok (0 :: body), w') := by
  obtain ⟨ps, hg⟩ := healthy_getMatching hh args.rpId args.allowList
  obtain ⟨-, -, hps⟩ := getMatching_ok hg
  rw [handleMessage_get]
  unfold handleGetAssertion
  simp only [hd, Go.get_bind_run, hp]
  simp only [Go.run_bind, getAssertionSource, Go.run_get, Go.run_lift, hg]
  cases ps with
  | nil =>
    obtain ⟨s, hs, hm⟩ := hm
    obtain ⟨j, hj, e⟩ := List.getElem_of_mem hs
    have := (hps j).2 ⟨s, by rw [List.getElem?_eq_getElem hj, e], hm⟩
    simp at this
  | cons i ps =>
    obtain ⟨s, hs, -⟩ := (hps i).1 (by simp)
    simp only [Go.run_bind, update, Go.modify, Go.run_get]
    have hh' := healthy_bump hh i
    obtain ⟨blob, hsv⟩ := healthy_saves L hh' w.rnd
    rcases saveData_cases E
      { w with client := { w.client with vault := bump w.client.vault i } } with
      ⟨c, h, hn⟩ | ⟨blob', n, hsv', h⟩
    · exact absurd hsv (hn _ _)
    · have hb := bump_get hs
      simp only [h, Go.run_pure, hb]
      obtain ⟨-, hk, -, ⟨rp, hrp, -⟩, ⟨user, hu, -⟩⟩ :=
        hh'.2.2.2.2 (bumped s) (List.mem_of_getElem? hb)
      have fin : ∀ fl (w1 : World), ∃ body w',
          finishAssertion E args (bumped s) fl w1 = (.ok (0 :: body), w') := by
        intro fl w1
        obtain ⟨sig, hsig⟩ := sign_succeeds L hk
          (makeAuthData E args.rpId (bumped s) none fl ++ args.clientDataHash) w1.rnd
        simp only [finishAssertion, signWith, Go.run_bind, draw, Go.run_lift, Util.concat, List.foldl,
          List.nil_append, hsig]
        exact ⟨_, _, rfl⟩
      by_cases hup : args.up = some false
      · rw [if_pos hup]; exact fin _ _
      · rw [if_neg hup, Go.run_bind]
        have ha := (ha.resolve_left hup) rp.name user.name
        simp only [approveAccountLogin, hrp, hu, approve, ha]
        rw [if_neg (by simp)]
        exact fin _ _

theorem getAssertion_denied {E : Env} (L : Laws E) {data : Bytes} {w : World}
    {args : GetAssertionArgs} {flags : UInt8} (hh : Healthy E w.client)
    (hd : E.decodeGetAssertion data = some args)
    (hp : getAssertionPIN E w.client args = .ok flags)
    (hm : ∃ s ∈ w.client.vault, Matches args.rpId args.allowList s)
    (hup : args.up ≠ some false)
    (ha : ∀ rp user, E.approve w.asks .getAssertion rp user = false) :
    ∃ i rp user blob n, handleMessage E (0x02 :: data) w = (.ok [0x27], { w with
      client := { w.client with vault := bump w.client.vault i }
      store := some blob
      rnd := n
      asks := w.asks ++ [⟨.getAssertion, rp, user, false⟩] }) := by
  obtain ⟨ps, hg⟩ := healthy_getMatching hh args.rpId args.allowList
  obtain ⟨-, -, hps⟩ := getMatching_ok hg
  rw [handleMessage_get]
  unfold handleGetAssertion
  simp only [hd, Go.get_bind_run, hp]
  simp only [Go.run_bind, getAssertionSource, Go.run_get, Go.run_lift, hg]
  cases ps with
  | nil =>
    obtain ⟨s, hs, hm⟩ := hm
    obtain ⟨j, hj, e⟩ := List.getElem_of_mem hs
    have := (hps j).2 ⟨s, by rw [List.getElem?_eq_getElem hj, e], hm⟩
    simp at this
  | cons i ps =>
    obtain ⟨s, hs, -⟩ := (hps i).1 (by simp)
    simp only [Go.run_bind, update, Go.modify, Go.run_get]
    have hh' := healthy_bump hh i
    obtain ⟨blob, hsv⟩ := healthy_saves L hh' w.rnd
    rcases saveData_cases E
      { w with client := { w.client with vault := bump w.client.vault i } } with
      ⟨c, h, hn⟩ | ⟨blob', n, hsv', h⟩
    · exact absurd hsv (hn _ _)
    · have hb := bump_get hs
      simp only [h, Go.run_pure, hb]
      obtain ⟨-, hk, -, ⟨rp, hrp, -⟩, ⟨user, hu, -⟩⟩ :=
        hh'.2.2.2.2 (bumped s) (List.mem_of_getElem? hb)
      rw [if_neg hup, Go.run_bind]
      have ha := ha rp.name user.name
      simp only [approveAccountLogin, hrp, hu, approve, ha, if_true]
      exact ⟨i, rp.name, user.name, blob', n, rfl⟩

end VF.Fido.Ctap
