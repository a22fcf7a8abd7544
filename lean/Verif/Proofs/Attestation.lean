import Verif.Spec.Attestation
import Verif.Proofs.U2fParty

/-!
# Attestation certificates: lemmas
-/

namespace VF.Fido.Device

open VF.Spec.Client VF.Spec.History VF.Spec.U2f VF.Spec.U2fParty VF.Spec.Attestation
open Client

variable {E : Env} {cfg : Config}

/-- An attestation certificate that was made. -/
theorem createAttestationCert_made {ca cert : Bytes} {caKey target : PrivKey} {n : Nat}
    (h : Cose.createAttestationCert E ca caKey target n = .ok (some cert)) :
    ∃ sub issuer, Cose.extractPrivateKey caKey = .ok issuer ∧
      E.createCert (Cose.attestationTemplate E n) (some ca) sub issuer n = some cert := by
  unfold Cose.createAttestationCert at h
  cases hp : Cose.publicOf target with
  | panic c => rw [hp] at h; cases h
  | ok pub =>
    rw [hp] at h
    simp only [Res.bind_ok] at h
    cases hs : Cose.extractPublicKey pub with
    | panic c => rw [hs] at h; cases h
    | ok sub =>
      rw [hs] at h
      simp only [Res.bind_ok] at h
      cases hk : Cose.extractPrivateKey caKey with
      | panic c => rw [hk] at h; cases h
      | ok issuer =>
        rw [hk] at h
        simp only [Res.bind_ok] at h
        cases hc : E.createCert (Cose.attestationTemplate E n) (some ca) sub issuer n with
        | none => rw [hc] at h; cases h
        | some c =>
          rw [hc] at h
          simp only at h
          split at h
          · obtain rfl := Option.some.inj (Res.ok.inj h)
            exact ⟨sub, issuer, rfl, hc⟩
          · cases h

theorem ctapCertificate_creation {b authData sig cert : Bytes} (h : Spec.Ctap.IsCreation b authData sig cert) :
    ctapCertificate b = some cert := by
  obtain ⟨body, rfl, hd⟩ := h
  have f3 : ∀ a b c : Cbor, Spec.Store.field 3 (.map [(.int 1, a), (.int 2, b), (.int 3, c)]) = some c := by
    intros; rfl
  have n3 : ∀ a b c : Cbor, Spec.RelyingParty.named "x5c" (.map [(.str "alg", a), (.str "sig", b), (.str "x5c", c)]) =
      some c := by
    intros a b c
    have q1 : (ascii "alg" == ascii "x5c") = false := by decide +kernel
    have q2 : (ascii "sig" == ascii "x5c") = false := by decide +kernel
    simp [Spec.RelyingParty.named, Spec.RelyingParty.asText, Cbor.str, q1, q2, List.find?_cons]
  simp only [ctapCertificate, hd, Option.bind_eq_bind, Option.bind_some, f3, n3]
  rfl

/-- Of every registration that succeeded: the certificate was made during it, for the device's authority. -/
theorem certificate_made (L : Laws E) {d d' : Device} {op : Op} {r : Reply}
    (h : step E cfg d op = (r, d')) (hr : registered (op, r) = true) :
    d.alive = true ∧ ∃ cert n k, certificateOf (op, r) = some cert ∧ d.world.rnd ≤ n ∧ n < d'.world.rnd ∧
      Cose.createAttestationCert E d.world.client.cert d.world.client.certKey { ecdsa := some k } n =
        .ok (some cert) := by
  unfold registered at hr
  split at hr
  · rename_i data body e
    obtain ⟨rfl, rfl⟩ := Prod.mk.inj e
    obtain ⟨hal, -, hm⟩ := ctap_answered h
    obtain ⟨args, rp, flags, blob, n, k, authData, sig, cert, ad, at', xb, yb, -, -, -, -, -, -,
      -, h8, -, h10, h11, -, -, -, -, -, -, -, -, -, -, -, -, -, -, h26⟩ := Ctap.creation_spec L hm
    have := saves_rnd L h8
    exact ⟨hal, cert, n, k, ctapCertificate_creation h11, by omega, by omega, h26⟩
  · rename_i m b e
    obtain ⟨rfl, rfl⟩ := Prod.mk.inj e
    rw [Bool.and_eq_true] at hr
    obtain ⟨h1, h2⟩ := hr
    obtain ⟨hal, -, hm⟩ := u2f_answered h
    cases hq : request m with
    | none => rw [hq] at h1; cases h1
    | some q =>
      obtain ⟨ins, data⟩ := q
      rw [hq] at h1
      simp only [Option.bind_some] at h1
      by_cases hi : ins = 1
      · subst hi
        rw [if_pos rfl] at h1
        cases hf : registerFields data with
        | none => rw [hf] at h1; cases h1
        | some f =>
          obtain ⟨challenge, application⟩ := f
          obtain ⟨cert, -, -, q3, q4, q5, -⟩ := u2f_register_eq L hm hq hf
            (by intro e; rw [e] at h2; cases h2)
          refine ⟨hal, cert, _, _, ?_, ?_, ?_, q4⟩
          · simp only [certificateOf, hq, Option.bind_some, if_true, hf]
            exact q5
          · omega
          · omega
      · rw [if_neg hi] at h1; cases h1
  · cases hr

/-- A certificate is found in registrations that succeeded only. -/
theorem registered_of_certificate {e : Op × Reply} {cert : Bytes} (h : certificateOf e = some cert) :
    registered e = true := by
  unfold certificateOf at h
  split at h
  · rename_i data b
    unfold ctapCertificate at h
    split at h
    · rfl
    · cases h
  · rename_i m b
    split at h
    · rename_i f hf
      simp only [registered, hf, Option.isSome_some, Bool.true_and]
      cases hs : succeeded b with
      | none => simp [u2fCertificate, parseRegistration, hs] at h
      | some x => rfl
    · cases h
  · cases h

end VF.Fido.Device
