import Verif.Spec.Status
import Verif.Proofs.Progress
import Verif.Proofs.PinProgress
import Verif.Proofs.Counters
import Verif.Proofs.Retries

/-!
# The outcome of every CTAP2 request
-/

namespace VF.Fido.Ctap

open VF.Spec.Client VF.Spec.Vault VF.Spec.Cose VF.Spec.Pin VF.Spec.Status Client

/-- The outcome a result shows. -/
inductive ShowsRes : Res Bytes → Outcome → Prop
  | success (body : Bytes) : ShowsRes (.ok (0 :: body)) (.status 0)
  | error (s : UInt8) (h : s ≠ 0) : ShowsRes (.ok [s]) (.status s)
  | crash (c : Cause) : ShowsRes (.panic c) .crash

theorem supported_iff (params : List CredParam) :
    supported params = true ↔ ∃ p ∈ params, p.alg = -7 ∧ p.type = ascii "public-key" := by
  simp only [supported, List.any_eq_true, Bool.and_eq_true, beq_iff_eq, Cose.algES256]

theorem makePIN_iff (E : Env) (c : Client) (args : MakeCredArgs) :
    (c.pinEnabled = true ∧ args.pinAuth ≠ none ∧
      ¬ PinAuthOk E c args.clientDataHash args.pinAuth args.pinProtocol ∧
      makeCredentialPIN E c args = .error 0x33) ∨
    (¬ (c.pinEnabled = true ∧ args.pinAuth ≠ none ∧
      ¬ PinAuthOk E c args.clientDataHash args.pinAuth args.pinProtocol) ∧
      ((c.pinEnabled = true ∧ c.pinHash ≠ none ∧ args.pinAuth = none) ∧
        makeCredentialPIN E c args = .error 0x36 ∨
      ¬ (c.pinEnabled = true ∧ c.pinHash ≠ none ∧ args.pinAuth = none) ∧
        ∃ flags, makeCredentialPIN E c args = .ok flags)) := by
  unfold makeCredentialPIN PinAuthOk
  cases hp : c.pinEnabled with
  | false => simp
  | true =>
    cases ha : args.pinAuth with
    | none =>
      cases hh : c.pinHash with
      | none => simp
      | some h => simp [errPINRequired]
    | some a =>
      by_cases h1 : args.pinProtocol = 1
      · by_cases h2 : derivePINAuth E c.pinToken args.clientDataHash = a
        · subst h2
          simp [h1, derivePINAuth]
        · have h3 : ¬ a = (E.hmac c.pinToken args.clientDataHash).take 16 := fun e => h2 e.symm
          simp [h1, h2, h3, errPINAuthInvalid]
      · simp [h1, errPINAuthInvalid]

theorem getPIN_iff (E : Env) (c : Client) (args : GetAssertionArgs) :
    (c.pinEnabled = true ∧ args.pinAuth ≠ none ∧
      ¬ PinAuthOk E c args.clientDataHash args.pinAuth args.pinProtocol ∧
      getAssertionPIN E c args = .error 0x33) ∨
    (¬ (c.pinEnabled = true ∧ args.pinAuth ≠ none ∧
      ¬ PinAuthOk E c args.clientDataHash args.pinAuth args.pinProtocol) ∧
      ∃ flags, getAssertionPIN E c args = .ok flags) := by
  unfold getAssertionPIN PinAuthOk
  cases hp : c.pinEnabled with
  | false => simp
  | true =>
    cases ha : args.pinAuth with
    | none => simp
    | some a =>
      by_cases h1 : args.pinProtocol = 1
      · by_cases h2 : derivePINAuth E c.pinToken args.clientDataHash = a
        · subst h2
          simp [h1, derivePINAuth]
        · have h3 : ¬ a = (E.hmac c.pinToken args.clientDataHash).take 16 := fun e => h2 e.symm
          simp [h1, h2, h3, errPINAuthInvalid]
      · simp [h1, errPINAuthInvalid]

theorem make_status {E : Env} (L : Laws E) {data : Bytes} {w : World} {args : MakeCredArgs}
    (hh : Healthy E w.client) (hat : CanAttest E w.client) (hd : E.decodeMakeCred data = some args) :
    ∃ o, Decides (makeCredential E w args) o ∧ ShowsRes (handleMakeCredential E data w).1 o := by
  unfold VF.Spec.Status.makeCredential
  by_cases hs : supported args.params = true
  case neg =>
    refine ⟨_, .here (fun h => hs ((supported_iff _).2 h)), ?_⟩
    unfold handleMakeCredential
    simp only [hd, if_pos (show supported args.params = false by simpa using hs)]
    exact .error _ (by decide)
  have hs' := (supported_iff _).1 hs
  rcases makePIN_iff E w.client args with ⟨p1, p2, p3, hp⟩ | ⟨n1, ⟨p, hp⟩ | ⟨n2, flags, hp⟩⟩
  · refine ⟨_, .next (fun h => h hs') (.here ⟨p1, p2, p3⟩), ?_⟩
    unfold handleMakeCredential
    simp only [hd, hs, Bool.true_eq_false, if_false, Go.get_bind_run, hp]
    exact .error _ (by decide)
  · refine ⟨_, .next (fun h => h hs') (.next n1 (.here p)), ?_⟩
    unfold handleMakeCredential
    simp only [hd, hs, Bool.true_eq_false, if_false, Go.get_bind_run, hp]
    exact .error _ (by decide)
  cases hrp : args.rp with
  | none =>
    refine ⟨_, .next (fun h => h hs') (.next n1 (.next n2 (.here rfl))), ?_⟩
    unfold handleMakeCredential
    simp only [hd, hs, Bool.true_eq_false, if_false, Go.get_bind_run, hp, hrp]
    exact .crash _
  | some rp =>
    cases ha : E.approve w.asks .makeCredential rp.name [] with
    | false =>
      refine ⟨_, .next (fun h => h hs') (.next n1 (.next n2 (.next (by simp)
        (.here ⟨rp, rfl, ha⟩)))), ?_⟩
      unfold handleMakeCredential
      simp only [hd, hs, Bool.true_eq_false, if_false, Go.get_bind_run, hp, hrp]
      rw [Go.run_bind]
      simp only [approveAccountCreation, approve, ha]
      exact .error _ (by decide)
    | true =>
      have ha' : ¬ ∃ rp', some rp = some rp' ∧ E.approve w.asks .makeCredential rp'.name [] = false := by
        rintro ⟨rp', e, h⟩
        obtain rfl := Option.some.inj e
        rw [ha] at h
        cases h
      cases hu : args.user with
      | none =>
        refine ⟨_, .next (fun h => h hs') (.next n1 (.next n2 (.next (by simp) (.next ha'
          (.here rfl))))), ?_⟩
        unfold handleMakeCredential
        simp only [hd, hs, Bool.true_eq_false, if_false, Go.get_bind_run, hp, hrp]
        rw [Go.run_bind]
        simp only [approveAccountCreation, approve, ha]
        rw [if_neg (by simp)]
        simp only [newCredentialSource, hs, Bool.true_eq_false, if_false, draw, Go.run_bind,
          update, Go.modify, Vault.addIdentity]
        rcases saveData_cases E
          { w with
            client := { w.client with
              vault := w.client.vault ++ [Vault.newIdentity E (some rp) args.user w.rnd] }
            rnd := w.rnd + 1 + 1
            asks := w.asks ++ [⟨.makeCredential, rp.name, [], true⟩] } with
          ⟨c, h, hn⟩ | ⟨blob', n, hsv', h⟩
        · simp only [h]
          exact .crash _
        · have := saves_entities hsv' (Vault.newIdentity E (some rp) args.user w.rnd) (by simp)
          rw [hu] at this
          simp [Vault.newIdentity] at this
      | some user =>
        refine ⟨_, .next (fun h => h hs') (.next n1 (.next n2 (.next (by simp) (.next ha'
          (.next (by simp) (.here trivial)))))), ?_⟩
        obtain ⟨body, w', h⟩ := makeCredential_succeeds L hh hat hd hs hrp hu hp ha
        rw [handleMessage_make] at h
        rw [h]
        exact .success _

theorem first_unique {rpId : Bytes} {allow : Option (List Descriptor)} {v : List Source} {i : Nat}
    {s : Source} (h : First v rpId allow i s) {s' : Source} (h' : IsFirst rpId allow v s') : s' = s := by
  obtain ⟨before, rest, rfl, hm, hn⟩ := h'
  obtain ⟨h1, h2, h3⟩ := h
  rcases Nat.lt_trichotomy i before.length with hl | hl | hl
  · rw [List.getElem?_append_left hl] at h1
    exact absurd h2 (hn _ (List.mem_of_getElem? h1))
  · subst hl
    simp at h1
    exact h1
  · exact absurd hm (h3 before.length s' hl (by simp))

theorem first_isFirst {rpId : Bytes} {allow : Option (List Descriptor)} {v : List Source} {i : Nat}
    {s : Source} (h : First v rpId allow i s) : IsFirst rpId allow v s := by
  obtain ⟨h1, h2, h3⟩ := h
  obtain ⟨hl, e⟩ := List.getElem?_eq_some_iff.1 h1
  refine ⟨v.take i, v.drop (i + 1), ?_, h2, ?_⟩
  · rw [← e, ← List.drop_eq_getElem_cons hl, List.take_append_drop]
  · intro x hx
    obtain ⟨j, hj, e⟩ := List.mem_take_iff_getElem.1 hx
    exact h3 j x (by omega) (by rw [← e]; exact List.getElem?_eq_getElem (by omega))

theorem get_status {E : Env} (L : Laws E) {data : Bytes} {w : World} {args : GetAssertionArgs}
    (hh : Healthy E w.client) (hd : E.decodeGetAssertion data = some args) :
    ∃ o, Decides (getAssertion E w args) o ∧ ShowsRes (handleGetAssertion E data w).1 o := by
  unfold VF.Spec.Status.getAssertion
  rcases getPIN_iff E w.client args with ⟨p1, p2, p3, hp⟩ | ⟨n1, flags, hp⟩
  · refine ⟨_, .here ⟨p1, p2, p3⟩, ?_⟩
    unfold handleGetAssertion
    simp only [hd, Go.get_bind_run, hp]
    exact .error _ (by decide)
  obtain ⟨ps, hg⟩ := healthy_getMatching hh args.rpId args.allowList
  obtain ⟨-, hpw, hps⟩ := getMatching_ok hg
  unfold handleGetAssertion
  simp only [hd, Go.get_bind_run, hp]
  simp only [Go.run_bind, getAssertionSource, Go.run_get, Go.run_lift, hg]
  cases ps with
  | nil =>
    refine ⟨_, .next n1 (.here ?_), .error _ (by decide)⟩
    rintro ⟨s, hs, hm⟩
    obtain ⟨j, hj, e⟩ := List.getElem_of_mem hs
    have := (hps j).2 ⟨s, by rw [List.getElem?_eq_getElem hj, e], hm⟩
    simp at this
  | cons i ps =>
    obtain ⟨s, hs, hm⟩ := (hps i).1 (by simp)
    have hf : First w.client.vault args.rpId args.allowList i s := by
      refine ⟨hs, hm, ?_⟩
      intro j t hj ht hmt
      rcases List.mem_cons.1 ((hps j).2 ⟨t, ht, hmt⟩) with rfl | hjp
      · omega
      · have := (List.pairwise_cons.1 hpw).1 j hjp
        omega
    have n2 : ¬ ¬ ∃ s ∈ w.client.vault, Matches args.rpId args.allowList s :=
      fun h => h ⟨s, List.mem_of_getElem? hs, hm⟩
    simp only [Go.run_bind, update, Go.modify, Go.run_get]
    have hh' := healthy_bump hh i
    obtain ⟨blob, hsv⟩ := healthy_saves L hh' w.rnd
    rcases saveData_cases E
      { w with client := { w.client with vault := bump w.client.vault i } } with
      ⟨c, h, hn⟩ | ⟨blob', n, hsv', h⟩
    · exact absurd hsv (hn _ _)
    · have hb := bump_get hs
      simp only [h, Go.run_pure, hb]
      obtain ⟨-, hk, -, ⟨rp, hrp, -⟩, ⟨user, hu, -⟩⟩ :=
        hh'.2.2.2.2 (bumped s) (List.mem_of_getElem? hb)
      have fin : ∀ fl (w1 : World), ∃ body w',
          finishAssertion E args (bumped s) fl w1 = (.ok (0 :: body), w') := by
        intro fl w1
        obtain ⟨sig, hsig⟩ := sign_succeeds L hk
          (makeAuthData E args.rpId (bumped s) none fl ++ args.clientDataHash) w1.rnd
        simp only [finishAssertion, signWith, Go.run_bind, draw, Go.run_lift, Util.concat, List.foldl,
          List.nil_append, hsig]
        exact ⟨_, _, rfl⟩
      by_cases hup : args.up = some false
      · rw [if_pos hup]
        obtain ⟨body, w', e⟩ := fin flags ⟨{ w.client with vault := bump w.client.vault i }, some blob', n, w.asks⟩
        refine ⟨_, .next n1 (.next n2 (.next (fun h => h.1 hup) (.here trivial))), ?_⟩
        rw [e]
        exact .success _
      · rw [if_neg hup, Go.run_bind]
        simp only [approveAccountLogin, hrp, hu, approve]
        cases ha : E.approve w.asks .getAssertion rp.name user.name with
        | false =>
          rw [if_pos rfl]
          exact ⟨_, .next n1 (.next n2 (.here ⟨hup, s, rp, user, first_isFirst hf, hrp, hu, ha⟩)),
            .error _ (by decide)⟩
        | true =>
          rw [if_neg (by simp)]
          obtain ⟨body, w', e⟩ := fin (flags ||| flagUP)
            ⟨{ w.client with vault := bump w.client.vault i }, some blob', n, w.asks ++ [⟨.getAssertion, rp.name, user.name, true⟩]⟩
          refine ⟨_, .next n1 (.next n2 (.next ?_ (.here trivial))), ?_⟩
          · rintro ⟨-, s', rp', user', hf', hrp', hu', ha'⟩
            obtain rfl := first_unique hf hf'
            rw [show s'.rp = some rp from hrp] at hrp'
            rw [show s'.user = some user from hu] at hu'
            obtain rfl := Option.some.inj hrp'
            obtain rfl := Option.some.inj hu'
            rw [ha] at ha'
            cases ha'
          · rw [e]
            exact .success _

/-! ### ClientPIN -/

theorem toBytes_ofBytes : ∀ b : Bytes, b.head? ≠ some 0 → BigInt.toBytes (BigInt.ofBytes b) = b := by
  have main : ∀ n (b : Bytes), b.length = n → b.head? ≠ some 0 →
      BigInt.toBytes (BigInt.ofBytes b) = b ∧ (b ≠ [] → BigInt.ofBytes b ≠ 0) := by
    intro n
    induction n with
    | zero =>
      intro b hb _
      obtain rfl := List.length_eq_zero_iff.1 hb
      exact ⟨BigInt.toBytes_zero, fun h => absurd rfl h⟩
    | succ n ih =>
      intro b hb hh
      have hne : b ≠ [] := by intro e; rw [e] at hb; cases hb
      obtain ⟨a, x, rfl⟩ : ∃ a x, b = a ++ [x] := ⟨_, _, (List.dropLast_concat_getLast hne).symm⟩
      have hla : a.length = n := by simpa using hb
      have hx := x.toNat_lt
      have hnz : BigInt.ofBytes a * 256 + x.toNat ≠ 0 := by
        cases a with
        | nil =>
          intro e
          have : x.toNat = 0 := by omega
          have : x = 0 := UInt8.toNat_inj.1 this
          exact hh (by rw [this]; rfl)
        | cons y ys =>
          have := (ih (y :: ys) hla (by simpa using hh)).2 (by simp)
          omega
      have hha : a.head? ≠ some 0 := by
        cases a with
        | nil => simp
        | cons y ys => simpa using hh
      rw [BigInt.ofBytes_concat]
      refine ⟨?_, fun _ => hnz⟩
      rw [BigInt.toBytes, if_neg hnz]
      have e1 : (BigInt.ofBytes a * 256 + x.toNat) / 256 = BigInt.ofBytes a := by omega
      have e2 : UInt8.ofNat (BigInt.ofBytes a * 256 + x.toNat) = x := by
        apply UInt8.toNat_inj.1
        rw [UInt8.toNat_ofNat']
        omega
      rw [e1, e2, (ih a hla hha).1]
  exact fun b hb => (main _ b rfl hb).1

theorem secret_cases {E : Env} (L : Laws E) (c : Client) (key : EC2Key) :
    (∃ secret, sharedSecret E c key = .ok secret ∧ Secret E c key secret ∧ secret.length = 32 ∧
      ∀ s, Secret E c key s → s = secret) ∨
    (∃ q, sharedSecret E c key = .panic q ∧ ∀ s, ¬ Secret E c key s) := by
  cases he : E.ecdh c.keyAgreement.priv (Spec.Cbor.beNat (key.x.getD []))
      (Spec.Cbor.beNat (key.y.getD [])) with
  | none =>
    right
    refine ⟨.library, ?_, ?_⟩
    · have he : E.ecdh c.keyAgreement.priv (BigInt.ofBytes (key.x.getD []))
        (BigInt.ofBytes (key.y.getD [])) = none := he
      simp only [sharedSecret, ecdhSecret, he, Res.bind_panic]
    · rintro s ⟨b, -, -, h⟩
      rw [he] at h
      cases h
  | some z =>
    left
    have he' : E.ecdh c.keyAgreement.priv (BigInt.ofBytes (key.x.getD []))
      (BigInt.ofBytes (key.y.getD [])) = some z := he
    have hs : sharedSecret E c key = .ok (E.sha256 (BigInt.toBytes z)) := by
      simp only [sharedSecret, ecdhSecret, he', Res.bind_ok]
    refine ⟨_, hs, sharedSecret_ok hs, L.sha256_length _, ?_⟩
    rintro s ⟨b, hb, rfl, h⟩
    rw [he] at h
    have h := Option.some.inj h
    have : BigInt.toBytes z = b := by
      rw [h]
      exact toBytes_ofBytes b hb
    rw [this]

theorem withSecret_iff {E : Env} {w : World} {args : ClientPINArgs} {key : EC2Key} {secret : Bytes}
    (hk : args.keyAgreement = some key) (hs : Secret E w.client key secret)
    (hu : ∀ s, Secret E w.client key s → s = secret) (P : Bytes → Prop) :
    WithSecret E w args P ↔ P secret := by
  constructor
  · rintro ⟨key', s, h1, h2, h3⟩
    rw [hk] at h1
    obtain rfl := Option.some.inj h1
    rwa [hu s h2] at h3
  · exact fun h => ⟨key, secret, hk, hs, h⟩

theorem cbc_run {E : Env} {secret data : Bytes} (hs : secret.length = 32) :
    (Blocks data ∧ decryptAESCBC E secret data = .ok (E.cbcDecrypt secret data)) ∨
    (¬ Blocks data ∧ decryptAESCBC E secret data = .panic .library) := by
  unfold decryptAESCBC Blocks
  rw [Saved.aesKeyOk_32 hs]
  by_cases h : data.length % 16 = 0
  · exact .inl ⟨h, by simp [h]⟩
  · exact .inr ⟨h, by simp [h]⟩

theorem pin_run {E : Env} {secret enc : Bytes} (hs : secret.length = 32) :
    (¬ Blocks enc ∧ decryptPIN E secret enc = .panic .library) ∨
    (Blocks enc ∧ ∃ pin, decryptPIN E secret enc = .ok pin ∧
      (LongEnough E secret enc ↔ 4 ≤ pin.length)) := by
  rcases cbc_run (E := E) (data := enc) hs with ⟨hb, h⟩ | ⟨hb, h⟩
  · right
    have hr : ∃ pin, decryptPIN E secret enc = .ok pin := by
      unfold decryptPIN; rw [h, Res.bind_ok]; exact ⟨_, rfl⟩
    obtain ⟨pin, hr⟩ := hr
    refine ⟨hb, pin, hr, ?_, fun hl => ⟨pin, decryptPIN_ok hr hl, hl⟩⟩
    rintro ⟨pin', hp, hl⟩
    rw [decryptPIN_padded hs hb hp] at hr
    rw [← Res.ok.inj hr]
    exact hl
  · exact .inl ⟨hb, by unfold decryptPIN; rw [h]; rfl⟩

theorem setPIN_status {E : Env} (L : Laws E) {w : World} {args : ClientPINArgs}
    (hh : Healthy E w.client) :
    ∃ o, Decides (Spec.Status.setPIN E w args) o ∧ ShowsRes (handleSetPIN E args w).1 o := by
  unfold Spec.Status.setPIN handleSetPIN
  rw [Go.get_bind_run]
  cases hp : w.client.pinHash with
  | some h => exact ⟨_, .here (by simp), .error _ (by decide)⟩
  | none =>
    rw [if_neg (by simp)]
    cases hk : args.keyAgreement with
    | none => exact ⟨_, .next (by simp) (.here (.inl rfl)), .error _ (by decide)⟩
    | some key =>
      cases ha : args.pinAuth with
      | none => exact ⟨_, .next (by simp) (.here (.inr (.inl rfl))), .error _ (by decide)⟩
      | some au =>
        cases hc : args.newPinEnc with
        | none => exact ⟨_, .next (by simp) (.here (.inr (.inr rfl))), .error _ (by decide)⟩
        | some enc =>
          dsimp only [Option.getD_some]
          have n1 : ¬ ((none : Option Bytes) ≠ none) := by simp
          have n2 : ¬ (some key = none ∨ some au = none ∨ some enc = none) := by simp
          rcases secret_cases L w.client key with ⟨secret, hs, h1, h2, h3⟩ | ⟨q, hs, h1⟩
          · have hw := withSecret_iff hk h1 h3
            have n3 : ¬ ¬ WithSecret E w args (fun _ => True) := fun h => h ((hw _).2 trivial)
            rw [hs, Go.lift_ok_bind]
            by_cases hauth : derivePINAuth E secret enc = au
            · rw [if_neg (by simpa using hauth)]
              have n4 : ¬ ¬ WithSecret E w args (fun s => some au = some (auth E s enc)) :=
                fun h => h ((hw _).2 (by rw [← hauth]; rfl))
              rcases pin_run (E := E) (enc := enc) h2 with ⟨hb, hr⟩ | ⟨hb, pin, hr, hl⟩
              · rw [hr]
                exact ⟨_, .next n1 (.next n2 (.next n3 (.next n4 (.here hb)))), .crash _⟩
              · rw [hr, Go.lift_ok_bind]
                by_cases hlen : pin.length < 4
                · rw [if_pos hlen]
                  refine ⟨_, .next n1 (.next n2 (.next n3 (.next n4 (.next (fun h => h hb)
                    (.here ?_))))), .error _ (by decide)⟩
                  rw [hw, hl]
                  omega
                · rw [if_neg hlen]
                  obtain ⟨blob, -, e⟩ := setPINHash_ok L
                    (w := { w with client := { w.client with pinRetries := 8 } })
                    (pinDigest_ne L pin) hh
                  refine ⟨_, .next n1 (.next n2 (.next n3 (.next n4 (.next (fun h => h hb)
                    (.next (fun h => h ((hw _).2 (hl.2 (by omega)))) (.here trivial)))))), ?_⟩
                  simp only [setPINRetries, update, Go.modify_bind_run]
                  exact (congrArg (fun p => ShowsRes p.1 (.status 0)) (Go.run_bind_ok
                      (f := fun _ => pure [success]) e)).mpr (.success [])
            · rw [if_pos (by simpa using hauth)]
              refine ⟨_, .next n1 (.next n2 (.next n3 (.here ?_))), .error _ (by decide)⟩
              rw [hw]
              exact fun e => hauth (Option.some.inj e).symm
          · rw [hs]
            refine ⟨_, .next n1 (.next n2 (.here ?_)), .crash _⟩
            rintro ⟨key', s, e, h, -⟩
            rw [hk] at e
            obtain rfl := Option.some.inj e
            exact h1 s h

theorem retries_run {w : World} (hr : 0 ≤ w.client.pinRetries ∧ w.client.pinRetries ≤ 8) :
    (w.client.pinRetries = 0 ∧ getPINRetries w = (.panic .explicit, w)) ∨
    (w.client.pinRetries ≠ 0 ∧ 0 < w.client.pinRetries ∧
      getPINRetries w = (.ok w.client.pinRetries, w)) := by
  rcases getPINRetries_run w with ⟨h1, h2, h⟩ | ⟨h1, h⟩
  · exact .inr ⟨by omega, h1, h⟩
  · exact .inl ⟨by omega, h⟩

theorem changePIN_status {E : Env} (L : Laws E) {w : World} {args : ClientPINArgs}
    (hh : Healthy E w.client) (hr : 0 ≤ w.client.pinRetries ∧ w.client.pinRetries ≤ 8) :
    ∃ o, Decides (Spec.Status.changePIN E w args) o ∧ ShowsRes (handleChangePIN E args w).1 o := by
  unfold Spec.Status.changePIN handleChangePIN
  cases hk : args.keyAgreement with
  | none => exact ⟨_, .here (.inl rfl), .error _ (by decide)⟩
  | some key =>
    cases ha : args.pinAuth with
    | none => exact ⟨_, .here (.inr rfl), .error _ (by decide)⟩
    | some au =>
      dsimp only
      have n1 : ¬ (some key = none ∨ some au = none) := by simp
      rcases retries_run hr with ⟨hn, hg⟩ | ⟨hn, hpos, hg⟩
      · rw [Go.run_bind_panic hg]
        exact ⟨_, .next n1 (.here hn), .crash _⟩
      · rw [Go.run_bind_ok hg, if_neg hn, Go.get_bind_run]
        rcases secret_cases L w.client key with ⟨secret, hs, h1, h2, h3⟩ | ⟨q, hs, h1⟩
        · have hw := withSecret_iff hk h1 h3
          have n3 : ¬ ¬ WithSecret E w args (fun _ => True) := fun h => h ((hw _).2 trivial)
          rw [hs, Go.lift_ok_bind]
          by_cases hauth : derivePINAuth E secret
              (args.newPinEnc.getD [] ++ args.pinHashEnc.getD []) = au
          · rw [if_neg (by simpa using hauth), Go.run_bind_ok hg]
            have n4 : ¬ ¬ WithSecret E w args (fun s => some au =
                some (auth E s (args.newPinEnc.getD [] ++ args.pinHashEnc.getD []))) :=
              fun h => h ((hw _).2 (by rw [← hauth]; rfl))
            simp only [setPINRetries, update, Go.modify_bind_run]
            rcases cbc_run (E := E) (data := args.pinHashEnc.getD []) h2 with ⟨hb, hd⟩ | ⟨hb, hd⟩
            · rw [hd, Go.lift_ok_bind, Go.get_bind_run]
              by_cases heq : w.client.pinHash.getD [] = E.cbcDecrypt secret (args.pinHashEnc.getD [])
              · rw [if_neg (by simpa using heq), Go.modify_bind_run]
                have n6 : ¬ ¬ WithSecret E w args (fun s => E.cbcDecrypt s (args.pinHashEnc.getD []) =
                    w.client.pinHash.getD []) := fun h => h ((hw _).2 heq.symm)
                rcases pin_run (E := E) (enc := args.newPinEnc.getD []) h2 with
                  ⟨hb', hr'⟩ | ⟨hb', pin, hr', hl⟩
                · rw [hr']
                  exact ⟨_, .next n1 (.next hn (.next n3 (.next n4 (.next (fun h => h hb)
                    (.next n6 (.here hb')))))), .crash _⟩
                · rw [hr', Go.lift_ok_bind]
                  by_cases hlen : pin.length < 4
                  · rw [if_pos hlen]
                    refine ⟨_, .next n1 (.next hn (.next n3 (.next n4 (.next (fun h => h hb)
                      (.next n6 (.next (fun h => h hb') (.here ?_))))))), .error _ (by decide)⟩
                    rw [hw, hl]
                    omega
                  · rw [if_neg hlen]
                    obtain ⟨blob, -, e⟩ := setPINHash_ok L
                      (w := { w with client := { w.client with pinRetries := 8 } })
                      (pinDigest_ne L pin) hh
                    refine ⟨_, .next n1 (.next hn (.next n3 (.next n4 (.next (fun h => h hb)
                      (.next n6 (.next (fun h => h hb')
                      (.next (fun h => h ((hw _).2 (hl.2 (by omega)))) (.here trivial)))))))), ?_⟩
                    exact (congrArg (fun p => ShowsRes p.1 (.status 0)) (Go.run_bind_ok
                      (f := fun _ => pure [success]) e)).mpr (.success [])
              · rw [if_pos (by simpa using heq)]
                refine ⟨_, .next n1 (.next hn (.next n3 (.next n4 (.next (fun h => h hb)
                  (.here ?_))))), .error _ (by decide)⟩
                rw [hw]
                exact fun e => heq e.symm
            · rw [hd]
              exact ⟨_, .next n1 (.next hn (.next n3 (.next n4 (.here hb)))), .crash _⟩
          · rw [if_pos (by simpa using hauth)]
            refine ⟨_, .next n1 (.next hn (.next n3 (.here ?_))), .error _ (by decide)⟩
            rw [hw]
            exact fun e => hauth (Option.some.inj e).symm
        · rw [hs]
          refine ⟨_, .next n1 (.next hn (.here ?_)), .crash _⟩
          rintro ⟨key', s, e, h, -⟩
          rw [hk] at e
          obtain rfl := Option.some.inj e
          exact h1 s h

theorem getPINToken_status {E : Env} (L : Laws E) {w : World} {args : ClientPINArgs}
    (hr : 0 ≤ w.client.pinRetries ∧ w.client.pinRetries ≤ 8)
    (ht : w.client.pinToken.length = 16) :
    ∃ o, Decides (Spec.Status.getPINToken E w args) o ∧ ShowsRes (handleGetPINToken E args w).1 o := by
  unfold Spec.Status.getPINToken handleGetPINToken
  cases hc : args.pinHashEnc with
  | none => exact ⟨_, .here rfl, .error _ (by decide)⟩
  | some enc =>
    have n1 : ¬ (some enc = none) := by simp
    cases hk : args.keyAgreement with
    | none => exact ⟨_, .next n1 (.here rfl), .crash _⟩
    | some key =>
      dsimp only [Option.getD_some]
      have n2 : ¬ (some key = none) := by simp
      by_cases hx : key.x = none
      · rw [if_pos hx]
        exact ⟨_, .next n1 (.next n2 (.here ⟨key, rfl, hx⟩)), .error _ (by decide)⟩
      · rw [if_neg hx]
        have n3 : ¬ ∃ key', some key = some key' ∧ key'.x = none := by
          rintro ⟨key', e, h⟩
          obtain rfl := Option.some.inj e
          exact hx h
        rcases retries_run hr with ⟨hn, hg⟩ | ⟨hn, hpos, hg⟩
        · rw [Go.run_bind_panic hg]
          exact ⟨_, .next n1 (.next n2 (.next n3 (.here hn))), .crash _⟩
        · rw [Go.run_bind_ok hg, if_neg (by omega), Go.get_bind_run]
          rcases secret_cases L w.client key with ⟨secret, hs, h1, h2, h3⟩ | ⟨q, hs, h1⟩
          · have hw := withSecret_iff hk h1 h3
            have n4 : ¬ ¬ WithSecret E w args (fun _ => True) := fun h => h ((hw _).2 trivial)
            rw [hs, Go.lift_ok_bind, Go.run_bind_ok hg]
            simp only [setPINRetries, update, Go.modify_bind_run]
            rcases cbc_run (E := E) (data := enc) h2 with ⟨hb, hd⟩ | ⟨hb, hd⟩
            · rw [hd, Go.lift_ok_bind, Go.get_bind_run]
              by_cases heq : E.cbcDecrypt secret enc = w.client.pinHash.getD []
              · rw [if_neg (by simpa using heq), Go.modify_bind_run]
                have he : encryptAESCBC E secret w.client.pinToken =
                    .ok (E.cbcEncrypt secret w.client.pinToken) := by
                  unfold encryptAESCBC
                  rw [Saved.aesKeyOk_32 h2]
                  simp [ht]
                dsimp only
                rw [he, Go.lift_ok_bind]
                exact ⟨_, .next n1 (.next n2 (.next n3 (.next hn (.next n4 (.next (fun h => h hb)
                  (.next (fun h => h ((hw _).2 heq)) (.here trivial))))))), .success _⟩
              · rw [if_pos (by simpa using heq)]
                refine ⟨_, .next n1 (.next n2 (.next n3 (.next hn (.next n4 (.next (fun h => h hb)
                  (.here ?_)))))), .error _ (by decide)⟩
                rw [hw]
                exact heq
            · rw [hd]
              exact ⟨_, .next n1 (.next n2 (.next n3 (.next hn (.next n4 (.here hb))))), .crash _⟩
          · rw [hs]
            refine ⟨_, .next n1 (.next n2 (.next n3 (.next hn (.here ?_)))), .crash _⟩
            rintro ⟨key', s, e, h, -⟩
            rw [hk] at e
            obtain rfl := Option.some.inj e
            exact h1 s h

theorem pin_status {E : Env} (L : Laws E) {data : Bytes} {w : World} (hh : Healthy E w.client)
    (hr : 0 ≤ w.client.pinRetries ∧ w.client.pinRetries ≤ 8) (ht : w.client.pinToken.length = 16) :
    ∃ o, ClientPIN E w data o ∧ ShowsRes (handleClientPIN E data w).1 o := by
  unfold handleClientPIN
  rw [Go.get_bind_run]
  cases hon : w.client.pinEnabled with
  | false => exact ⟨_, .off hon, .error _ (by decide)⟩
  | true =>
    rw [if_neg (by simp)]
    cases hd : E.decodeClientPIN data with
    | none => exact ⟨_, .undecodable hon hd, .error _ (by decide)⟩
    | some args =>
      dsimp only
      by_cases hp : args.pinProtocol = 1
      · rw [if_neg (by simpa using hp)]
        by_cases h1 : args.subCommand = 1
        · rw [if_pos h1]
          unfold handleGetRetries
          rcases retries_run hr with ⟨hn, hg⟩ | ⟨hn, hpos, hg⟩
          · rw [Go.run_bind_panic hg]
            exact ⟨_, .getRetries hon hd hp h1 (.here hn), .crash _⟩
          · rw [Go.run_bind_ok hg]
            exact ⟨_, .getRetries hon hd hp h1 (.next hn (.here trivial)), .success _⟩
        · rw [if_neg h1]
          by_cases h2 : args.subCommand = 2
          · rw [if_pos h2]
            exact ⟨_, .getKeyAgreement hon hd hp h2, .success _⟩
          · rw [if_neg h2]
            by_cases h3 : args.subCommand = 3
            · rw [if_pos h3]
              obtain ⟨o, q1, q2⟩ := setPIN_status (args := args) L hh
              exact ⟨o, .setPIN hon hd hp h3 q1, q2⟩
            · rw [if_neg h3]
              by_cases h4 : args.subCommand = 4
              · rw [if_pos h4]
                obtain ⟨o, q1, q2⟩ := changePIN_status (args := args) L hh hr
                exact ⟨o, .changePIN hon hd hp h4 q1, q2⟩
              · rw [if_neg h4]
                by_cases h5 : args.subCommand = 5
                · rw [if_pos h5]
                  obtain ⟨o, q1, q2⟩ := getPINToken_status (args := args) L hr ht
                  exact ⟨o, .getPINToken hon hd hp h5 q1, q2⟩
                · rw [if_neg h5]
                  refine ⟨_, .subcommand hon hd hp ?_, .error _ (by decide)⟩
                  simp only [← UInt32.toNat_inj] at h1 h2 h3 h4 h5
                  simp only [← UInt32.toNat_inj, UInt32.lt_iff_toNat_lt]
                  simp at h1 h2 h3 h4 h5 ⊢
                  omega
      · rw [if_pos (by simpa using hp)]
        exact ⟨_, .protocol hon hd hp, .error _ (by decide)⟩

theorem message_status {E : Env} (L : Laws E) {w : World} (hh : Healthy E w.client)
    (hat : CanAttest E w.client)
    (hr : 0 ≤ w.client.pinRetries ∧ w.client.pinRetries ≤ 8) (ht : w.client.pinToken.length = 16)
    (m : Bytes) : ∃ o, Expected E w m o ∧ ShowsRes (handleMessage E m w).1 o := by
  match m with
  | [] => exact ⟨_, .empty, .crash _⟩
  | c :: data =>
    by_cases h1 : c = 1
    · subst h1
      rw [handleMessage_make]
      cases hd : E.decodeMakeCred data with
      | none =>
        refine ⟨_, .makeCredentialUndecodable hd, ?_⟩
        unfold handleMakeCredential
        rw [hd]
        exact .crash _
      | some args =>
        obtain ⟨o, q1, q2⟩ := make_status L hh hat hd
        exact ⟨o, .makeCredential hd q1, q2⟩
    by_cases h2 : c = 2
    · subst h2
      rw [handleMessage_get]
      cases hd : E.decodeGetAssertion data with
      | none =>
        refine ⟨_, .getAssertionUndecodable hd, ?_⟩
        unfold handleGetAssertion
        rw [hd]
        exact .error _ (by decide)
      | some args =>
        obtain ⟨o, q1, q2⟩ := get_status L hh hd
        exact ⟨o, .getAssertion hd q1, q2⟩
    by_cases h4 : c = 4
    · subst h4
      rw [handleMessage_info]
      exact ⟨_, .getInfo, .success _⟩
    by_cases h6 : c = 6
    · subst h6
      rw [handleMessage_pin]
      obtain ⟨o, q1, q2⟩ := pin_status (data := data) L hh hr ht
      exact ⟨o, .clientPIN q1, q2⟩
    rw [handleMessage_other E c data h1 h2 h4 h6]
    exact ⟨_, .unknown h1 h2 h4 h6, .crash _⟩

end VF.Fido.Ctap
