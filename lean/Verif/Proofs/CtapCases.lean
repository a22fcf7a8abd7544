import Verif.Model.Ctap
import Verif.Proofs.Vault

/-!
# What each CTAP command can do

For every command the possible outcomes, each with the state it leads to.
-/

namespace VF.Fido.Ctap

open Client

/-- The client's state can be saved, starting at draw `rnd`, as `data`. -/
def Saves (E : Env) (c : Client) (rnd : Nat) (data : Bytes) (rnd' : Nat) : Prop :=
  ∃ st, exportState c = .ok st ∧ Saved.encryptState E st E.passphrase rnd = some (data, rnd')

theorem saveData_cases (E : Env) (w : World) :
    (∃ c, saveData E w = (.panic c, w) ∧ ∀ data rnd', ¬ Saves E w.client w.rnd data rnd') ∨
    (∃ data rnd', Saves E w.client w.rnd data rnd' ∧
      saveData E w = (.ok (), { w with store := some data, rnd := rnd' })) := by
  unfold saveData Saves
  cases he : exportState w.client with
  | panic c => exact .inl ⟨c, by simp⟩
  | ok st =>
    cases hs : Saved.encryptState E st E.passphrase w.rnd with
    | none => exact .inl ⟨.checkErr, by simp [hs]⟩
    | some p => exact .inr ⟨p.1, p.2, by simp [hs], by simp [hs]⟩

/-- The world after a question was answered. -/
def World.asked (w : World) (a : Ask) : World := { w with asks := w.asks ++ [a] }

/-- Outcomes of MakeCredential. -/
inductive MakeCredOut (E : Env) (data : Bytes) (w : World) (r : Res Bytes) (w' : World) : Prop
  /-- no effect: a panic or an error code -/
  | nothing (hw : w' = w) (hr : ∀ b, r = .ok b → ∃ e, e ≠ 0 ∧ b = [e])
  /-- the user refused -/
  | refused (args : MakeCredArgs) (rp : RPEntity) (flags : UInt8)
      (hd : E.decodeMakeCred data = some args) (hs : supported args.params = true)
      (hp : makeCredentialPIN E w.client args = .ok flags) (hrp : args.rp = some rp)
      (ha : E.approve w.asks .makeCredential rp.name [] = false) (hr : r = .ok [0x27])
      (hw : w' = { w with asks := w.asks ++ [⟨.makeCredential, rp.name, [], false⟩] })
  /-- the new credential is in memory, saving panicked -/
  | unsaved (args : MakeCredArgs) (rp : RPEntity) (flags : UInt8)
      (hd : E.decodeMakeCred data = some args) (hs : supported args.params = true)
      (hp : makeCredentialPIN E w.client args = .ok flags) (hrp : args.rp = some rp)
      (ha : E.approve w.asks .makeCredential rp.name [] = true)
      (hn : ∀ d n, ¬ Saves E { w.client with
        vault := w.client.vault ++ [Vault.newIdentity E args.rp args.user w.rnd] } (w.rnd + 2) d n)
      (c : Cause) (hr : r = .panic c)
      (hw : w' = { w with
        client := { w.client with
          vault := w.client.vault ++ [Vault.newIdentity E args.rp args.user w.rnd] }
        rnd := w.rnd + 2
        asks := w.asks ++ [⟨.makeCredential, rp.name, [], true⟩] })
  /-- the new credential is saved; a panic, or the answer -/
  | saved (args : MakeCredArgs) (rp : RPEntity) (flags : UInt8) (blob : Bytes) (n m : Nat)
      (hd : E.decodeMakeCred data = some args) (hs : supported args.params = true)
      (hp : makeCredentialPIN E w.client args = .ok flags) (hrp : args.rp = some rp)
      (ha : E.approve w.asks .makeCredential rp.name [] = true)
      (hn : Saves E { w.client with
        vault := w.client.vault ++ [Vault.newIdentity E args.rp args.user w.rnd] } (w.rnd + 2)
        blob n)
      (hm : n ≤ m ∧ m ≤ n + 2)
      (hw : w' = { w with
        client := { w.client with
          vault := w.client.vault ++ [Vault.newIdentity E args.rp args.user w.rnd] }
        store := some blob
        rnd := m
        asks := w.asks ++ [⟨.makeCredential, rp.name, [], true⟩] })
      (hr : ∀ b, r = .ok b → ∃ attested cert sig,
        makeAttestedCredentialData (Vault.newIdentity E args.rp args.user w.rnd) = .ok attested ∧
        Cose.createAttestationCert E w.client.cert w.client.certKey
          { ecdsa := some (E.genEC (w.rnd + 1)) } n = .ok (some cert) ∧
        signECDSA E (E.genEC (w.rnd + 1))
          (makeAuthData E rp.id (Vault.newIdentity E args.rp args.user w.rnd) (some attested)
            (flags ||| flagUP) ++ args.clientDataHash) (n + 1) = .ok sig ∧
        m = n + 2 ∧
        b = 0 :: Cbor.encode (makeCredentialItem
          (makeAuthData E rp.id (Vault.newIdentity E args.rp args.user w.rnd) (some attested)
            (flags ||| flagUP)) sig cert))

theorem makeCredentialPIN_error {E : Env} {c : Client} {args : MakeCredArgs} {e : UInt8}
    (h : makeCredentialPIN E c args = .error e) : e = errPINAuthInvalid ∨ e = errPINRequired := by
  unfold makeCredentialPIN at h
  split at h
  · cases h
  · split at h
    · split at h
      · split at h
        · cases h
        · cases h; exact .inl rfl
      · cases h; exact .inl rfl
    · split at h
      · cases h; exact .inr rfl
      · cases h

theorem noOk (c : Cause) (P : Bytes → Prop) : ∀ b, (Res.panic c : Res Bytes) = .ok b → P b := by
  simp

theorem handleMakeCredential_cases (E : Env) (data : Bytes) (w : World) :
    MakeCredOut E data w (handleMakeCredential E data w).1 (handleMakeCredential E data w).2 := by
  unfold handleMakeCredential
  cases hd : E.decodeMakeCred data with
  | none => exact .nothing rfl (by simp)
  | some args =>
    dsimp only
    by_cases hs : supported args.params = false
    · rw [if_pos hs]
      exact .nothing rfl (by intro b hb; exact ⟨errUnsupportedAlgorithm, by decide, by simpa using hb.symm⟩)
    · rw [if_neg hs]
      have hs : supported args.params = true := by simpa using hs
      rw [Go.get_bind_run]
      cases hp : makeCredentialPIN E w.client args with
      | error e =>
        refine .nothing rfl ?_
        intro b hb
        refine ⟨e, ?_, by simpa using hb.symm⟩
        rcases makeCredentialPIN_error hp with rfl | rfl <;> decide
      | ok flags =>
        dsimp only
        cases hrp : args.rp with
        | none => exact .nothing rfl (by simp)
        | some rp =>
          dsimp only
          rw [Go.run_bind]
          simp only [approveAccountCreation, approve]
          cases ha : E.approve w.asks .makeCredential rp.name [] with
          | false => exact .refused args rp flags hd hs hp hrp ha rfl rfl
          | true =>
            rw [if_neg (by simp)]
            simp only [newCredentialSource, hs, Bool.true_eq_false, if_false, draw, Go.run_bind,
              update, Go.modify, Vault.addIdentity]
            rcases saveData_cases E
              { w with
                client := { w.client with
                  vault := w.client.vault ++ [Vault.newIdentity E (some rp) args.user w.rnd] }
                rnd := w.rnd + 1 + 1
                asks := w.asks ++ [⟨.makeCredential, rp.name, [], true⟩] } with
              ⟨c, h, hn⟩ | ⟨blob, n, hsv, h⟩
            · simp only [h]
              exact .unsaved args rp flags hd hs hp hrp ha (by rw [hrp]; exact hn) c rfl
                (by rw [hrp])
            · simp only [h, Go.run_pure]
              cases hat : makeAttestedCredentialData
                  (Vault.newIdentity E (some rp) args.user w.rnd) with
              | panic c =>
                exact .saved args rp flags blob n n hd hs hp hrp ha (by rw [hrp]; exact hsv)
                  ⟨by omega, by omega⟩ (by rw [hrp] <;> rfl) (noOk _ _)
              | ok attested =>
                simp only [Go.run_lift, createCertificate, Go.run_bind, draw, Go.run_get]
                cases hc : Cose.createAttestationCert E w.client.cert w.client.certKey
                    (Vault.newIdentity E (some rp) args.user w.rnd).key n with
                | panic c =>
                  exact .saved args rp flags blob n (n + 1) hd hs hp hrp ha
                    (by rw [hrp]; exact hsv) ⟨by omega, by omega⟩ (by rw [hrp] <;> rfl) (noOk _ _)
                | ok cert =>
                  cases cert with
                  | none =>
                    exact .saved args rp flags blob n (n + 1) hd hs hp hrp ha
                      (by rw [hrp]; exact hsv) ⟨by omega, by omega⟩ (by rw [hrp] <;> rfl) (noOk _ _)
                  | some cert =>
                    simp only [Go.run_pure, signWith, Go.run_bind, draw, Go.run_lift]
                    cases hsg : Cose.sign E (Vault.newIdentity E (some rp) args.user w.rnd).key
                        (makeAuthData E rp.id (Vault.newIdentity E (some rp) args.user w.rnd)
                          (some attested) (flags ||| flagUP) ++ args.clientDataHash) (n + 1) with
                    | panic c =>
                      exact .saved args rp flags blob n (n + 2) hd hs hp hrp ha
                        (by rw [hrp]; exact hsv) ⟨by omega, by omega⟩ (by rw [hrp] <;> rfl) (noOk _ _)
                    | ok sig =>
                      refine .saved args rp flags blob n (n + 2) hd hs hp hrp ha
                        (by rw [hrp]; exact hsv) ⟨by omega, by omega⟩ (by rw [hrp] <;> rfl) ?_
                      intro b hb
                      rw [hrp]
                      exact ⟨attested, cert, sig, hat, hc, hsg, rfl, (Res.ok.inj hb).symm⟩

/-! ### GetAssertion -/

theorem getMatching_ok {rpId : Bytes} {allow : Option (List Descriptor)} {v : List Source}
    {ps : List Nat} (h : Vault.getMatching rpId allow 0 v = .ok ps) :
    (∀ s ∈ v, s.rp.isSome) ∧ ps.Pairwise (· < ·) ∧
    ∀ j, j ∈ ps ↔ ∃ s, v[j]? = some s ∧ Spec.Vault.Matches rpId allow s := by
  have hr : ∀ s ∈ v, s.rp.isSome := by
    intro s hs
    cases hn : s.rp with
    | some _ => rfl
    | none =>
      have := Vault.getMatching_panic rpId allow v 0 ⟨s, hs, hn⟩
      rw [h] at this
      simp at this
  obtain ⟨ps', h1, -, h3, h4⟩ := Vault.getMatching_spec rpId allow v 0 hr
  rw [h] at h1
  obtain rfl := Res.ok.inj h1
  exact ⟨hr, h3, fun j => by simpa using h4 j (Nat.zero_le _)⟩

/-- The credential with its counter incremented. -/
def bumped (s : Source) : Source := { s with counter := s.counter + 1 }

theorem bump_get {v : List Source} {i : Nat} {s : Source} (h : v[i]? = some s) :
    (bump v i)[i]? = some (bumped s) := by
  simp [bump, List.getElem?_modify, h, bumped]

/-- The first credential that matches. -/
def First (v : List Source) (rpId : Bytes) (allow : Option (List Descriptor)) (i : Nat)
    (s : Source) : Prop :=
  v[i]? = some s ∧ Spec.Vault.Matches rpId allow s ∧
    ∀ j t, j < i → v[j]? = some t → ¬ Spec.Vault.Matches rpId allow t

/-- Outcomes of GetAssertion. -/
inductive GetAssertionOut (E : Env) (data : Bytes) (w : World) (r : Res Bytes) (w' : World) : Prop
  /-- no effect: a panic or an error code -/
  | nothing (hw : w' = w) (hr : ∀ b, r = .ok b → ∃ e, e ≠ 0 ∧ e ≠ 0x2E ∧ b = [e])
  /-- no credential matches -/
  | none (args : GetAssertionArgs) (flags : UInt8) (hd : E.decodeGetAssertion data = some args)
      (hp : getAssertionPIN E w.client args = .ok flags)
      (hm : ∀ s ∈ w.client.vault, ¬ Spec.Vault.Matches args.rpId args.allowList s)
      (hw : w' = w) (hr : r = .ok [0x2E])
  /-- the counter is incremented in memory, saving panicked -/
  | unsaved (args : GetAssertionArgs) (flags : UInt8) (i : Nat) (s : Source)
      (hd : E.decodeGetAssertion data = some args)
      (hp : getAssertionPIN E w.client args = .ok flags)
      (hi : First w.client.vault args.rpId args.allowList i s)
      (hn : ∀ d n, ¬ Saves E { w.client with vault := bump w.client.vault i } w.rnd d n)
      (c : Cause) (hr : r = .panic c)
      (hw : w' = { w with client := { w.client with vault := bump w.client.vault i } })
  /-- saved, the user refused -/
  | refused (args : GetAssertionArgs) (flags : UInt8) (i : Nat) (s : Source) (rp : RPEntity)
      (user : UserEntity) (blob : Bytes) (n : Nat)
      (hd : E.decodeGetAssertion data = some args)
      (hp : getAssertionPIN E w.client args = .ok flags)
      (hi : First w.client.vault args.rpId args.allowList i s)
      (hn : Saves E { w.client with vault := bump w.client.vault i } w.rnd blob n)
      (hup : args.up ≠ some false) (hrp : s.rp = some rp) (hu : s.user = some user)
      (ha : E.approve w.asks .getAssertion rp.name user.name = false)
      (hr : r = .ok [0x27])
      (hw : w' = { w with
        client := { w.client with vault := bump w.client.vault i }
        store := some blob
        rnd := n
        asks := w.asks ++ [⟨.getAssertion, rp.name, user.name, false⟩] })
  /-- saved, then a panic or the answer -/
  | saved (args : GetAssertionArgs) (flags flags' : UInt8) (i : Nat) (s : Source) (rp : RPEntity)
      (user : UserEntity) (blob : Bytes) (n : Nat) (asks : List Ask)
      (hd : E.decodeGetAssertion data = some args)
      (hp : getAssertionPIN E w.client args = .ok flags)
      (hi : First w.client.vault args.rpId args.allowList i s)
      (hn : Saves E { w.client with vault := bump w.client.vault i } w.rnd blob n)
      (hrp : s.rp = some rp) (hu : s.user = some user)
      (hq : (args.up = some false ∧ asks = w.asks ∧ flags' = flags) ∨
        (args.up ≠ some false ∧ E.approve w.asks .getAssertion rp.name user.name = true ∧
          asks = w.asks ++ [⟨.getAssertion, rp.name, user.name, true⟩] ∧
          flags' = (flags ||| flagUP)))
      (hw : w' = { w with
        client := { w.client with vault := bump w.client.vault i }
        store := some blob
        rnd := n + 1
        asks := asks })
      (hr : ∀ b, r = .ok b → ∃ sig,
        Cose.sign E s.key (makeAuthData E args.rpId (bumped s) .none flags' ++ args.clientDataHash) n
          = .ok sig ∧
        b = 0 :: Cbor.encode (getAssertionItem s.id
          (makeAuthData E args.rpId (bumped s) .none flags') sig))

theorem getAssertionPIN_error {E : Env} {c : Client} {args : GetAssertionArgs} {e : UInt8}
    (h : getAssertionPIN E c args = .error e) : e = errPINAuthInvalid := by
  unfold getAssertionPIN at h
  split at h
  · cases h
  · split at h
    · cases h
    · split at h
      · cases h; rfl
      · split at h <;> cases h; rfl

theorem finishAssertion_run (E : Env) (args : GetAssertionArgs) (s : Source) (flags : UInt8)
    (w : World) :
    (finishAssertion E args s flags w).2 = { w with rnd := w.rnd + 1 } ∧
    ∀ b, (finishAssertion E args s flags w).1 = .ok b → ∃ sig,
      Cose.sign E s.key (makeAuthData E args.rpId s none flags ++ args.clientDataHash) w.rnd
        = .ok sig ∧
      b = 0 :: Cbor.encode (getAssertionItem s.id (makeAuthData E args.rpId s none flags) sig) := by
  simp only [finishAssertion, signWith, Go.run_bind, draw, Go.run_lift, Util.concat, List.foldl,
    List.nil_append]
  cases hs : Cose.sign E s.key (makeAuthData E args.rpId s none flags ++ args.clientDataHash) w.rnd with
  | panic c => exact ⟨rfl, by simp⟩
  | ok sig => exact ⟨rfl, fun b hb => ⟨sig, rfl, (Res.ok.inj hb).symm⟩⟩

theorem saves_entities {E : Env} {c : Client} {rnd : Nat} {d : Bytes} {n : Nat}
    (h : Saves E c rnd d n) : ∀ s ∈ c.vault, s.rp.isSome ∧ s.user.isSome := by
  obtain ⟨st, he, -⟩ := h
  unfold exportState at he
  cases hm : Cose.marshalPrivate c.certKey with
  | panic c => rw [hm] at he; simp at he
  | ok key =>
    cases hv : Vault.exportSources c.vault with
    | panic c => rw [hm, hv] at he; simp at he
    | ok saved => exact Vault.exportSources_savable hv

theorem handleGetAssertion_cases (E : Env) (data : Bytes) (w : World) :
    GetAssertionOut E data w (handleGetAssertion E data w).1 (handleGetAssertion E data w).2 := by
  unfold handleGetAssertion
  cases hd : E.decodeGetAssertion data with
  | none => exact .nothing rfl (by intro b hb; exact ⟨errInvalidCBOR, by decide, by decide, (Res.ok.inj hb).symm⟩)
  | some args =>
    dsimp only
    rw [Go.get_bind_run]
    cases hp : getAssertionPIN E w.client args with
    | error e =>
      refine .nothing rfl ?_
      intro b hb
      obtain rfl := getAssertionPIN_error hp
      exact ⟨_, by decide, by decide, (Res.ok.inj hb).symm⟩
    | ok flags =>
      dsimp only
      simp only [Go.run_bind, getAssertionSource, Go.run_get, Go.run_lift]
      cases hg : Vault.getMatching args.rpId args.allowList 0 w.client.vault with
      | panic c => exact .nothing rfl (by intro b hb; cases hb)
      | ok ps =>
        obtain ⟨hrps, hpw, hps⟩ := getMatching_ok hg
        cases ps with
        | nil =>
          refine .none args flags hd hp ?_ rfl rfl
          intro s hs hm
          obtain ⟨j, hj, e⟩ := List.getElem_of_mem hs
          have := (hps j).2 ⟨s, by rw [List.getElem?_eq_getElem hj, e], hm⟩
          simp at this
        | cons i ps =>
          obtain ⟨s, hs, hm⟩ := (hps i).1 (by simp)
          have hi : First w.client.vault args.rpId args.allowList i s := by
            refine ⟨hs, hm, ?_⟩
            intro j t hj ht hmt
            have h1 := (hps j).2 ⟨t, ht, hmt⟩
            rcases List.mem_cons.1 h1 with rfl | h1
            · omega
            · have := (List.pairwise_cons.1 hpw).1 j h1
              omega
          simp only [Go.run_bind, update, Go.modify, Go.run_get]
          rcases saveData_cases E
            { w with client := { w.client with vault := bump w.client.vault i } } with
            ⟨c, h, hn⟩ | ⟨blob, n, hsv, h⟩
          · simp only [h]
            exact .unsaved args flags i s hd hp hi hn c rfl rfl
          · have hb := bump_get hs
            simp only [h, Go.run_pure, hb]
            obtain ⟨rp, hrp⟩ := Option.isSome_iff_exists.1
              (hrps s (List.mem_of_getElem? hs))
            obtain ⟨user, hu⟩ := Option.isSome_iff_exists.1
              ((saves_entities hsv (bumped s) (List.mem_of_getElem? hb)).2)
            have hu : s.user = some user := hu
            by_cases hup : args.up = some false
            · rw [if_pos hup]
              obtain ⟨h1, h2⟩ := finishAssertion_run E args (bumped s) flags
                { w with
                  client := { w.client with vault := bump w.client.vault i }
                  store := some blob
                  rnd := n }
              exact .saved args flags flags i s rp user blob n w.asks hd hp hi hsv hrp hu
                (.inl ⟨hup, rfl, rfl⟩) h1 h2
            · rw [if_neg hup]
              have e1 : (bumped s).rp = some rp := hrp
              have e2 : (bumped s).user = some user := hu
              rw [Go.run_bind]
              simp only [approveAccountLogin, e1, e2, approve]
              cases ha : E.approve w.asks .getAssertion rp.name user.name with
              | false =>
                exact .refused args flags i s rp user blob n hd hp hi hsv hup hrp hu ha rfl rfl
              | true =>
                rw [if_neg (by simp)]
                obtain ⟨h1, h2⟩ := finishAssertion_run E args (bumped s) (flags ||| flagUP)
                  { w with
                    client := { w.client with vault := bump w.client.vault i }
                    store := some blob
                    rnd := n
                    asks := w.asks ++ [⟨.getAssertion, rp.name, user.name, true⟩] }
                exact .saved args flags (flags ||| flagUP) i s rp user blob n _ hd hp hi hsv hrp hu
                  (.inr ⟨hup, ha, rfl, rfl⟩) h1 h2

end VF.Fido.Ctap
