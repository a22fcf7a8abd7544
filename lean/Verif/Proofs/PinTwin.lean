import Verif.Proofs.Twice
import Verif.Proofs.History
import Verif.Proofs.PinSpec
import Verif.Proofs.Health
import Verif.Spec.Secrecy

/-!
# Two devices that differ in the PIN
-/

namespace VF.Fido.Secrecy

open VF.Spec.Client VF.Spec.Pin VF.Spec.Secrecy Client Go

variable {E : Env} {h1 h2 : Bytes}

/-- A PIN is set. -/
def IsSet (h : Option Bytes) : Prop := ∃ b, h = some b ∧ b ≠ []

/-- The PIN hashes of two devices: `h1` and `h2`, or the same. -/
def Pair (h1 h2 : Bytes) (a b : Option Bytes) : Prop :=
  IsSet a ∧ IsSet b ∧ (a = b ∨ (a = some h1 ∧ b = some h2))

/-- All texts of the credentials are UTF-8. -/
def Texts (v : List Source) : Prop :=
  ∀ s ∈ v, utf8 s.type ∧ (∀ rp, s.rp = some rp → utf8 rp.id ∧ utf8 rp.name) ∧
    (∀ u, s.user = some u → utf8 u.displayName ∧ utf8 u.name)

/-- Saved data that differ in the PIN. -/
def TwinStore (E : Env) (h1 h2 : Bytes) (s1 s2 : Option Bytes) : Prop :=
  ∃ b1 b2 st1 st2, s1 = some b1 ∧ s2 = some b2 ∧
    Saved.decryptState E b1 E.passphrase = .ok (some st1) ∧
    Saved.decryptState E b2 E.passphrase = .ok (some st2) ∧
    st2 = { st1 with pinHash := st2.pinHash } ∧ Pair h1 h2 st1.pinHash st2.pinHash ∧ st1.Utf8

/-- Clients that differ in the PIN. -/
structure TwinClient (h1 h2 : Bytes) (c1 c2 : Client) : Prop where
  rest : c2 = { c1 with pinHash := c2.pinHash }
  pin : Pair h1 h2 c1.pinHash c2.pinHash
  texts : Texts c1.vault

/-- Worlds that differ in the PIN. -/
structure Twin (E : Env) (h1 h2 : Bytes) (w1 w2 : World) : Prop where
  client : TwinClient h1 h2 w1.client w2.client
  rnd : w2.rnd = w1.rnd
  asks : w2.asks = w1.asks
  store : TwinStore E h1 h2 w1.store w2.store

/-- What is left of that after a panic. -/
structure TwinDead (E : Env) (h1 h2 : Bytes) (w1 w2 : World) : Prop where
  rnd : w2.rnd = w1.rnd
  asks : w2.asks = w1.asks
  store : TwinStore E h1 h2 w1.store w2.store

theorem Twin.dead {w1 w2 : World} (h : Twin E h1 h2 w1 w2) : TwinDead E h1 h2 w1 w2 := ⟨h.rnd, h.asks, h.store⟩

variable {α β : Type} {w1 w2 : World}

abbrev T (E : Env) (h1 h2 : Bytes) (x y : Go World α) (w1 w2 : World) : Prop := Twice (Twin E h1 h2) (TwinDead E h1 h2) x y w1 w2

theorem t_pure (h : Twin E h1 h2 w1 w2) (a : α) : T E h1 h2 (Pure.pure a) (Pure.pure a) w1 w2 := .pure a h
theorem t_throw (h : Twin E h1 h2 w1 w2) (c : Cause) : T E h1 h2 (Go.throw c : Go World α) (Go.throw c) w1 w2 :=
  .throw c c h.dead
theorem t_lift (h : Twin E h1 h2 w1 w2) (r : Res α) : T E h1 h2 (Go.lift r) (Go.lift r) w1 w2 := .lift r h h.dead

theorem t_draw (h : Twin E h1 h2 w1 w2) : T E h1 h2 draw draw w1 w2 := by
  refine .inl ⟨w1.rnd, { w1 with rnd := w1.rnd + 1 }, { w2 with rnd := w2.rnd + 1 }, rfl, ?_, ?_⟩
  · unfold draw; rw [h.rnd]
  · exact ⟨h.client, by dsimp only; rw [h.rnd], h.asks, h.store⟩

theorem t_update (h : Twin E h1 h2 w1 w2) {f : Client → Client} (hf : TwinClient h1 h2 (f w1.client) (f w2.client)) :
    T E h1 h2 (update f) (update f) w1 w2 :=
  .modify ⟨hf, h.rnd, h.asks, h.store⟩

theorem t_approve (h : Twin E h1 h2 w1 w2) (a : Action) (rp user : Bytes) :
    T E h1 h2 (approve E a rp user) (approve E a rp user) w1 w2 := by
  refine .inl ⟨E.approve w1.asks a rp user, _,
    { w2 with asks := w2.asks ++ [⟨a, rp, user, E.approve w1.asks a rp user⟩] }, rfl, ?_, ?_⟩
  · unfold approve; rw [h.asks]
  · exact ⟨h.client, h.rnd, by dsimp only; rw [h.asks], h.store⟩

theorem export_texts {v : List Source} {l : List SavedSource} (ht : Texts v)
    (h : Vault.exportSources v = .ok l) : ∀ x ∈ l, x.Utf8 := by
  induction v generalizing l with
  | nil => cases h; intro x hx; cases hx
  | cons s v ih =>
    unfold Vault.exportSources at h
    cases hk : Cose.marshalPrivate s.key with
    | panic e => rw [hk] at h; cases h
    | ok k =>
      rw [hk, Res.bind_ok] at h
      cases hrp : s.rp with
      | none => rw [hrp] at h; cases h
      | some rp =>
        cases hus : s.user with
        | none => rw [hrp, hus] at h; cases h
        | some u =>
          rw [hrp, hus] at h
          dsimp only at h
          cases he : Vault.exportSources v with
          | panic e => rw [he] at h; cases h
          | ok t =>
            rw [he, Res.bind_ok] at h
            cases h
            obtain ⟨t1, t2, t3⟩ := ht s (List.mem_cons_self ..)
            intro x hx
            rcases List.mem_cons.1 hx with rfl | hx
            · exact ⟨t1, (t2 rp hrp).1, (t2 rp hrp).2, (t3 u hus).1, (t3 u hus).2⟩
            · exact ih (fun y hy => ht y (List.mem_cons_of_mem _ hy)) he x hx

theorem norm_set {st : SavedState} (h : IsSet st.pinHash) : st.norm = st := by
  obtain ⟨b, hb, hne⟩ := h
  unfold SavedState.norm
  rw [if_neg (by rw [hb]; simpa using hne)]

/-- Saving makes the saved data differ in the PIN only. -/
theorem save_twin (L : Laws E) (h : TwinClient h1 h2 w1.client w2.client) (hr : w2.rnd = w1.rnd)
    (ha : w2.asks = w1.asks) :
    Twice (Twin E h1 h2) (fun v1 v2 => v1 = w1 ∧ v2 = w2) (saveData E) (saveData E) w1 w2 := by
  have hc : ∀ st, exportState w1.client = .ok st →
      exportState w2.client = .ok { st with pinHash := w2.client.pinHash } ∧ st.pinHash = w1.client.pinHash ∧
        st.Utf8 := by
    intro st hs
    rw [h.rest]
    unfold exportState at hs ⊢
    dsimp only
    cases hk : Cose.marshalPrivate w1.client.certKey with
    | panic e => rw [hk] at hs; cases hs
    | ok k =>
      rw [hk, Res.bind_ok] at hs
      rw [Res.bind_ok]
      cases he : Vault.exportSources w1.client.vault with
      | panic e => rw [he] at hs; cases hs
      | ok l =>
        rw [he, Res.bind_ok] at hs
        rw [Res.bind_ok]
        cases hs
        exact ⟨rfl, rfl, export_texts h.texts he⟩
  have hp : ∀ c, exportState w1.client = .panic c → ∃ c', exportState w2.client = .panic c' := by
    intro c hs
    rw [h.rest]
    unfold exportState at hs ⊢
    dsimp only
    cases hk : Cose.marshalPrivate w1.client.certKey with
    | panic e => exact ⟨e, rfl⟩
    | ok k =>
      rw [hk, Res.bind_ok] at hs
      rw [Res.bind_ok]
      cases he : Vault.exportSources w1.client.vault with
      | panic e => exact ⟨e, rfl⟩
      | ok l => rw [he, Res.bind_ok] at hs; cases hs
  cases hs : exportState w1.client with
  | panic c =>
    obtain ⟨c', hs'⟩ := hp c hs
    exact .inr ⟨c, c', w1, w2, by unfold saveData; rw [hs], by unfold saveData; rw [hs'], rfl, rfl⟩
  | ok st =>
    obtain ⟨e2, e1, hu⟩ := hc st hs
    have i1 : IsSet st.pinHash := by rw [e1]; exact h.pin.1
    have i2 : IsSet ({ st with pinHash := w2.client.pinHash } : SavedState).pinHash := h.pin.2.1
    obtain ⟨b1, f1, d1⟩ := Saved.decryptState_encryptState L st hu E.passphrase w1.rnd
    obtain ⟨b2, f2, d2⟩ := Saved.decryptState_encryptState L { st with pinHash := w2.client.pinHash } hu
      E.passphrase w2.rnd
    rw [norm_set i1] at d1
    rw [norm_set i2] at d2
    exact .inl ⟨(), { w1 with store := some b1, rnd := w1.rnd + 4 }, { w2 with store := some b2, rnd := w2.rnd + 4 },
      by unfold saveData; rw [hs]; dsimp only; rw [f1], by unfold saveData; rw [e2]; dsimp only; rw [f2],
      ⟨h, by dsimp only; rw [hr], ha, b1, b2, st, _, rfl, rfl, d1, d2, rfl,
        by dsimp only; rw [e1]; exact h.pin, hu⟩⟩

theorem t_save (L : Laws E) (h : Twin E h1 h2 w1 w2) : T E h1 h2 (saveData E) (saveData E) w1 w2 := by
  rcases save_twin L h.client h.rnd h.asks with ⟨a, v1, v2, e1, e2, hv⟩ | ⟨c, c', v1, v2, e1, e2, rfl, rfl⟩
  · exact .inl ⟨a, v1, v2, e1, e2, hv⟩
  · exact .inr ⟨c, c', v1, v2, e1, e2, h.dead⟩

/-! ### The parts of the client that both have -/

theorem TwinClient.vault {c1 c2 : Client} (h : TwinClient h1 h2 c1 c2) : c2.vault = c1.vault := by rw [h.rest]
theorem TwinClient.pinEnabled {c1 c2 : Client} (h : TwinClient h1 h2 c1 c2) : c2.pinEnabled = c1.pinEnabled := by
  rw [h.rest]
theorem TwinClient.pinToken {c1 c2 : Client} (h : TwinClient h1 h2 c1 c2) : c2.pinToken = c1.pinToken := by rw [h.rest]
theorem TwinClient.pinRetries {c1 c2 : Client} (h : TwinClient h1 h2 c1 c2) : c2.pinRetries = c1.pinRetries := by
  rw [h.rest]
theorem TwinClient.keyAgreement {c1 c2 : Client} (h : TwinClient h1 h2 c1 c2) : c2.keyAgreement = c1.keyAgreement := by
  rw [h.rest]
theorem TwinClient.cert {c1 c2 : Client} (h : TwinClient h1 h2 c1 c2) : c2.cert = c1.cert := by rw [h.rest]
theorem TwinClient.certKey {c1 c2 : Client} (h : TwinClient h1 h2 c1 c2) : c2.certKey = c1.certKey := by rw [h.rest]
theorem TwinClient.deviceKey {c1 c2 : Client} (h : TwinClient h1 h2 c1 c2) : c2.deviceKey = c1.deviceKey := by rw [h.rest]
theorem TwinClient.authCounter {c1 c2 : Client} (h : TwinClient h1 h2 c1 c2) : c2.authCounter = c1.authCounter := by
  rw [h.rest]
theorem TwinClient.isSome {c1 c2 : Client} (h : TwinClient h1 h2 c1 c2) :
    c1.pinHash.isSome = true ∧ c2.pinHash.isSome = true := by
  obtain ⟨⟨a, ha, -⟩, ⟨b, hb, -⟩, -⟩ := h.pin
  rw [ha, hb]
  exact ⟨rfl, rfl⟩

theorem t_retries (h : Twin E h1 h2 w1 w2) : T E h1 h2 getPINRetries getPINRetries w1 w2 := by
  unfold getPINRetries
  refine .get ?_
  rw [h.client.pinRetries]
  split
  · exact t_pure h _
  · exact t_throw h _

theorem t_setRetries (h : Twin E h1 h2 w1 w2) (n : Int) : T E h1 h2 (setPINRetries n) (setPINRetries n) w1 w2 := by
  refine t_update h ⟨?_, h.client.pin, h.client.texts⟩
  dsimp only
  rw [h.client.rest]

theorem t_certificate (h : Twin E h1 h2 w1 w2) (k : PrivKey) : T E h1 h2 (createCertificate E k) (createCertificate E k) w1 w2 := by
  unfold createCertificate
  refine (t_draw h).bind fun n v1 v2 hv => .get ?_
  rw [hv.client.cert, hv.client.certKey]
  refine (t_lift hv _).bind fun c u1 u2 hu => ?_
  cases c with
  | none => exact t_throw hu _
  | some c => exact t_pure hu _

theorem t_sign (h : Twin E h1 h2 w1 w2) (k : PrivKey) (data : Bytes) : T E h1 h2 (signWith E k data) (signWith E k data) w1 w2 := by
  unfold signWith
  exact (t_draw h).bind fun n v1 v2 hv => t_lift hv _

theorem TwinClient.set {c1 c2 : Client} (h : TwinClient h1 h2 c1 c2) {f : Client → Client}
    (hf : f { c1 with pinHash := c2.pinHash } = { f c1 with pinHash := c2.pinHash })
    (hp : (f c1).pinHash = c1.pinHash) (ht : Texts (f c1).vault) : TwinClient h1 h2 (f c1) (f c2) := by
  have e : f c2 = { f c1 with pinHash := c2.pinHash } := by rw [← hf, ← h.rest]
  exact ⟨by rw [e], by rw [hp, e]; exact h.pin, ht⟩

theorem Texts.bump {v : List Source} (h : Texts v) (i : Nat) : Texts (bump v i) := by
  intro s hs
  unfold Client.bump at hs
  obtain ⟨j, hj, e⟩ := List.mem_iff_getElem.1 hs
  rw [List.getElem_modify] at e
  rw [List.length_modify] at hj
  split at e
  · have := h v[j] (List.getElem_mem hj)
    rw [← e]
    exact this
  · rw [← e]
    exact h v[j] (List.getElem_mem hj)

theorem t_new (L : Laws E) (h : Twin E h1 h2 w1 w2) (params : List CredParam) (ex : List Descriptor)
    (rp : Option RPEntity) (user : Option UserEntity) (hrp : ∀ r ∈ rp, utf8 r.id ∧ utf8 r.name)
    (hus : ∀ u ∈ user, utf8 u.displayName ∧ utf8 u.name) :
    T E h1 h2 (newCredentialSource E params ex rp user) (newCredentialSource E params ex rp user) w1 w2 := by
  unfold newCredentialSource
  split
  · exact t_pure h _
  · refine (t_draw h).bind fun n _ _ h => (t_draw h).bind fun _ _ _ h => ?_
    refine (t_update h (h.client.set rfl rfl ?_)).bind fun _ _ _ h => (t_save L h).bind fun _ _ _ h => t_pure h _
    intro s hs
    rcases List.mem_append.1 hs with hs | hs
    · exact h.client.texts s hs
    · rw [List.mem_singleton.1 hs]
      exact ⟨Ctap.utf8_publicKey, fun r e => hrp r e, fun u e => hus u e⟩

theorem t_source (L : Laws E) (h : Twin E h1 h2 w1 w2) (rp : Bytes) (al : Option (List Descriptor)) :
    T E h1 h2 (getAssertionSource E rp al) (getAssertionSource E rp al) w1 w2 := by
  unfold getAssertionSource
  refine .get ?_
  rw [h.client.vault]
  refine (t_lift h _).bind fun m _ _ h => ?_
  cases m with
  | nil => exact t_pure h _
  | cons i m =>
    refine (t_update h (h.client.set rfl rfl (h.client.texts.bump i))).bind fun _ _ _ h =>
      (t_save L h).bind fun _ _ _ h => .get ?_
    rw [h.client.vault]
    exact t_pure h _

theorem t_login (h : Twin E h1 h2 w1 w2) (s : Source) :
    T E h1 h2 (approveAccountLogin E s) (approveAccountLogin E s) w1 w2 := by
  unfold approveAccountLogin
  split
  · exact t_approve h _ _ _
  · exact t_throw h _

theorem t_counter (h : Twin E h1 h2 w1 w2) : T E h1 h2 newAuthCounter newAuthCounter w1 w2 := by
  unfold newAuthCounter
  refine .get ?_
  rw [h.client.authCounter]
  exact (t_update h (h.client.set rfl rfl h.client.texts)).bind fun _ _ _ h => t_pure h _

open Ctap

theorem makePIN_same {c1 c2 : Client} (h : TwinClient h1 h2 c1 c2) (args : MakeCredArgs) :
    makeCredentialPIN E c2 args = makeCredentialPIN E c1 args := by
  unfold makeCredentialPIN
  rw [h.pinEnabled, h.pinToken, h.isSome.1, h.isSome.2]

theorem getPIN_same {c1 c2 : Client} (h : TwinClient h1 h2 c1 c2) (args : GetAssertionArgs) :
    getAssertionPIN E c2 args = getAssertionPIN E c1 args := by
  unfold getAssertionPIN
  rw [h.pinEnabled, h.pinToken]

theorem t_make (L : Laws E) (h : Twin E h1 h2 w1 w2) (data : Bytes) :
    T E h1 h2 (handleMakeCredential E data) (handleMakeCredential E data) w1 w2 := by
  unfold handleMakeCredential
  cases hd : E.decodeMakeCred data with
  | none => exact t_throw h _
  | some args =>
    dsimp only
    split
    · exact t_pure h _
    refine .get ?_
    rw [makePIN_same h.client]
    split
    · exact t_pure h _
    split
    · exact t_throw h _
    refine (t_approve h _ _ _).bind fun ok _ _ h => ?_
    split
    · exact t_pure h _
    refine (t_new L h _ _ _ _ (L.makeCred_utf8 _ _ hd).1 (L.makeCred_utf8 _ _ hd).2).bind fun s _ _ h => ?_
    split
    · exact t_pure h _
    refine (t_lift h _).bind fun _ _ _ h => ?_
    exact (t_certificate h _).bind fun _ _ _ h => (t_sign h _ _).bind fun _ _ _ h => t_pure h _

theorem t_finish (h : Twin E h1 h2 w1 w2) (args : GetAssertionArgs) (s : Source) (f : UInt8) :
    T E h1 h2 (finishAssertion E args s f) (finishAssertion E args s f) w1 w2 := by
  unfold finishAssertion
  exact (t_sign h _ _).bind fun _ _ _ h => t_pure h _

theorem t_assertion (L : Laws E) (h : Twin E h1 h2 w1 w2) (data : Bytes) :
    T E h1 h2 (handleGetAssertion E data) (handleGetAssertion E data) w1 w2 := by
  unfold handleGetAssertion
  split
  · exact t_pure h _
  refine .get ?_
  rw [getPIN_same h.client]
  split
  · exact t_pure h _
  refine (t_source L h _ _).bind fun s _ _ h => ?_
  split
  · exact t_pure h _
  split
  · exact t_finish h _ _ _
  refine (t_login h _).bind fun ok _ _ h => ?_
  split
  · exact t_pure h _
  · exact t_finish h _ _ _

theorem t_info (h : Twin E h1 h2 w1 w2) : T E h1 h2 handleGetInfo handleGetInfo w1 w2 := by
  unfold handleGetInfo
  refine .get ?_
  rw [h.client.pinEnabled, h.client.isSome.1, h.client.isSome.2]
  exact t_pure h _

theorem t_setHash (L : Laws E) (h : Twin E h1 h2 w1 w2) {x : Bytes} (hx : x ≠ []) :
    T E h1 h2 (setPINHash E (some x)) (setPINHash E (some x)) w1 w2 := by
  unfold setPINHash
  refine (t_update h ⟨?_, ⟨⟨x, rfl, hx⟩, ⟨x, rfl, hx⟩, .inl rfl⟩, h.client.texts⟩).bind fun _ _ _ h => t_save L h
  dsimp only
  rw [h.client.rest]

theorem hash_ne (L : Laws E) (pin : Bytes) : (E.sha256 pin).take 16 ≠ [] := by
  intro e
  have := congrArg List.length e
  rw [List.length_take, L.sha256_length] at this
  cases this

theorem secret_same {c1 c2 : Client} (h : TwinClient h1 h2 c1 c2) (k : EC2Key) :
    sharedSecret E c2 k = sharedSecret E c1 k := by
  unfold sharedSecret
  rw [h.keyAgreement]

/-- The request does not present `h1` or `h2`. -/
def Blind (E : Env) (h1 h2 : Bytes) (c : Client) (args : ClientPINArgs) : Prop :=
  ∀ key secret, args.keyAgreement = some key → Secret E c key secret →
    E.cbcDecrypt secret (args.pinHashEnc.getD []) ≠ h1 ∧ E.cbcDecrypt secret (args.pinHashEnc.getD []) ≠ h2

/-- What is decrypted is compared with the same result. -/
theorem compare_same {c1 c2 : Client} (h : TwinClient h1 h2 c1 c2) {x : Bytes} (n1 : x ≠ h1) (n2 : x ≠ h2) :
    (x = c2.pinHash.getD []) = (x = c1.pinHash.getD []) := by
  rcases h.pin.2.2 with e | ⟨e1, e2⟩
  · rw [e]
  · rw [e1, e2]
    simp only [Option.getD_some, n1, n2]

theorem t_retries_bind (h : Twin E h1 h2 w1 w2) {f : Int → Go World β}
    (hf : ∀ n, T E h1 h2 (f n) (f n) w1 w2) : T E h1 h2 (getPINRetries >>= f) (getPINRetries >>= f) w1 w2 := by
  have e : ∀ w : World, (0 < w.client.pinRetries ∧ w.client.pinRetries ≤ 8 →
      getPINRetries w = (.ok w.client.pinRetries, w)) ∧
      (¬ (0 < w.client.pinRetries ∧ w.client.pinRetries ≤ 8) → getPINRetries w = (.panic .explicit, w)) := by
    intro w
    refine ⟨fun hc => ?_, fun hc => ?_⟩ <;> unfold getPINRetries <;> rw [get_bind_run]
    · rw [if_pos hc]; rfl
    · rw [if_neg hc]; rfl
  by_cases hc : 0 < w1.client.pinRetries ∧ w1.client.pinRetries ≤ 8
  · have e1 := (e w1).1 hc
    have e2 := (e w2).1 (by rw [h.client.pinRetries]; exact hc)
    rw [h.client.pinRetries] at e2
    have := hf w1.client.pinRetries
    unfold T Twice at this ⊢
    rwa [run_bind_ok e1, run_bind_ok e2]
  · exact .inr ⟨_, _, w1, w2, run_bind_panic ((e w1).2 hc),
      run_bind_panic ((e w2).2 (by rw [h.client.pinRetries]; exact hc)), h.dead⟩

theorem t_lift_bind (h : Twin E h1 h2 w1 w2) {r : Res α} {f : α → Go World β}
    (hf : ∀ a, r = .ok a → T E h1 h2 (f a) (f a) w1 w2) : T E h1 h2 (Go.lift r >>= f) (Go.lift r >>= f) w1 w2 := by
  cases r with
  | ok a => exact hf a rfl
  | panic c => exact .inr ⟨c, c, w1, w2, rfl, rfl, h.dead⟩

theorem t_setPIN (h : Twin E h1 h2 w1 w2) (args : ClientPINArgs) :
    T E h1 h2 (handleSetPIN E args) (handleSetPIN E args) w1 w2 := by
  unfold handleSetPIN
  refine .get ?_
  rw [h.client.isSome.1, h.client.isSome.2]
  exact t_pure h _

theorem t_change (L : Laws E) (h : Twin E h1 h2 w1 w2) (args : ClientPINArgs) (hb : Blind E h1 h2 w1.client args) :
    T E h1 h2 (handleChangePIN E args) (handleChangePIN E args) w1 w2 := by
  unfold handleChangePIN
  cases hk : args.keyAgreement with
  | none => exact t_pure h _
  | some key =>
    cases args.pinAuth with
    | none => exact t_pure h _
    | some auth =>
      refine t_retries_bind h fun n => ?_
      split
      · exact t_pure h _
      refine .get ?_
      rw [secret_same h.client]
      refine t_lift_bind h fun secret hs => ?_
      split
      · exact t_pure h _
      refine t_retries_bind h fun n => (t_setRetries h _).bind fun _ v1 v2 h => t_lift_bind h fun x hx => .get ?_
      obtain ⟨n1, n2⟩ := hb key secret hk (sharedSecret_ok hs)
      rw [← (decryptAESCBC_ok hx).1] at n1 n2
      have ec : (v2.client.pinHash.getD [] ≠ x) = (v1.client.pinHash.getD [] ≠ x) := by
        rw [ne_comm, ne_comm (a := v1.client.pinHash.getD [])]
        exact congrArg Not (compare_same h.client n1 n2)
      by_cases hc : v1.client.pinHash.getD [] ≠ x
      · rw [if_pos hc, if_pos (by rw [ec]; exact hc)]
        exact t_pure h _
      · rw [if_neg hc, if_neg (by rw [ec]; exact hc)]
        refine (t_setRetries h _).bind fun _ _ _ h => t_lift_bind h fun pin _ => ?_
        split
        · exact t_pure h _
        · exact (t_setHash L h (hash_ne L _)).bind fun _ _ _ h => t_pure h _

theorem t_token (h : Twin E h1 h2 w1 w2) (args : ClientPINArgs) (hb : Blind E h1 h2 w1.client args) :
    T E h1 h2 (handleGetPINToken E args) (handleGetPINToken E args) w1 w2 := by
  unfold handleGetPINToken
  cases he : args.pinHashEnc with
  | none => exact t_pure h _
  | some enc =>
    cases hk : args.keyAgreement with
    | none => exact t_throw h _
    | some key =>
      dsimp only
      split
      · exact t_pure h _
      refine t_retries_bind h fun n => ?_
      split
      · exact t_pure h _
      refine .get ?_
      rw [secret_same h.client]
      refine t_lift_bind h fun secret hs => t_retries_bind h fun n =>
        (t_setRetries h _).bind fun _ v1 v2 h => t_lift_bind h fun x hx => .get ?_
      obtain ⟨n1, n2⟩ := hb key secret hk (sharedSecret_ok hs)
      rw [he, Option.getD_some, ← (decryptAESCBC_ok hx).1] at n1 n2
      have ec : (x ≠ v2.client.pinHash.getD []) = (x ≠ v1.client.pinHash.getD []) :=
        congrArg Not (compare_same h.client n1 n2)
      by_cases hc : x ≠ v1.client.pinHash.getD []
      · rw [if_pos hc, if_pos (by rw [ec]; exact hc)]
        exact t_pure h _
      · rw [if_neg hc, if_neg (by rw [ec]; exact hc), h.client.pinToken]
        exact (t_setRetries h _).bind fun _ _ _ h => t_lift_bind h fun _ _ => t_pure h _

theorem t_pin (L : Laws E) (h : Twin E h1 h2 w1 w2) (data : Bytes)
    (hb : ∀ args, E.decodeClientPIN data = some args → args.subCommand = 4 ∨ args.subCommand = 5 →
      Blind E h1 h2 w1.client args) :
    T E h1 h2 (handleClientPIN E data) (handleClientPIN E data) w1 w2 := by
  unfold handleClientPIN
  refine .get ?_
  rw [h.client.pinEnabled]
  split
  · exact t_pure h _
  cases hd : E.decodeClientPIN data with
  | none => exact t_pure h _
  | some args =>
    dsimp only
    split
    · exact t_pure h _
    split
    · exact (t_retries h).bind fun _ _ _ h => t_pure h _
    split
    · unfold handleGetKeyAgreement
      refine .get ?_
      rw [h.client.keyAgreement]
      exact t_pure h _
    split
    · exact t_setPIN h args
    split
    · rename_i hs
      exact t_change L h args (hb args hd (.inl hs))
    split
    · rename_i hs
      exact t_token h args (hb args hd (.inr hs))
    · exact t_pure h _

theorem t_ctap (L : Laws E) (h : Twin E h1 h2 w1 w2) (m : Bytes)
    (hb : ∀ data args, m = 0x06 :: data → E.decodeClientPIN data = some args →
      args.subCommand = 4 ∨ args.subCommand = 5 → Blind E h1 h2 w1.client args) :
    T E h1 h2 (Ctap.handleMessage E m) (Ctap.handleMessage E m) w1 w2 := by
  unfold Ctap.handleMessage
  cases m with
  | nil => exact t_throw h _
  | cons c data =>
    dsimp only
    split
    · exact t_make L h data
    split
    · exact t_info h
    split
    · exact t_assertion L h data
    split
    · rename_i hc
      exact t_pin L h data fun args => hb data args (by rw [hc])
    · exact t_throw h _

/-! ### U2F -/

theorem t_seal (h : Twin E h1 h2 w1 w2) (k : KeyHandle) :
    T E h1 h2 (U2f.sealKeyHandle E k) (U2f.sealKeyHandle E k) w1 w2 := by
  unfold U2f.sealKeyHandle
  refine .get ?_
  rw [h.client.deviceKey]
  exact (t_draw h).bind fun n _ _ h => t_lift_bind h fun _ _ => t_pure h _

theorem t_register (h : Twin E h1 h2 w1 w2) (r : Bytes) :
    T E h1 h2 (U2f.handleRegister E r) (U2f.handleRegister E r) w1 w2 := by
  unfold U2f.handleRegister
  split
  · exact t_throw h _
  dsimp only
  split
  · exact t_throw h _
  unfold newPrivateKey
  refine ((t_draw h).bind fun _ _ _ h => t_pure h _).bind fun key _ _ h => (t_seal h _).bind fun kh _ _ h =>
    (t_approve h _ _ _).bind fun ok _ _ h => ?_
  split
  · exact t_pure h _
  · exact (t_certificate h _).bind fun _ _ _ h => (t_sign h _ _).bind fun _ _ _ h => t_pure h _

theorem t_finishU2F (h : Twin E h1 h2 w1 w2) (k : ECPriv) (a c : Bytes) :
    T E h1 h2 (U2f.finishAuthenticate E k a c) (U2f.finishAuthenticate E k a c) w1 w2 := by
  unfold U2f.finishAuthenticate
  exact (t_counter h).bind fun _ _ _ h => (t_sign h _ _).bind fun _ _ _ h => t_pure h _

theorem open_same {c1 c2 : Client} (h : TwinClient h1 h2 c1 c2) (b : Bytes) :
    U2f.openKeyHandle E c2 b = U2f.openKeyHandle E c1 b := by
  unfold U2f.openKeyHandle
  rw [h.deviceKey]

theorem t_authenticate (h : Twin E h1 h2 w1 w2) (c : UInt8) (r : Bytes) :
    T E h1 h2 (U2f.handleAuthenticate E c r) (U2f.handleAuthenticate E c r) w1 w2 := by
  unfold U2f.handleAuthenticate
  refine t_lift_bind h fun a _ => ?_
  obtain ⟨ch, app, hd⟩ := a
  refine .get ?_
  rw [open_same h.client]
  refine t_lift_bind h fun o _ => ?_
  split
  · exact t_pure h _
  split
  · exact t_pure h _
  split
  · exact t_pure h _
  split
  · exact t_throw h _
  split
  · exact t_pure h _
  split
  · refine (t_approve h _ _ _).bind fun ok _ _ h => ?_
    split
    · exact t_pure h _
    · exact t_finishU2F h _ _ _
  split
  · exact t_finishU2F h _ _ _
  · exact t_pure h _

theorem t_u2f (h : Twin E h1 h2 w1 w2) (m : Bytes) :
    T E h1 h2 (U2f.handleMessage E m) (U2f.handleMessage E m) w1 w2 := by
  unfold U2f.handleMessage
  refine t_lift_bind h fun a _ => ?_
  obtain ⟨hd, r, n⟩ := a
  dsimp only
  split
  · exact t_pure h _
  split
  · exact t_register h _
  split
  · exact t_authenticate h _ _
  · exact t_throw h _

/-! ### The whole device -/

theorem Texts.delete {v : List Source} (h : Texts v) (id : Bytes) : Texts (Vault.deleteIdentity v id).1 := by
  unfold Vault.deleteIdentity
  split
  · rename_i i last _ hl
    intro s hs
    have hs' : s ∈ v.set i last := List.dropLast_subset _ hs
    rcases List.mem_or_eq_of_mem_set hs' with hs | rfl
    · exact h s hs
    · exact h _ (List.mem_of_getLast? hl)
  · exact h

theorem t_perform (L : Laws E) (h : Twin E h1 h2 w1 w2) (op : Op)
    (hb : ∀ data args, op = .ctap (0x06 :: data) → E.decodeClientPIN data = some args →
      args.subCommand = 4 ∨ args.subCommand = 5 → Blind E h1 h2 w1.client args) :
    T E h1 h2 (Device.perform E op) (Device.perform E op) w1 w2 := by
  cases op with
  | ctap m => exact (t_ctap L h m fun data args e => hb data args (by rw [e])).bind fun _ _ _ h => t_pure h _
  | u2f m => exact (t_u2f h m).bind fun _ _ _ h => t_pure h _
  | enablePIN =>
    exact ((t_update h (h.client.set rfl rfl h.client.texts)).bind fun _ _ _ h => t_save L h).bind
      fun _ _ _ h => t_pure h _
  | disablePIN =>
    exact ((t_update h (h.client.set rfl rfl h.client.texts)).bind fun _ _ _ h => t_save L h).bind
      fun _ _ _ h => t_pure h _
  | setPIN pin => exact (t_setHash L h (hash_ne L pin)).bind fun _ _ _ h => t_pure h _
  | deleteIdentity id =>
    refine Twice.bind ?_ fun _ _ _ h => t_pure h _
    unfold Client.deleteIdentity
    refine .get ?_
    rw [h.client.vault]
    refine (t_update h (f := fun c => { c with vault := (Vault.deleteIdentity w1.client.vault id).1 })
      (h.client.set (f := fun c => { c with vault := (Vault.deleteIdentity w1.client.vault id).1 }) rfl rfl
        (h.client.texts.delete id))).bind fun _ _ _ h => ?_
    split
    · exact (t_save L h).bind fun _ _ _ h => t_pure h _
    · exact t_pure h _
  | restart => exact t_pure h _

/-- Devices that differ in the PIN. -/
def TwinDevice (E : Env) (h1 h2 : Bytes) (d1 d2 : Device) : Prop :=
  d2.alive = d1.alive ∧ TwinDead E h1 h2 d1.world d2.world ∧
    (d1.alive = true → TwinClient h1 h2 d1.world.client d2.world.client)

theorem import_texts {l : List SavedSource} {v : List Source} {ok : Bool} (hu : ∀ x ∈ l, x.Utf8)
    (h : Vault.importSources E [] l = .ok (v, ok)) : Texts v := by
  have loop : ∀ (l : List SavedSource) (s0 : SavedSource) (r : List (SavedSource × PrivKey)) (last : SavedSource)
      (ok : Bool), s0.Utf8 → (∀ x ∈ l, x.Utf8) → Vault.importLoop E s0 l = .ok (r, last, ok) →
      last.Utf8 ∧ ∀ x ∈ r, x.1.Utf8 := by
    intro l
    induction l with
    | nil => intro s0 r last ok h0 _ h; cases h; exact ⟨h0, fun x hx => (nomatch hx)⟩
    | cons s l ih =>
      intro s0 r last ok h0 hl h
      have hs := hl s (List.mem_cons_self ..)
      unfold Vault.importLoop at h
      cases hk : Vault.importKey E s.key with
      | panic c => rw [hk] at h; cases h
      | ok k =>
        rw [hk, Res.bind_ok] at h
        cases k with
        | none => cases h; exact ⟨hs, fun x hx => (nomatch hx)⟩
        | some k =>
          dsimp only at h
          cases hr : Vault.importLoop E s l with
          | panic c => rw [hr] at h; cases h
          | ok q =>
            obtain ⟨r', last', ok'⟩ := q
            rw [hr, Res.bind_ok] at h
            cases h
            obtain ⟨i1, i2⟩ := ih s r' _ _ hs (fun x hx => hl x (List.mem_cons_of_mem _ hx)) hr
            refine ⟨i1, fun x hx => ?_⟩
            rcases List.mem_cons.1 hx with rfl | hx
            · exact hs
            · exact i2 x hx
  unfold Vault.importSources at h
  cases l with
  | nil => cases h; intro s hs; cases hs
  | cons s0 l =>
    dsimp only at h
    cases hr : Vault.importLoop E s0 (s0 :: l) with
    | panic c => rw [hr] at h; cases h
    | ok q =>
      obtain ⟨r, last, ok'⟩ := q
      rw [hr, Res.bind_ok] at h
      cases h
      obtain ⟨i1, i2⟩ := loop _ _ _ _ _ (hu s0 (List.mem_cons_self ..)) hu hr
      intro s hs
      obtain ⟨x, hx, rfl⟩ := List.mem_map.1 hs
      refine ⟨(i2 x hx).1, ?_, ?_⟩
      · intro rp e; cases e; exact ⟨i1.2.1, i1.2.2.1⟩
      · intro u e; cases e; exact ⟨i1.2.2.2.1, i1.2.2.2.2⟩

theorem twin_start {cfg : Config} {s1 s2 : Option Bytes} (h : TwinStore E h1 h2 s1 s2) (rnd : Nat) :
    (∃ c1 c2, start E cfg s1 rnd = .ok c1 ∧ start E cfg s2 rnd = .ok c2 ∧ TwinClient h1 h2 c1 c2) ∨
    (∃ p1 p2, start E cfg s1 rnd = .panic p1 ∧ start E cfg s2 rnd = .panic p2) := by
  obtain ⟨b1, b2, st1, st2, rfl, rfl, e1, e2, e3, hp, hu⟩ := h
  unfold start importData
  dsimp only
  rw [e1, e2, Res.bind_ok, Res.bind_ok]
  dsimp only
  have x1 : st2.cert = st1.cert := by rw [e3]
  have x2 : st2.certKey = st1.certKey := by rw [e3]
  have x3 : st2.sources = st1.sources := by rw [e3]
  have x4 : st2.encryptionKey = st1.encryptionKey := by rw [e3]
  have x5 : st2.authCounter = st1.authCounter := by rw [e3]
  have x6 : st2.pinEnabled = st1.pinEnabled := by rw [e3]
  rw [x1, x2, x3, x4, x5, x6]
  by_cases hc : E.parseCert st1.cert = false
  · rw [if_pos hc, if_pos hc]
    exact .inr ⟨_, _, rfl, rfl⟩
  · rw [if_neg hc, if_neg hc]
    cases hk : Vault.importKey E st1.certKey with
    | panic c => exact .inr ⟨_, _, rfl, rfl⟩
    | ok k =>
      rw [Res.bind_ok, Res.bind_ok]
      cases k with
      | none => exact .inr ⟨_, _, rfl, rfl⟩
      | some k =>
        dsimp only
        cases hv : Vault.importSources E [] st1.sources with
        | panic c => exact .inr ⟨_, _, rfl, rfl⟩
        | ok v =>
          exact .inl ⟨_, _, rfl, rfl, rfl, hp, import_texts (ok := v.2) hu hv⟩

theorem twin_step (L : Laws E) {cfg : Config} {d1 d2 : Device} (h : TwinDevice E h1 h2 d1 d2) (op : Op)
    (hb : d1.alive = true → ∀ x, Presents E d1.world.client op x → x ≠ h1 ∧ x ≠ h2) :
    (Device.step E cfg d2 op).1 = (Device.step E cfg d1 op).1 ∧
    TwinDevice E h1 h2 (Device.step E cfg d1 op).2 (Device.step E cfg d2 op).2 := by
  obtain ⟨ha, hd, hc⟩ := h
  cases hr : Spec.History.isRestart op with
  | true =>
    cases op with
    | restart =>
      simp only [Device.step, hd.rnd]
      rcases twin_start (cfg := cfg) hd.store d1.world.rnd with ⟨c1, c2, e1, e2, ht⟩ | ⟨p1, p2, e1, e2⟩
      · rw [e1, e2]
        exact ⟨rfl, rfl, ⟨rfl, hd.asks, hd.store⟩, fun _ => ht⟩
      · rw [e1, e2]
        exact ⟨rfl, rfl, ⟨rfl, hd.asks, hd.store⟩, fun h => (nomatch h)⟩
    | _ => cases hr
  | false =>
    cases a1 : d1.alive with
    | false =>
      rw [Device.step_dead hr a1, Device.step_dead hr (ha.trans a1)]
      exact ⟨rfl, ha, hd, fun h => by rw [a1] at h; cases h⟩
    | true =>
      have hw : Twin E h1 h2 d1.world d2.world := ⟨hc a1, hd.rnd, hd.asks, hd.store⟩
      rw [Device.step_live hr a1, Device.step_live hr (ha.trans a1)]
      have := t_perform L hw op fun data args e1 e2 e3 key secret e4 e5 =>
        hb a1 _ ⟨data, args, key, secret, e1, e2, e3, e4, e5, rfl⟩
      rcases this with ⟨r, v1, v2, q1, q2, hv⟩ | ⟨c, c', v1, v2, q1, q2, hv⟩
      · rw [q1, q2]
        exact ⟨rfl, rfl, hv.dead, fun _ => hv.client⟩
      · rw [q1, q2]
        exact ⟨rfl, rfl, hv, fun h => (nomatch h)⟩

theorem twin_run (L : Laws E) {cfg : Config} (ops : List Op) {d1 d2 : Device} (h : TwinDevice E h1 h2 d1 d2)
    (hb : ∀ before op rest, ops = before ++ op :: rest → (Device.after E cfg d1 before).alive = true →
      ∀ x, Presents E (Device.after E cfg d1 before).world.client op x → x ≠ h1 ∧ x ≠ h2) :
    (Device.run E cfg d2 ops).1 = (Device.run E cfg d1 ops).1 ∧
    TwinDevice E h1 h2 (Device.after E cfg d1 ops) (Device.after E cfg d2 ops) := by
  induction ops generalizing d1 d2 with
  | nil => exact ⟨rfl, h⟩
  | cons op ops ih =>
    obtain ⟨e, h'⟩ := twin_step (cfg := cfg) L h op (hb [] op ops rfl)
    obtain ⟨e', h''⟩ := ih h' fun before op' rest q => hb (op :: before) op' rest (by rw [q]; rfl)
    refine ⟨?_, h''⟩
    rw [Device.run_cons, Device.run_cons, e, e']

end VF.Fido.Secrecy
