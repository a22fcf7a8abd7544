import Verif.Model.Device
import Verif.Proofs.U2fCases
import Verif.Proofs.ClientPINCases
import Verif.Proofs.Progress
import Verif.Spec.History

/-!
# What one operation does to memory and to saved data
-/

namespace VF.Fido.Device

open VF.Spec.Client VF.Spec.Vault VF.Spec.History Client Ctap

/-- The parts of the client that are saved are the same, except for the U2F counter. -/
def SameSaved (c d : Client) : Prop :=
  c.deviceKey = d.deviceKey ∧ c.cert = d.cert ∧ c.certKey = d.certKey ∧
  c.pinEnabled = d.pinEnabled ∧ c.pinHash = d.pinHash ∧ c.vault = d.vault

theorem SameSaved.refl (c : Client) : SameSaved c c := ⟨rfl, rfl, rfl, rfl, rfl, rfl⟩

theorem SameSaved.same {c d : Client} (h : SameSaved c d) : SameDevice c d := by
  obtain ⟨h1, h2, h3, h4, h5, h6⟩ := h
  exact ⟨h1, h2, by rw [h3]; exact SamePrivate.refl _, h4, h5, by
    rw [h6]; exact SameCredentials.refl _⟩

theorem SameSaved.healthy {E : Env} {c d : Client} (h : SameSaved c d) (hh : Healthy E c) :
    Healthy E d := by
  obtain ⟨-, h2, h3, -, h5, h6⟩ := h
  unfold Healthy at *
  rw [← h2, ← h3, ← h5, ← h6]
  exact hh

/-- Sealing key and attestation are the same. -/
def SameKeys (c d : Client) : Prop := d.deviceKey = c.deviceKey ∧ d.cert = c.cert ∧ d.certKey = c.certKey

/-- How an operation may change the list of credentials. -/
inductive Change (E : Env) (op : Op) (rnd rnd' : Nat) (v v' : List Source) : Prop
  | same (h : v' = v)
  | added (rp : Option RPEntity) (user : Option UserEntity)
      (h : v' = v ++ [Vault.newIdentity E rp user rnd]) (hr : rnd + 2 ≤ rnd')
      (ho : isMakeCredential op = true)
  | used (i : Nat) (h : v' = bump v i) (hu : isGetAssertion op = true)
  | removed (s : Source) (h : v.Perm (s :: v')) (ho : op = .deleteIdentity s.id)

/-- Outcomes of an operation, as far as saved data are concerned. -/
inductive Out (E : Env) (op : Op) (w : World) (r : Res Reply) (w' : World) : Prop
  /-- saved data and the memory that is saved are unchanged -/
  | kept (hs : w'.store = w.store) (hc : SameSaved w.client w'.client)
  /-- saved data are what memory is -/
  | saved (blob : Bytes) (m n : Nat) (hs : w'.store = some blob)
      (hv : Saves E w'.client m blob n) (hh : Healthy E w.client → Healthy E w'.client)
      (hch : Change E op w.rnd w'.rnd w.client.vault w'.client.vault)
      (hk : SameKeys w.client w'.client) (hb : w.rnd ≤ m ∧ n ≤ w'.rnd)
  /-- a panic, saved data are unchanged -/
  | lost (c : Cause) (hr : r = .panic c) (hs : w'.store = w.store)

theorem saves_rnd {E : Env} (L : Laws E) {c : Client} {m n : Nat} {blob : Bytes}
    (h : Saves E c m blob n) : n = m + 4 := by
  obtain ⟨st, -, h⟩ := h
  unfold Saved.encryptState at h
  rw [Saved.encryptWithPassphrase_eq L] at h
  simp only [Option.some.injEq, Prod.mk.injEq] at h
  exact h.2.symm

theorem saves_user {E : Env} {c : Client} {m n : Nat} {blob : Bytes}
    (h : Saves E c m blob n) : ∀ s ∈ c.vault, s.user.isSome := by
  obtain ⟨st, h, -⟩ := h
  unfold exportState at h
  cases hk : Cose.marshalPrivate c.certKey with
  | panic e => rw [hk] at h; cases h
  | ok k =>
    rw [hk, Res.bind_ok] at h
    cases he : Vault.exportSources c.vault with
    | panic e => rw [he] at h; cases h
    | ok l => exact fun s hs => (Vault.exportSources_savable he s hs).2

/-- Enabling, disabling and setting the PIN, and deleting: update, then save. -/
theorem update_save (E : Env) (f : Client → Client) (w : World) :
    (∃ c, (do update f; saveData E : Go World Unit) w =
      (.panic c, { w with client := f w.client })) ∨
    (∃ blob n, Saves E (f w.client) w.rnd blob n ∧
      (do update f; saveData E : Go World Unit) w =
        (.ok (), { w with client := f w.client, store := some blob, rnd := n })) := by
  simp only [Go.run_bind, update, Go.modify]
  rcases saveData_cases E { w with client := f w.client } with ⟨c, h, -⟩ | ⟨blob, n, hs, h⟩
  · exact .inl ⟨c, h⟩
  · exact .inr ⟨blob, n, hs, h⟩

theorem out_update_save {E : Env} (L : Laws E) {op : Op} {f : Client → Client} {w : World}
    (reply : Unit → Reply)
    (hh : Healthy E w.client → Healthy E (f w.client))
    (hch : ∀ n, Change E op w.rnd n w.client.vault (f w.client).vault)
    (hk : SameKeys w.client (f w.client)) :
    w.rnd ≤ ((do update f; saveData E; pure (reply ()) : Go World Reply) w).2.rnd ∧
    Out E op w ((do update f; saveData E; pure (reply ()) : Go World Reply) w).1
      ((do update f; saveData E; pure (reply ()) : Go World Reply) w).2 := by
  simp only [Go.run_bind, update, Go.modify, Go.run_pure]
  rcases saveData_cases E { w with client := f w.client } with ⟨c, h, -⟩ | ⟨blob, n, hs, h⟩
  · simp only [h]
    exact ⟨Nat.le_refl _, .lost c rfl rfl⟩
  · simp only [h]
    have := saves_rnd L hs
    dsimp only at this
    exact ⟨by omega, .saved blob w.rnd n rfl hs hh (hch _) hk ⟨Nat.le_refl _, Nat.le_refl _⟩⟩

theorem perform_ctap (E : Env) (m : Bytes) (w : World) :
    perform E (.ctap m) w =
      (match Ctap.handleMessage E m w with
      | (.ok b, w') => (.ok (.answer b), w')
      | (.panic c, w') => (.panic c, w')) := by
  simp only [perform, Go.run_bind, Go.run_pure]
  rcases Ctap.handleMessage E m w with ⟨_ | _, _⟩ <;> rfl

theorem perform_u2f (E : Env) (m : Bytes) (w : World) :
    perform E (.u2f m) w =
      (match U2f.handleMessage E m w with
      | (.ok b, w') => (.ok (.answer b), w')
      | (.panic c, w') => (.panic c, w')) := by
  simp only [perform, Go.run_bind, Go.run_pure]
  rcases U2f.handleMessage E m w with ⟨_ | _, _⟩ <;> rfl

/-- Whether it panicked, without the answer. -/
def outcome (r : Res Bytes) : Res Reply :=
  match r with
  | .ok b => .ok (.answer b)
  | .panic c => .panic c

theorem perform_ctap' (E : Env) (m : Bytes) (w : World) :
    perform E (.ctap m) w =
      (outcome (Ctap.handleMessage E m w).1, (Ctap.handleMessage E m w).2) := by
  rw [perform_ctap]
  rcases Ctap.handleMessage E m w with ⟨_ | _, _⟩ <;> rfl

theorem perform_u2f' (E : Env) (m : Bytes) (w : World) :
    perform E (.u2f m) w = (outcome (U2f.handleMessage E m w).1, (U2f.handleMessage E m w).2) := by
  rw [perform_u2f]
  rcases U2f.handleMessage E m w with ⟨_ | _, _⟩ <;> rfl

theorem out_make {E : Env} (L : Laws E) {op : Op} {data : Bytes} {w w' : World} {r : Res Bytes}
    (ho : isMakeCredential op = true) (h : MakeCredOut E data w r w') :
    w.rnd ≤ w'.rnd ∧ Out E op w (outcome r) w' := by
  cases h with
  | nothing hw hr => subst hw; exact ⟨Nat.le_refl _, .kept rfl (.refl _)⟩
  | refused args rp flags hd hs hp hrp ha hr hw =>
    subst hw; exact ⟨Nat.le_refl _, .kept rfl (.refl _)⟩
  | unsaved args rp flags hd hs hp hrp ha hn c hr hw =>
    subst hw; subst hr
    exact ⟨by dsimp only; omega, .lost c rfl rfl⟩
  | saved args rp flags blob n m hd hs hp hrp ha hn hm hw hr =>
    subst hw
    have hnr := saves_rnd L hn
    refine ⟨by dsimp only; omega, .saved blob (w.rnd + 2) n rfl hn ?_
      (.added args.rp args.user rfl (by dsimp only; omega) ho) ⟨rfl, rfl, rfl⟩ ⟨by omega, hm.1⟩⟩
    intro hh
    have hu := saves_user hn (Vault.newIdentity E args.rp args.user w.rnd) (by simp)
    obtain ⟨u, hu⟩ := Option.isSome_iff_exists.1 hu
    exact healthy_append hh (newIdentity_complete L hd hrp hu w.rnd)

theorem out_get {E : Env} (L : Laws E) {op : Op} {data : Bytes} {w w' : World} {r : Res Bytes}
    (ho : isGetAssertion op = true) (h : GetAssertionOut E data w r w') : w.rnd ≤ w'.rnd ∧ Out E op w (outcome r) w' := by
  cases h with
  | nothing hw hr => subst hw; exact ⟨Nat.le_refl _, .kept rfl (.refl _)⟩
  | none args flags hd hp hm hw hr => subst hw; exact ⟨Nat.le_refl _, .kept rfl (.refl _)⟩
  | unsaved args flags i s hd hp hi hn c hr hw =>
    subst hw; subst hr
    exact ⟨Nat.le_refl _, .lost c rfl rfl⟩
  | refused args flags i s rp user blob n hd hp hi hn hup hrp hu ha hr hw =>
    subst hw
    have hnr := saves_rnd L hn
    exact ⟨by dsimp only; omega, .saved blob w.rnd n rfl hn (fun hh => healthy_bump hh i)
      (.used i rfl ho) ⟨rfl, rfl, rfl⟩ ⟨Nat.le_refl _, by dsimp only; omega⟩⟩
  | saved args flags flags' i s rp user blob n asks hd hp hi hn hrp hu hq hw hr =>
    subst hw
    have hnr := saves_rnd L hn
    exact ⟨by dsimp only; omega, .saved blob w.rnd n rfl hn (fun hh => healthy_bump hh i)
      (.used i rfl ho) ⟨rfl, rfl, rfl⟩ ⟨Nat.le_refl _, by dsimp only; omega⟩⟩

theorem out_pin {E : Env} (L : Laws E) {op : Op} {data : Bytes} {w w' : World} {r : Res Bytes}
    (h : ClientPINOut E data w r w') : w.rnd ≤ w'.rnd ∧ Out E op w (outcome r) w' := by
  cases h with
  | nothing hw hr => subst hw; exact ⟨Nat.le_refl _, .kept rfl (.refl _)⟩
  | retries args n he hd hs hn hw hr => subst hw; exact ⟨Nat.le_refl _, .kept rfl (.refl _)⟩
  | agreement args he hd hs hw hr => subst hw; exact ⟨Nat.le_refl _, .kept rfl (.refl _)⟩
  | set args key au enc secret pin he hd hs hn hk ha hc hss hauth hpin hl hw =>
    rcases hw with ⟨c, hr, hw, -⟩ | ⟨blob, n, hr, hv, hw⟩
    · subst hw; subst hr; exact ⟨Nat.le_refl _, .lost c rfl rfl⟩
    · subst hw
      have hnr := saves_rnd L hv
      exact ⟨by dsimp only; omega, .saved blob w.rnd n rfl hv (fun hh => healthy_pin L hh 8 pin)
        (.same rfl) ⟨rfl, rfl, rfl⟩ ⟨Nat.le_refl _, by dsimp only; omega⟩⟩
  | wrong args key secret he hd hs hn hk hss hh hr hw =>
    subst hw; exact ⟨Nat.le_refl _, .kept rfl (.refl _)⟩
  | change args key au secret he hd hs hn hk ha hss hauth hh hw =>
    rcases hw with ⟨-, hw⟩ | ⟨pin, -, -, ⟨c, hr, hw, -⟩ | ⟨blob, n, hr, hv, hw⟩⟩
    · subst hw; exact ⟨Nat.le_refl _, .kept rfl (.refl _)⟩
    · subst hw; subst hr; exact ⟨Nat.le_refl _, .lost c rfl rfl⟩
    · subst hw
      have hnr := saves_rnd L hv
      exact ⟨by dsimp only; omega, .saved blob w.rnd n rfl hv (fun hh => healthy_pin L hh 8 pin)
        (.same rfl) ⟨rfl, rfl, rfl⟩ ⟨Nat.le_refl _, by dsimp only; omega⟩⟩
  | token args key enc secret he hd hs hn hk hx hc hss hh hw hr =>
    subst hw; exact ⟨Nat.le_refl _, .kept rfl (.refl _)⟩

theorem out_u2f {E : Env} {op : Op} (m : Bytes) (w : World) :
    w.rnd ≤ (U2f.handleMessage E m w).2.rnd ∧
      Out E op w (outcome (U2f.handleMessage E m w).1) (U2f.handleMessage E m w).2 := by
  unfold U2f.handleMessage
  cases hd : U2f.decodeMessage m with
  | panic c => exact ⟨Nat.le_refl _, .kept rfl (.refl _)⟩
  | ok p =>
    obtain ⟨header, request, n⟩ := p
    rw [Go.lift_ok_bind]
    dsimp only
    split
    · exact ⟨Nat.le_refl _, .kept rfl (.refl _)⟩
    · split
      · have hc := U2f.handleRegister_cases E request w
        generalize (U2f.handleRegister E request w).1 = r at *
        generalize (U2f.handleRegister E request w).2 = w' at *
        cases hc with
        | nothing c n hr hn hw => subst hw; exact ⟨hn, .kept rfl (.refl _)⟩
        | refused hl hk ha hr hw => subst hw; exact ⟨by dsimp only; omega, .kept rfl (.refl _)⟩
        | agreed n hl hk ha hn hw hr => subst hw; exact ⟨by dsimp only; omega, .kept rfl (.refl _)⟩
      · split
        · have hc := U2f.handleAuthenticate_cases E header.param1 request w
          generalize (U2f.handleAuthenticate E header.param1 request w).1 = r at *
          generalize (U2f.handleAuthenticate E header.param1 request w).2 = w' at *
          cases hc with
          | nothing hw hr => subst hw; exact ⟨Nat.le_refl _, .kept rfl (.refl _)⟩
          | refused challenge application handle key hd hk hc ha hr hw =>
            subst hw; exact ⟨Nat.le_refl _, .kept rfl (.refl _)⟩
          | signed challenge application handle key asks hd hk hc hw hr =>
            subst hw; exact ⟨by dsimp only; omega, .kept rfl ⟨rfl, rfl, rfl, rfl, rfl, rfl⟩⟩
        · exact ⟨Nat.le_refl _, .kept rfl (.refl _)⟩

theorem out_ctap {E : Env} (L : Laws E) (m : Bytes) (w : World) :
    w.rnd ≤ (Ctap.handleMessage E m w).2.rnd ∧
      Out E (.ctap m) w (outcome (Ctap.handleMessage E m w).1) (Ctap.handleMessage E m w).2 := by
  cases m with
  | nil => exact ⟨Nat.le_refl _, .kept rfl (.refl _)⟩
  | cons c data =>
    by_cases h1 : c = 1
    · subst h1; exact out_make L rfl (handleMakeCredential_cases E data w)
    by_cases h2 : c = 2
    · subst h2; exact out_get L rfl (handleGetAssertion_cases E data w)
    by_cases h4 : c = 4
    · subst h4; exact ⟨Nat.le_refl _, .kept rfl (.refl _)⟩
    by_cases h6 : c = 6
    · subst h6; exact out_pin L (handleClientPIN_cases E data w)
    rw [handleMessage_other E c data h1 h2 h4 h6]
    exact ⟨Nat.le_refl _, .kept rfl (.refl _)⟩

theorem perform_delete (E : Env) (id : Bytes) (w : World) :
    ((∀ s ∈ w.client.vault, s.id ≠ id) ∧
      perform E (.deleteIdentity id) w = (.ok (.deleted false), w)) ∨
    (∃ l s r v', w.client.vault = l ++ s :: r ∧ s.id = id ∧ (∀ x ∈ l, x.id ≠ id) ∧
      w.client.vault.Perm (s :: v') ∧
      ((∃ c, (∀ blob n, ¬ Saves E { w.client with vault := v' } w.rnd blob n) ∧
          perform E (.deleteIdentity id) w =
            (.panic c, { w with client := { w.client with vault := v' } })) ∨
        ∃ blob n, Saves E { w.client with vault := v' } w.rnd blob n ∧
          perform E (.deleteIdentity id) w = (.ok (.deleted true),
            { w with client := { w.client with vault := v' }, store := some blob, rnd := n }))) := by
  simp only [perform, Go.run_bind, Client.deleteIdentity, Go.run_get, update, Go.modify]
  rcases Vault.deleteIdentity_spec w.client.vault id with
    ⟨h1, h2⟩ | ⟨l, s, r, v', h1, h2, h3, h4, h5⟩
  · left
    refine ⟨h1, ?_⟩
    simp only [h2, Bool.false_eq_true, if_false, Go.run_pure]
  · right
    refine ⟨l, s, r, v', h1, h2, h3, h5, ?_⟩
    simp only [h4, if_true, Go.run_bind]
    rcases saveData_cases E { w with client := { w.client with vault := v' } } with
      ⟨c, h, hno⟩ | ⟨blob, n, hs, h⟩
    · simp only [h]; exact .inl ⟨c, hno, rfl⟩
    · simp only [h, Go.run_pure]; exact .inr ⟨blob, n, hs, rfl⟩

/-- An operation of a running process. -/
theorem perform_out {E : Env} (L : Laws E) (op : Op) (w : World) :
    w.rnd ≤ (perform E op w).2.rnd ∧ Out E op w (perform E op w).1 (perform E op w).2 := by
  cases op with
  | ctap m => rw [perform_ctap']; exact out_ctap L m w
  | u2f m => rw [perform_u2f']; exact out_u2f m w
  | enablePIN =>
    exact out_update_save L (f := fun c => { c with pinEnabled := true }) (fun _ => .done)
      (fun hh => healthy_enabled hh true) (fun n => .same rfl) ⟨rfl, rfl, rfl⟩
  | disablePIN =>
    exact out_update_save L (f := fun c => { c with pinEnabled := false }) (fun _ => .done)
      (fun hh => healthy_enabled hh false) (fun n => .same rfl) ⟨rfl, rfl, rfl⟩
  | setPIN pin =>
    exact out_update_save L (f := fun c => { c with pinHash := some (pinDigest E pin) })
      (fun _ => .done) (fun hh => healthy_pin L hh w.client.pinRetries pin) (fun n => .same rfl) ⟨rfl, rfl, rfl⟩
  | deleteIdentity id =>
    rcases perform_delete E id w with
      ⟨-, h⟩ | ⟨l, s, r, v', hv, hid, -, hp, ⟨c, -, h⟩ | ⟨blob, n, hs, h⟩⟩
    · rw [h]; exact ⟨Nat.le_refl _, .kept rfl (.refl _)⟩
    · rw [h]; exact ⟨Nat.le_refl _, .lost c rfl rfl⟩
    · rw [h]
      have hnr := saves_rnd L hs
      refine ⟨by dsimp only; omega, .saved blob w.rnd n rfl hs ?_ (.removed s hp (by rw [hid])) ⟨rfl, rfl, rfl⟩
        ⟨Nat.le_refl _, Nat.le_refl _⟩⟩
      intro hh
      refine ⟨hh.1, hh.2.1, hh.2.2.1, hh.2.2.2.1, ?_⟩
      intro x hx
      exact hh.2.2.2.2 x (hp.mem_iff.2 (List.mem_cons_of_mem _ hx))
  | restart => exact ⟨Nat.le_refl _, .kept rfl (.refl _)⟩

end VF.Fido.Device
