import Verif.Proofs.Status
import Verif.Proofs.Retries

/-!
# What stays as long as a process runs, and whether a device can attest

The PIN token and the key-agreement key are drawn at the start and never change; the attestation key
and certificate are those of the configuration, over restarts.
-/

namespace VF.Fido.Device

open VF.Spec.Client VF.Spec.Vault VF.Spec.History VF.Spec.Ctap VF.Spec.Cose Client Ctap
open VF.Spec.Status (Outcome Shows Decides Expected)

variable {E : Env} {cfg : Config}

/-- PIN token and key-agreement key. -/
def session (c : Client) : Bytes × ECDHKey := (c.pinToken, c.keyAgreement)

theorem perform_session (E : Env) (op : Op) (w : World) :
    session (perform E op w).2.client = session w.client := by
  have hsave : ∀ (f : Client → Client) (r : Reply), session (f w.client) = session w.client →
      session ((do update f; saveData E; pure r : Go World Reply) w).2.client = session w.client := by
    intro f r hf
    simp only [Go.run_bind, update, Go.modify, Go.run_pure]
    rcases saveData_cases E { w with client := f w.client } with ⟨c, h, -⟩ | ⟨blob, n, hs, h⟩ <;>
      simp only [h] <;> exact hf
  cases op with
  | ctap m =>
    rw [perform_ctap']
    cases m with
    | nil => rfl
    | cons c data =>
      by_cases h6 : c = 6
      · subst h6
        have hc := handleClientPIN_cases E data w
        rw [handleMessage_pin]
        generalize (handleClientPIN E data w).1 = r at *
        generalize (handleClientPIN E data w).2 = w' at *
        cases hc with
        | nothing hw hr => subst hw; rfl
        | retries args n he hd hs hn hw hr => subst hw; rfl
        | agreement args he hd hs hw hr => subst hw; rfl
        | set args key au enc secret pin he hd hs hn hk ha hc hss hauth hpin hl hw =>
          rcases hw with ⟨c, -, e, -⟩ | ⟨blob, n, -, -, e⟩ <;> subst e <;> rfl
        | wrong args key secret he hd hs hn hk hss hh hr hw => subst hw; rfl
        | change args key au secret he hd hs hn hk ha hss hauth hh hw =>
          rcases hw with ⟨-, hw⟩ | ⟨pin, -, -, ⟨c, hr, hw, -⟩ | ⟨blob, n, hr, hv, hw⟩⟩ <;>
            subst hw <;> rfl
        | token args key enc secret he hd hs hn hk hx hc hss hh hw hr => subst hw; rfl
      · exact congrArg (fun p => p.2.2) (ctap_volatile E c data w h6)
  | u2f m =>
    rw [perform_u2f']
    unfold U2f.handleMessage
    cases hd : U2f.decodeMessage m with
    | panic c => rfl
    | ok p =>
      obtain ⟨header, request, n⟩ := p
      rw [Go.lift_ok_bind]
      dsimp only
      split
      · rfl
      · split
        · have hc := U2f.handleRegister_cases E request w
          generalize (U2f.handleRegister E request w).1 = r at *
          generalize (U2f.handleRegister E request w).2 = w' at *
          cases hc with
          | nothing c n hr hn hw => subst hw; rfl
          | refused hl hk ha hr hw => subst hw; rfl
          | agreed n hl hk ha hn hw hr => subst hw; rfl
        · split
          · have hc := U2f.handleAuthenticate_cases E header.param1 request w
            generalize (U2f.handleAuthenticate E header.param1 request w).1 = r at *
            generalize (U2f.handleAuthenticate E header.param1 request w).2 = w' at *
            cases hc with
            | nothing hw hr => subst hw; rfl
            | refused challenge application handle key hd hk hc ha hr hw => subst hw; rfl
            | signed challenge application handle key asks hd hk hc hw hr => subst hw; rfl
          · rfl
  | enablePIN => exact hsave (fun c => { c with pinEnabled := true }) .done rfl
  | disablePIN => exact hsave (fun c => { c with pinEnabled := false }) .done rfl
  | setPIN pin => exact hsave (fun c => { c with pinHash := some (pinDigest E pin) }) .done rfl
  | deleteIdentity id =>
    rcases perform_delete E id w with
      ⟨-, h⟩ | ⟨l, s, r, v', hv, -, -, hp, ⟨c, -, h⟩ | ⟨blob, n, hs, h⟩⟩ <;> rw [h] <;> rfl
  | restart => rfl

/-- A start draws the PIN token and the key-agreement key. -/
theorem start_session {store : Option Bytes} {rnd : Nat} {c : Client}
    (h : start E cfg store rnd = .ok c) : session c = (E.rand rnd 16, E.genECDH (rnd + 1)) := by
  cases store with
  | none => obtain rfl := Res.ok.inj h; rfl
  | some data =>
    simp only [start, importData] at h
    cases h1 : Saved.decryptState E data E.passphrase with
    | panic e => rw [h1] at h; cases h
    | ok st =>
      rw [h1, Res.bind_ok] at h
      cases st with
      | none => cases h
      | some st =>
        dsimp only at h
        split at h
        · cases h
        · cases h2 : Vault.importKey E st.certKey with
          | panic e => rw [h2] at h; cases h
          | ok k =>
            rw [h2, Res.bind_ok] at h
            cases k with
            | none => cases h
            | some k =>
              dsimp only at h
              cases h3 : Vault.importSources E [] st.sources with
              | panic e => rw [h3] at h; cases h
              | ok v =>
                rw [h3, Res.bind_ok] at h
                obtain rfl := Res.ok.inj h
                rfl

/-- Session secrets are draws of the process's start. -/
def SessionOk (E : Env) (d : Device) : Prop :=
  d.alive = true → ∃ rnd, session d.world.client = (E.rand rnd 16, E.genECDH (rnd + 1)) ∧
    rnd + 2 ≤ d.world.rnd

theorem sessionOk_step (L : Laws E) {d : Device} (op : Op) (h : SessionOk E d) :
    SessionOk E (step E cfg d op).2 := by
  cases hr : isRestart op with
  | true =>
    cases op with
    | restart =>
      unfold SessionOk
      simp only [step]
      cases hs : start E cfg d.world.store d.world.rnd with
      | panic c => intro h; cases h
      | ok c => exact fun _ => ⟨d.world.rnd, start_session hs, Nat.le_refl _⟩
    | _ => cases hr
  | false =>
    cases ha : d.alive with
    | false => rw [step_dead hr ha]; exact h
    | true =>
      intro _
      obtain ⟨rnd, h1, h2⟩ := h ha
      have hm := step_rnd (cfg := cfg) L d op
      have ew : (step E cfg d op).2.world = (perform E op d.world).2 := by
        rw [step_live hr ha]
        cases (perform E op d.world).1 <;> rfl
      refine ⟨rnd, ?_, by omega⟩
      rw [ew, perform_session]
      exact h1

theorem sessionOk_after (L : Laws E) : ∀ (ops : List Op) {d : Device}, SessionOk E d →
    SessionOk E (after E cfg d ops)
  | [], _, h => h
  | op :: ops, _, h => sessionOk_after L ops (sessionOk_step L op h)

theorem sessionOk_boot : SessionOk E (boot E cfg) := fun _ => ⟨0, rfl, Nat.le_refl _⟩

theorem attests_keeps {d : Device} (hat : CanAttest E (boot E cfg).world.client)
    (h : Keeps E cfg d) (ha : d.alive = true) : CanAttest E d.world.client := by
  obtain ⟨c, h1, -, ⟨-, k2, k3⟩, h4⟩ := h
  obtain rfl := h4 ha
  obtain ⟨issuer, e1, e2, e3⟩ := hat
  have e1 : cfg.certKey = { ecdsa := some issuer } := e1
  have e3 : E.certSubject cfg.cert = some { ecdsa := some issuer.pub } := e3
  refine ⟨issuer, ?_, e2, by rw [k2]; exact e3⟩
  obtain ⟨s1, s2, s3⟩ := k3
  rw [e1] at s1 s2 s3
  generalize d.world.client.certKey = k at *
  obtain ⟨a, b, r⟩ := k
  dsimp only at s1 s2 s3
  subst s1; subst s2
  cases r with
  | none => rfl
  | some r => simp at s3

theorem attests_reachable (L : Laws E) (hu : Usable E cfg)
    (hat : CanAttest E (boot E cfg).world.client) (ops : List Op)
    (ha : (after E cfg (boot E cfg) ops).alive = true) :
    Healthy E (after E cfg (boot E cfg) ops).world.client ∧
    CanAttest E (after E cfg (boot E cfg) ops).world.client := by
  have h := keeps_reachable (cfg := cfg) L hu ops
  refine ⟨?_, attests_keeps hat h ha⟩
  obtain ⟨c, h1, -, -, h4⟩ := h
  obtain rfl := h4 ha
  exact h1

/-! ### The outcome tables are functions -/

theorem decides_unique {α : Type} {rows : List (Prop × α)} {o o' : α} (h : Decides rows o)
    (h' : Decides rows o') : o = o' := by
  induction h with
  | here h =>
    cases h' with
    | here => rfl
    | next hn => exact absurd h hn
  | next h _ ih =>
    cases h' with
    | here hp => exact absurd hp h
    | next _ hr => exact ih hr

theorem clientPIN_unique {w : World} {data : Bytes} {o o' : Outcome}
    (h : Spec.Status.ClientPIN E w data o) (h' : Spec.Status.ClientPIN E w data o') : o = o' := by
  cases h <;> cases h' <;> simp_all <;> first
    | exact decides_unique (by assumption) (by assumption)
    | (exfalso; rename_i hs; revert hs; decide)

theorem expected_unique {w : World} {m : Bytes} {o o' : Outcome}
    (h : Expected E w m o) (h' : Expected E w m o') : o = o' := by
  cases h <;> cases h' <;> first
    | rfl
    | exact clientPIN_unique (by assumption) (by assumption)
    | (simp_all; done)
    | (simp_all; exact decides_unique (by assumption) (by assumption))

theorem shows_unique {r : Reply} {o o' : Outcome} (h : Shows r o) (h' : Shows r o') : o = o' := by
  cases h <;> cases h' <;> simp_all

end VF.Fido.Device
