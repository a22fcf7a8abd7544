import Verif.Spec.Client
import Verif.Proofs.CtapCases
import Verif.Proofs.SavedState

/-!
# Saving and restarting
-/

namespace VF.Fido

open VF.Spec.Client VF.Spec.Vault VF.Spec.Cose VF.Fido.Ctap

theorem SamePrivate.refl (k : PrivKey) : SamePrivate k k := ⟨rfl, rfl, rfl⟩

theorem SamePrivate.symm {a b : PrivKey} (h : SamePrivate a b) : SamePrivate b a :=
  ⟨h.1.symm, h.2.1.symm, h.2.2.symm⟩

theorem SamePrivate.trans {a b c : PrivKey} (h : SamePrivate a b) (h' : SamePrivate b c) :
    SamePrivate a c := ⟨h.1.trans h'.1, h.2.1.trans h'.2.1, h.2.2.trans h'.2.2⟩

theorem SameCredential.refl (s : Source) : SameCredential s s :=
  ⟨rfl, rfl, rfl, SamePrivate.refl _⟩

theorem SameCredentials.refl (v : List Source) : SameCredentials v v := by
  refine ⟨rfl, ?_⟩
  intro i a b ha hb
  rw [ha] at hb
  obtain rfl := Option.some.inj hb
  exact SameCredential.refl a

theorem SameCredentials.symm {v w : List Source} (h : SameCredentials v w) :
    SameCredentials w v := by
  refine ⟨h.1.symm, ?_⟩
  intro i a b ha hb
  obtain ⟨h1, h2, h3, h4⟩ := h.2 i b a hb ha
  exact ⟨h1.symm, h2.symm, h3.symm, SamePrivate.symm h4⟩

theorem SameCredentials.trans {u v w : List Source} (h : SameCredentials u v)
    (h' : SameCredentials v w) : SameCredentials u w := by
  refine ⟨h.1.trans h'.1, ?_⟩
  intro i a c ha hc
  have hi : i < v.length := by
    have := (List.getElem?_eq_some_iff.1 hc).1
    rw [h'.1]; exact this
  obtain ⟨h1, h2, h3, h4⟩ := h.2 i a v[i] ha (List.getElem?_eq_getElem hi)
  obtain ⟨k1, k2, k3, k4⟩ := h'.2 i v[i] c (List.getElem?_eq_getElem hi) hc
  exact ⟨h1.trans k1, h2.trans k2, h3.trans k3, SamePrivate.trans h4 k4⟩

theorem SameDevice.refl (c : Client) : SameDevice c c :=
  ⟨rfl, rfl, SamePrivate.refl _, rfl, rfl, SameCredentials.refl _⟩

theorem SameDevice.symm {a b : Client} (h : SameDevice a b) : SameDevice b a :=
  ⟨h.1.symm, h.2.1.symm, SamePrivate.symm h.2.2.1, h.2.2.2.1.symm, h.2.2.2.2.1.symm,
    SameCredentials.symm h.2.2.2.2.2⟩

theorem SameDevice.trans {a b c : Client} (h : SameDevice a b) (h' : SameDevice b c) :
    SameDevice a c :=
  ⟨h.1.trans h'.1, h.2.1.trans h'.2.1, SamePrivate.trans h.2.2.1 h'.2.2.1,
    h.2.2.2.1.trans h'.2.2.2.1, h.2.2.2.2.1.trans h'.2.2.2.2.1,
    SameCredentials.trans h.2.2.2.2.2 h'.2.2.2.2.2⟩

theorem complete_savable {E : Env} {s : Source} (h : Complete E s) : Vault.Savable E s := by
  obtain ⟨h1, h2, -, ⟨rp, h3, -⟩, ⟨u, h4, -⟩⟩ := h
  exact ⟨h1, h2, by simp [h3], by simp [h4]⟩

theorem getLast?_mem {α : Type} {l : List α} {x : α} (h : l.getLast? = some x) : x ∈ l := by
  obtain ⟨ys, rfl⟩ := List.getLast?_eq_some_iff.1 h
  simp

/-- In a healthy device everything can be saved, and a restart restores it. -/
theorem healthy_export {E : Env} (L : Laws E) {c : Client} (h : Healthy E c) :
    ∃ st, Client.exportState c = .ok st ∧ st.Utf8 ∧
      ∀ cfg rnd rnd', ∃ blob, Saved.encryptState E st E.passphrase rnd = some (blob, rnd + 4) ∧
        ∃ c', Client.start E cfg (some blob) rnd' = .ok c' ∧ SameDevice c c' ∧ Healthy E c' ∧
          c'.authCounter = c.authCounter ∧ c'.pinRetries = 8 ∧ c'.pinToken = E.rand rnd' 16 ∧
          c'.keyAgreement = E.genECDH (rnd' + 1) ∧
          ∀ last, c.vault.getLast? = some last →
            ∀ s ∈ c'.vault, s.rp = last.rp ∧ s.user = last.user := by
  obtain ⟨h1, h2, h3, h4, h5⟩ := h
  obtain ⟨kb, k', m1, m2, m3, m4, m5⟩ := Vault.private_round_trip L c.certKey h2 h3
  obtain ⟨saved, v', e1, e2, e3, e4, e5⟩ := Vault.import_export L c.vault
    (fun s hs => complete_savable (h5 s hs))
  have hu : ∀ x ∈ saved, x.Utf8 := by
    apply Vault.exportSources_utf8 e1
    intro s hs
    obtain ⟨-, -, ht, ⟨rp, hrp, u1, u2⟩, ⟨u, hu, u3, u4⟩⟩ := h5 s hs
    refine ⟨ht, ?_, ?_⟩
    · intro r hr; rw [hrp] at hr; obtain rfl := Option.some.inj hr; exact ⟨u1, u2⟩
    · intro r hr; rw [hu] at hr; obtain rfl := Option.some.inj hr; exact ⟨u3, u4⟩
  let st : SavedState :=
    { encryptionKey := c.deviceKey, cert := c.cert, certKey := kb, authCounter := c.authCounter,
      pinEnabled := c.pinEnabled, pinHash := c.pinHash, sources := saved }
  have hst : Client.exportState c = .ok st := by
    simp only [Client.exportState, m1, e1, Res.bind_ok]; rfl
  refine ⟨st, hst, hu, ?_⟩
  intro cfg rnd rnd'
  obtain ⟨blob, b1, b2⟩ := Saved.decryptState_encryptState L st hu E.passphrase rnd
  have hnorm : st.norm = st := by
    simp only [SavedState.norm]
    rw [if_neg h4]
  rw [hnorm] at b2
  refine ⟨blob, b1, ?_⟩
  have hk : Vault.importKey E st.certKey = .ok (some k') := by
    simp only [Vault.importKey, st, m2, Res.bind_ok]
  refine ⟨{ Client.fresh E cfg rnd' with
      deviceKey := c.deviceKey, cert := c.cert, certKey := k', authCounter := c.authCounter,
      pinEnabled := c.pinEnabled, pinHash := c.pinHash, vault := v' }, ?_,
      ⟨rfl, rfl, m3, rfl, rfl, e3⟩, ⟨h1, m4, m5, h4, ?_⟩, rfl, rfl, rfl, rfl, e5⟩
  · have hc : E.parseCert st.cert = true := h1
    have hv : Vault.importSources E [] st.sources = .ok (v', true) := e2
    simp only [Client.start, Client.importData, b2, Res.bind_ok, hc, hk, hv, Bool.true_eq_false,
      if_false]
    rfl
  · intro s hs
    obtain ⟨i, hi⟩ := List.mem_iff_getElem?.1 hs
    have hlt : i < c.vault.length := by
      rw [e3.1]; exact (List.getElem?_eq_some_iff.1 hi).1
    obtain ⟨-, q2, -, -⟩ := e3.2 i c.vault[i] s (List.getElem?_eq_getElem hlt) hi
    obtain ⟨-, -, ht, -⟩ := h5 c.vault[i] (List.getElem_mem hlt)
    obtain ⟨last, hlast⟩ : ∃ last, c.vault.getLast? = some last := by
      cases hg : c.vault.getLast? with
      | some l => exact ⟨l, rfl⟩
      | none =>
        have : c.vault = [] := by simpa using hg
        rw [this] at hlt; simp at hlt
    obtain ⟨p1, p2⟩ := e5 last hlast s hs
    obtain ⟨-, -, -, hr, hus⟩ := h5 last (getLast?_mem hlast)
    exact ⟨(e4 s hs).1, (e4 s hs).2, by rw [← q2]; exact ht, by rw [p1]; exact hr,
      by rw [p2]; exact hus⟩

theorem healthy_saves {E : Env} (L : Laws E) {c : Client} (h : Healthy E c) (rnd : Nat) :
    ∃ blob, Saves E c rnd blob (rnd + 4) := by
  obtain ⟨st, h1, -, h3⟩ := healthy_export L h
  obtain ⟨blob, h4, -⟩ := h3 ⟨[], {}, [], false⟩ rnd 0
  exact ⟨blob, st, h1, h4⟩

theorem saves_restore {E : Env} (L : Laws E) {c : Client} (h : Healthy E c) {rnd n : Nat}
    {blob : Bytes} (hs : Saves E c rnd blob n) (cfg : Client.Config) (rnd' : Nat) :
    n = rnd + 4 ∧ ∃ c', Client.start E cfg (some blob) rnd' = .ok c' ∧ SameDevice c c' ∧
      Healthy E c' ∧ c'.authCounter = c.authCounter ∧ c'.pinRetries = 8 ∧
      c'.pinToken = E.rand rnd' 16 ∧ c'.keyAgreement = E.genECDH (rnd' + 1) ∧
      ∀ last, c.vault.getLast? = some last →
        ∀ s ∈ c'.vault, s.rp = last.rp ∧ s.user = last.user := by
  obtain ⟨st, h1, -, h3⟩ := healthy_export L h
  obtain ⟨st', h1', h4'⟩ := hs
  rw [h1] at h1'
  obtain rfl := Res.ok.inj h1'
  obtain ⟨blob', h4, c', h5⟩ := h3 cfg rnd rnd'
  rw [h4] at h4'
  simp at h4'
  obtain ⟨rfl, rfl⟩ := h4'
  exact ⟨rfl, c', h5⟩

theorem saves_holds {E : Env} (L : Laws E) {c : Client} (h : Healthy E c) {rnd n : Nat}
    {blob : Bytes} (hs : Saves E c rnd blob n) (cfg : Client.Config) :
    Holds E cfg (some blob) c := by
  intro rnd'
  obtain ⟨-, c', h1, h2, -⟩ := saves_restore L h hs cfg rnd'
  exact ⟨c', h1, h2⟩

end VF.Fido
