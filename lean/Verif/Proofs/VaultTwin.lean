import Verif.Proofs.Twice
import Verif.Proofs.History
import Verif.Proofs.PinSpec
import Verif.Spec.Isolation

/-!
# Two devices that differ in the credentials of other relying parties
-/

namespace VF.Fido.Isolation

open VF.Spec.Client VF.Spec.Isolation Client Go

variable {E : Env} {A : Bytes}

/-- Clients that differ in credentials for others than `A`. -/
structure Near (A : Bytes) (c1 c2 : Client) : Prop where
  rest : c2 = { c1 with vault := c2.vault }
  same : c1.vault.filter (isFor A) = c2.vault.filter (isFor A)
  one : Savable c1.vault
  two : Savable c2.vault

/-- Worlds with such clients. -/
structure Twin (A : Bytes) (w1 w2 : World) : Prop where
  client : Near A w1.client w2.client
  rnd : w2.rnd = w1.rnd
  asks : w2.asks = w1.asks

/-- What is left of that after a panic. -/
structure TwinDead (w1 w2 : World) : Prop where
  rnd : w2.rnd = w1.rnd
  asks : w2.asks = w1.asks

theorem Twin.dead {w1 w2 : World} (h : Twin A w1 w2) : TwinDead w1 w2 := ⟨h.rnd, h.asks⟩

variable {α β : Type} {w1 w2 : World}

abbrev T (A : Bytes) (x y : Go World α) (w1 w2 : World) : Prop := Twice (Twin A) TwinDead x y w1 w2

theorem t_pure (h : Twin A w1 w2) (a : α) : T A (Pure.pure a) (Pure.pure a) w1 w2 := .pure a h
theorem t_throw (h : Twin A w1 w2) (c : Cause) : T A (Go.throw c : Go World α) (Go.throw c) w1 w2 :=
  .throw c c h.dead
theorem t_lift (h : Twin A w1 w2) (r : Res α) : T A (Go.lift r) (Go.lift r) w1 w2 := .lift r h h.dead

theorem t_draw (h : Twin A w1 w2) : T A draw draw w1 w2 := by
  refine .inl ⟨w1.rnd, { w1 with rnd := w1.rnd + 1 }, { w2 with rnd := w2.rnd + 1 }, rfl, ?_, ?_⟩
  · unfold draw; rw [h.rnd]
  · exact ⟨h.client, by dsimp only; rw [h.rnd], h.asks⟩

theorem t_update (h : Twin A w1 w2) {f g : Client → Client} (hf : Near A (f w1.client) (g w2.client)) :
    T A (update f) (update g) w1 w2 :=
  .modify ⟨hf, h.rnd, h.asks⟩

theorem t_approve (h : Twin A w1 w2) (a : Action) (rp user : Bytes) :
    T A (approve E a rp user) (approve E a rp user) w1 w2 := by
  refine .inl ⟨E.approve w1.asks a rp user, _,
    { w2 with asks := w2.asks ++ [⟨a, rp, user, E.approve w1.asks a rp user⟩] }, rfl, ?_, ?_⟩
  · unfold approve; rw [h.asks]
  · exact ⟨h.client, h.rnd, by dsimp only; rw [h.asks]⟩

theorem encrypt_some (L : Laws E) (st : SavedState) (pass : Bytes) (rnd : Nat) :
    ∃ b, Saved.encryptState E st pass rnd = some (b, rnd + 4) := by
  exact ⟨_, Saved.encryptWithPassphrase_eq L pass _ rnd⟩

/-- Saving, when both can be saved if one can. -/
theorem save_near (L : Laws E) (rest : w2.client = { w1.client with vault := w2.client.vault })
    (same : w1.client.vault.filter (isFor A) = w2.client.vault.filter (isFor A))
    (both : Savable w1.client.vault ↔ Savable w2.client.vault) (hr : w2.rnd = w1.rnd) (ha : w2.asks = w1.asks) :
    T A (saveData E) (saveData E) w1 w2 := by
  have hx : ∀ c : Client, (∃ st, exportState c = .ok st) ∧ Savable c.vault ∨
      (∃ q, exportState c = .panic q) ∧ ¬ (Savable c.vault ∧ ∃ k, Cose.marshalPrivate c.certKey = .ok k) := by
    intro c
    unfold exportState
    cases hk : Cose.marshalPrivate c.certKey with
    | panic q => exact .inr ⟨⟨q, rfl⟩, fun ⟨_, k, e⟩ => (nomatch e)⟩
    | ok k =>
      rw [Res.bind_ok]
      cases he : Vault.exportSources c.vault with
      | panic q => exact .inr ⟨⟨q, rfl⟩, fun ⟨⟨l, e⟩, _⟩ => by rw [he] at e; cases e⟩
      | ok l => exact .inl ⟨⟨_, rfl⟩, l, he⟩
  have hk : w2.client.certKey = w1.client.certKey := by rw [rest]
  have go : ∀ (w : World) (st : SavedState), exportState w.client = .ok st →
      ∃ b, saveData E w = (.ok (), { w with store := some b, rnd := w.rnd + 4 }) := by
    intro w st hs
    obtain ⟨b, hb⟩ := encrypt_some L st E.passphrase w.rnd
    exact ⟨b, by unfold saveData; rw [hs]; dsimp only; rw [hb]⟩
  have stop : ∀ (w : World) (q : Cause), exportState w.client = .panic q → saveData E w = (.panic q, w) := by
    intro w q hs
    unfold saveData
    rw [hs]
  rcases hx w1.client with ⟨⟨st1, e1⟩, s1⟩ | ⟨⟨q1, e1⟩, n1⟩
  · rcases hx w2.client with ⟨⟨st2, e2⟩, s2⟩ | ⟨⟨q2, e2⟩, n2⟩
    · obtain ⟨b1, f1⟩ := go w1 st1 e1
      obtain ⟨b2, f2⟩ := go w2 st2 e2
      exact .inl ⟨(), _, _, f1, f2, ⟨rest, same, s1, s2⟩, by dsimp only; rw [hr], ha⟩
    · exfalso
      refine n2 ⟨both.1 s1, ?_⟩
      rw [hk]
      unfold exportState at e1
      cases hm : Cose.marshalPrivate w1.client.certKey with
      | panic q => rw [hm] at e1; cases e1
      | ok k => exact ⟨k, rfl⟩
  · rcases hx w2.client with ⟨⟨st2, e2⟩, s2⟩ | ⟨⟨q2, e2⟩, n2⟩
    · exfalso
      refine n1 ⟨both.2 s2, ?_⟩
      rw [← hk]
      unfold exportState at e2
      cases hm : Cose.marshalPrivate w2.client.certKey with
      | panic q => rw [hm] at e2; cases e2
      | ok k => exact ⟨k, rfl⟩
    · exact .inr ⟨q1, q2, w1, w2, stop w1 q1 e1, stop w2 q2 e2, hr, ha⟩

theorem t_save (L : Laws E) (h : Twin A w1 w2) : T A (saveData E) (saveData E) w1 w2 :=
  save_near L h.client.rest h.client.same ⟨fun _ => h.client.two, fun _ => h.client.one⟩ h.rnd h.asks

/-! ### The parts of the client that both have -/

theorem Near.pinHash {c1 c2 : Client} (h : Near A c1 c2) : c2.pinHash = c1.pinHash := by rw [h.rest]
theorem Near.pinEnabled {c1 c2 : Client} (h : Near A c1 c2) : c2.pinEnabled = c1.pinEnabled := by
  rw [h.rest]
theorem Near.pinToken {c1 c2 : Client} (h : Near A c1 c2) : c2.pinToken = c1.pinToken := by rw [h.rest]
theorem Near.pinRetries {c1 c2 : Client} (h : Near A c1 c2) : c2.pinRetries = c1.pinRetries := by
  rw [h.rest]
theorem Near.keyAgreement {c1 c2 : Client} (h : Near A c1 c2) : c2.keyAgreement = c1.keyAgreement := by
  rw [h.rest]
theorem Near.cert {c1 c2 : Client} (h : Near A c1 c2) : c2.cert = c1.cert := by rw [h.rest]
theorem Near.certKey {c1 c2 : Client} (h : Near A c1 c2) : c2.certKey = c1.certKey := by rw [h.rest]
theorem Near.deviceKey {c1 c2 : Client} (h : Near A c1 c2) : c2.deviceKey = c1.deviceKey := by rw [h.rest]
theorem Near.authCounter {c1 c2 : Client} (h : Near A c1 c2) : c2.authCounter = c1.authCounter := by
  rw [h.rest]
theorem t_retries (h : Twin A w1 w2) : T A getPINRetries getPINRetries w1 w2 := by
  unfold getPINRetries
  refine .get ?_
  rw [h.client.pinRetries]
  split
  · exact t_pure h _
  · exact t_throw h _

theorem Near.set {c1 c2 : Client} (h : Near A c1 c2) {f : Client → Client}
    (hf : f { c1 with vault := c2.vault } = { f c1 with vault := c2.vault })
    (h1 : (f c1).vault = c1.vault) (h2 : (f c2).vault = c2.vault) : Near A (f c1) (f c2) := by
  have e : f c2 = { f c1 with vault := c2.vault } := by rw [← hf, ← h.rest]
  refine ⟨by rw [h2, e], ?_, ?_, ?_⟩
  · rw [h1, h2]; exact h.same
  · rw [h1]; exact h.one
  · rw [h2]; exact h.two

theorem t_setRetries (h : Twin A w1 w2) (n : Int) : T A (setPINRetries n) (setPINRetries n) w1 w2 := by
  exact t_update h (h.client.set (f := fun c => { c with pinRetries := n }) rfl rfl rfl)

theorem t_certificate (h : Twin A w1 w2) (k : PrivKey) : T A (createCertificate E k) (createCertificate E k) w1 w2 := by
  unfold createCertificate
  refine (t_draw h).bind fun n v1 v2 hv => .get ?_
  rw [hv.client.cert, hv.client.certKey]
  refine (t_lift hv _).bind fun c u1 u2 hu => ?_
  cases c with
  | none => exact t_throw hu _
  | some c => exact t_pure hu _

theorem t_sign (h : Twin A w1 w2) (k : PrivKey) (data : Bytes) : T A (signWith E k data) (signWith E k data) w1 w2 := by
  unfold signWith
  exact (t_draw h).bind fun n v1 v2 hv => t_lift hv _

/-! ### Vaults -/

theorem savable_cons {s : Source} {v : List Source} :
    Savable (s :: v) ↔ Savable [s] ∧ Savable v := by
  unfold Savable
  constructor
  · rintro ⟨l, h⟩
    unfold Vault.exportSources at h
    cases hk : Cose.marshalPrivate s.key with
    | panic e => rw [hk] at h; cases h
    | ok k =>
      rw [hk, Res.bind_ok] at h
      cases hrp : s.rp with
      | none => rw [hrp] at h; cases h
      | some rp =>
        cases hus : s.user with
        | none => rw [hrp, hus] at h; cases h
        | some u =>
          rw [hrp, hus] at h
          dsimp only at h
          cases he : Vault.exportSources v with
          | panic e => rw [he] at h; cases h
          | ok t =>
            refine ⟨⟨[{ type := s.type, id := s.id, key := k, rp := rp, user := u, counter := s.counter }], ?_⟩, t, rfl⟩
            · simp only [Vault.exportSources, hk, hrp, hus, Res.bind_ok]
  · rintro ⟨⟨l, h⟩, t, ht⟩
    unfold Vault.exportSources at h ⊢
    cases hk : Cose.marshalPrivate s.key with
    | panic e => rw [hk] at h; cases h
    | ok k =>
      rw [hk, Res.bind_ok] at h
      rw [Res.bind_ok]
      cases hrp : s.rp with
      | none => rw [hrp] at h; cases h
      | some rp =>
        cases hus : s.user with
        | none => rw [hrp, hus] at h; cases h
        | some u =>
          dsimp only
          rw [ht, Res.bind_ok]
          exact ⟨_, rfl⟩

theorem savable_append {v v' : List Source} : Savable (v ++ v') ↔ Savable v ∧ Savable v' := by
  induction v with
  | nil => exact ⟨fun h => ⟨⟨[], rfl⟩, h⟩, fun h => h.2⟩
  | cons s v ih =>
    rw [List.cons_append, savable_cons, ih, savable_cons (v := v), and_assoc]

theorem savable_rp {s : Source} {v : List Source} (h : Savable v) (hs : s ∈ v) : ∃ rp, s.rp = some rp := by
  obtain ⟨a, b, rfl⟩ := List.append_of_mem hs
  have := (savable_cons.1 (savable_append.1 h).2).1
  obtain ⟨l, h⟩ := this
  unfold Vault.exportSources at h
  cases hk : Cose.marshalPrivate s.key with
  | panic e => rw [hk] at h; cases h
  | ok k =>
    rw [hk, Res.bind_ok] at h
    cases hrp : s.rp with
    | none => rw [hrp] at h; cases h
    | some rp => exact ⟨rp, rfl⟩

/-- The credential matches the request. -/
def fits (A : Bytes) (al : Option (List Descriptor)) (s : Source) : Prop :=
  isFor A s = true ∧ Vault.allowed al s.id = true

/-- The first credential that matches. -/
theorem matching_first (A : Bytes) (al : Option (List Descriptor)) {v : List Source} (h : Savable v) (n : Nat) :
    (Vault.getMatching A al n v = .ok [] ∧ ∀ s ∈ v, ¬ fits A al s) ∨
    (∃ l s r t, v = l ++ s :: r ∧ fits A al s ∧ (∀ x ∈ l, ¬ fits A al x) ∧
      Vault.getMatching A al n v = .ok ((n + l.length) :: t)) := by
  induction v generalizing n with
  | nil => exact .inl ⟨rfl, fun s hs => (nomatch hs)⟩
  | cons s v ih =>
    obtain ⟨rp, hrp⟩ := savable_rp h (List.mem_cons_self ..)
    have hf : (rp.id = A ∧ Vault.allowed al s.id = true) ↔ fits A al s := by
      unfold fits isFor
      rw [hrp]
      simp
    unfold Vault.getMatching
    rw [hrp]
    dsimp only
    rcases ih (savable_cons.1 h).2 (n + 1) with ⟨e, hn⟩ | ⟨l, x, r, t, e1, e2, e3, e4⟩
    · rw [e, Res.bind_ok]
      by_cases hs : fits A al s
      · rw [if_pos (hf.2 hs)]
        exact .inr ⟨[], s, v, [], rfl, hs, fun x hx => (nomatch hx), rfl⟩
      · rw [if_neg (fun q => hs (hf.1 q))]
        refine .inl ⟨rfl, fun x hx => ?_⟩
        rcases List.mem_cons.1 hx with rfl | hx
        · exact hs
        · exact hn x hx
    · rw [e4, Res.bind_ok]
      by_cases hs : fits A al s
      · rw [if_pos (hf.2 hs)]
        exact .inr ⟨[], s, v, _, rfl, hs, fun x hx => (nomatch hx), rfl⟩
      · rw [if_neg (fun q => hs (hf.1 q))]
        refine .inr ⟨s :: l, x, r, t, by rw [e1]; rfl, e2, fun y hy => ?_, ?_⟩
        · rcases List.mem_cons.1 hy with rfl | hy
          · exact hs
          · exact e3 y hy
        · rw [List.length_cons, show n + (l.length + 1) = n + 1 + l.length by omega]

theorem first_unique {p : Source → Prop} {a a' b b' : List Source} {s s' : Source} (h : a ++ s :: b = a' ++ s' :: b')
    (hs : p s) (hs' : p s') (ha : ∀ x ∈ a, ¬ p x) (ha' : ∀ x ∈ a', ¬ p x) : a = a' ∧ s = s' ∧ b = b' := by
  induction a generalizing a' with
  | nil =>
    cases a' with
    | nil => injection h with h1 h2; exact ⟨rfl, h1, h2⟩
    | cons y a' =>
      injection h with h1 _
      exact absurd (h1 ▸ hs) (ha' y (List.mem_cons_self ..))
  | cons x a ih =>
    cases a' with
    | nil =>
      injection h with h1 _
      exact absurd (h1 ▸ hs') (ha x (List.mem_cons_self ..))
    | cons y a' =>
      injection h with h1 h2
      obtain ⟨r1, r2, r3⟩ := ih h2 (fun z hz => ha z (List.mem_cons_of_mem _ hz))
        (fun z hz => ha' z (List.mem_cons_of_mem _ hz))
      exact ⟨by rw [h1, r1], r2, r3⟩

theorem bump_at (l : List Source) (s : Source) (r : List Source) :
    bump (l ++ s :: r) l.length = l ++ { s with counter := s.counter + 1 } :: r := by
  unfold bump
  induction l with
  | nil => rfl
  | cons x l ih => simpa using ih

theorem savable_bump {l : List Source} {s : Source} {r : List Source} (h : Savable (l ++ s :: r)) :
    Savable (l ++ { s with counter := s.counter + 1 } :: r) := by
  rw [savable_append, savable_cons] at h ⊢
  refine ⟨h.1, ?_, h.2.2⟩
  obtain ⟨q, hq⟩ := h.2.1
  unfold Vault.exportSources at hq
  cases hk : Cose.marshalPrivate s.key with
  | panic e => rw [hk] at hq; cases hq
  | ok k =>
    rw [hk, Res.bind_ok] at hq
    cases hrp : s.rp with
    | none => rw [hrp] at hq; cases hq
    | some rp =>
      cases hus : s.user with
      | none => rw [hrp, hus] at hq; cases hq
      | some u => exact ⟨[⟨s.type, s.id, k, rp, u, s.counter + 1⟩], by
          simp only [Vault.exportSources, hk, hrp, hus, Res.bind_ok]⟩

theorem t_new (L : Laws E) (h : Twin A w1 w2) (params : List CredParam) (ex : List Descriptor)
    (rp : Option RPEntity) (user : Option UserEntity) :
    T A (newCredentialSource E params ex rp user) (newCredentialSource E params ex rp user) w1 w2 := by
  unfold newCredentialSource
  split
  · exact t_pure h _
  · refine (t_draw h).bind fun n _ _ h => (t_draw h).bind fun _ v1 v2 h => ?_
    have := save_near (A := A) (w1 := { v1 with client := { v1.client with vault := Vault.addIdentity v1.client.vault (Vault.newIdentity E rp user n) } })
      (w2 := { v2 with client := { v2.client with vault := Vault.addIdentity v2.client.vault (Vault.newIdentity E rp user n) } })
      L (by dsimp only; rw [h.client.rest])
      (by dsimp only [Vault.addIdentity]; rw [List.filter_append, List.filter_append, h.client.same])
      (by
        dsimp only [Vault.addIdentity]
        rw [savable_append, savable_append]
        exact ⟨fun q => ⟨h.client.two, q.2⟩, fun q => ⟨h.client.one, q.2⟩⟩) h.rnd h.asks
    exact this.bind fun _ _ _ h => t_pure h _

theorem t_source (L : Laws E) (h : Twin A w1 w2) (al : Option (List Descriptor)) :
    T A (getAssertionSource E A al) (getAssertionSource E A al) w1 w2 := by
  unfold getAssertionSource
  refine .get ?_
  have hfil : ∀ {l r : List Source} {s : Source}, fits A al s →
      (l ++ s :: r).filter (isFor A) = l.filter (isFor A) ++ s :: r.filter (isFor A) := by
    intro l r s hs
    rw [List.filter_append, List.filter_cons, if_pos hs.1]
  have hsame := h.client.same
  rcases matching_first A al h.client.one 0 with ⟨e1, n1⟩ | ⟨l1, s1, r1, t1, q1, f1, g1, e1⟩
  · rcases matching_first A al h.client.two 0 with ⟨e2, n2⟩ | ⟨l2, s2, r2, t2, q2, f2, g2, e2⟩
    · rw [e1, e2]
      exact t_pure h _
    · exfalso
      have : s2 ∈ w2.client.vault.filter (isFor A) := by
        rw [q2, hfil f2]; simp
      rw [← hsame] at this
      exact n1 s2 ((List.mem_filter.1 this).1) f2
  · rcases matching_first A al h.client.two 0 with ⟨e2, n2⟩ | ⟨l2, s2, r2, t2, q2, f2, g2, e2⟩
    · exfalso
      have : s1 ∈ w1.client.vault.filter (isFor A) := by
        rw [q1, hfil f1]; simp
      rw [hsame] at this
      exact n2 s1 ((List.mem_filter.1 this).1) f1
    · rw [e1, e2]
      have o1 := h.client.one
      have o2 := h.client.two
      rw [q1] at hsame o1
      rw [q2] at hsame o2
      rw [hfil f1, hfil f2] at hsame
      obtain ⟨u1, rfl, u3⟩ := first_unique (p := fits A al) hsame f1 f2
        (fun x hx => g1 x ((List.mem_filter.1 hx).1)) (fun x hx => g2 x ((List.mem_filter.1 hx).1))
      have f1' : fits A al { s1 with counter := s1.counter + 1 } := f1
      rw [Nat.zero_add, Nat.zero_add]
      have b1 : bump w1.client.vault l1.length = l1 ++ { s1 with counter := s1.counter + 1 } :: r1 := by
        rw [q1, bump_at]
      have b2 : bump w2.client.vault l2.length = l2 ++ { s1 with counter := s1.counter + 1 } :: r2 := by
        rw [q2, bump_at]
      have hn : Near A { w1.client with vault := bump w1.client.vault l1.length }
          { w2.client with vault := bump w2.client.vault l2.length } := by
        rw [b1, b2]
        refine ⟨by dsimp only; rw [h.client.rest], ?_, savable_bump o1, savable_bump o2⟩
        dsimp only
        rw [hfil f1', hfil f1', u1, u3]
      rw [Go.lift_ok_bind, Go.lift_ok_bind]
      dsimp only
      have hu : Twin A { w1 with client := { w1.client with vault := bump w1.client.vault l1.length } }
          { w2 with client := { w2.client with vault := bump w2.client.vault l2.length } } :=
        ⟨hn, h.rnd, h.asks⟩
      have hs := t_save L hu
      have hv : ∀ (w w' : World) (a : Unit), saveData E w = (.ok a, w') → w'.client.vault = w.client.vault := by
        intro w w' a hw
        rcases Ctap.saveData_cases E w with ⟨c, e, -⟩ | ⟨data, rnd, -, e⟩
        · rw [e] at hw; cases hw
        · rw [e] at hw; cases hw; rfl
      rcases hs with ⟨a, v1, v2, k1, k2, hr⟩ | ⟨c, c', v1, v2, k1, k2, hr⟩
      · refine .inl ⟨some { s1 with counter := s1.counter + 1 }, v1, v2, ?_, ?_, hr⟩
        · refine Go.run_bind_ok (w' := _) (a := ()) (x := update _) rfl |>.trans ?_
          rw [Go.run_bind_ok k1, Go.get_bind_run]
          show (Res.ok v1.client.vault[l1.length]?, v1) = _
          rw [hv _ _ _ k1]
          dsimp only
          rw [b1]
          simp
        · refine Go.run_bind_ok (w' := _) (a := ()) (x := update _) rfl |>.trans ?_
          rw [Go.run_bind_ok k2, Go.get_bind_run]
          show (Res.ok v2.client.vault[l2.length]?, v2) = _
          rw [hv _ _ _ k2]
          dsimp only
          rw [b2]
          simp
      · refine .inr ⟨c, c', v1, v2, ?_, ?_, hr⟩
        · refine Go.run_bind_ok (w' := _) (a := ()) (x := update _) rfl |>.trans ?_
          exact Go.run_bind_panic k1
        · refine Go.run_bind_ok (w' := _) (a := ()) (x := update _) rfl |>.trans ?_
          exact Go.run_bind_panic k2

theorem t_login (h : Twin A w1 w2) (s : Source) :
    T A (approveAccountLogin E s) (approveAccountLogin E s) w1 w2 := by
  unfold approveAccountLogin
  split
  · exact t_approve h _ _ _
  · exact t_throw h _

theorem t_counter (h : Twin A w1 w2) : T A newAuthCounter newAuthCounter w1 w2 := by
  unfold newAuthCounter
  refine .get ?_
  rw [h.client.authCounter]
  exact (t_update h (h.client.set rfl rfl rfl)).bind fun _ _ _ h => t_pure h _

open Ctap

theorem makePIN_same {c1 c2 : Client} (h : Near A c1 c2) (args : MakeCredArgs) :
    makeCredentialPIN E c2 args = makeCredentialPIN E c1 args := by
  unfold makeCredentialPIN
  rw [h.pinEnabled, h.pinToken, h.pinHash]

theorem getPIN_same {c1 c2 : Client} (h : Near A c1 c2) (args : GetAssertionArgs) :
    getAssertionPIN E c2 args = getAssertionPIN E c1 args := by
  unfold getAssertionPIN
  rw [h.pinEnabled, h.pinToken]

theorem t_make (L : Laws E) (h : Twin A w1 w2) (data : Bytes) :
    T A (handleMakeCredential E data) (handleMakeCredential E data) w1 w2 := by
  unfold handleMakeCredential
  cases hd : E.decodeMakeCred data with
  | none => exact t_throw h _
  | some args =>
    dsimp only
    split
    · exact t_pure h _
    refine .get ?_
    rw [makePIN_same h.client]
    split
    · exact t_pure h _
    split
    · exact t_throw h _
    refine (t_approve h _ _ _).bind fun ok _ _ h => ?_
    split
    · exact t_pure h _
    refine (t_new L h _ _ _ _).bind fun s _ _ h => ?_
    split
    · exact t_pure h _
    refine (t_lift h _).bind fun _ _ _ h => ?_
    exact (t_certificate h _).bind fun _ _ _ h => (t_sign h _ _).bind fun _ _ _ h => t_pure h _

theorem t_finish (h : Twin A w1 w2) (args : GetAssertionArgs) (s : Source) (f : UInt8) :
    T A (finishAssertion E args s f) (finishAssertion E args s f) w1 w2 := by
  unfold finishAssertion
  exact (t_sign h _ _).bind fun _ _ _ h => t_pure h _

theorem t_assertion (L : Laws E) (h : Twin A w1 w2) (data : Bytes)
    (ha : ∀ args, E.decodeGetAssertion data = some args → args.rpId = A) :
    T A (handleGetAssertion E data) (handleGetAssertion E data) w1 w2 := by
  unfold handleGetAssertion
  cases hd : E.decodeGetAssertion data with
  | none => exact t_pure h _
  | some args =>
    obtain rfl := ha args hd
    dsimp only
    refine .get ?_
    rw [getPIN_same h.client]
    split
    · exact t_pure h _
    refine (t_source L h _).bind fun s _ _ h => ?_
    split
    · exact t_pure h _
    split
    · exact t_finish h _ _ _
    refine (t_login h _).bind fun ok _ _ h => ?_
    split
    · exact t_pure h _
    · exact t_finish h _ _ _

theorem t_info (h : Twin A w1 w2) : T A handleGetInfo handleGetInfo w1 w2 := by
  unfold handleGetInfo
  refine .get ?_
  rw [h.client.pinEnabled, h.client.pinHash]
  exact t_pure h _

theorem t_setHash (L : Laws E) (h : Twin A w1 w2) (x : Option Bytes) :
    T A (setPINHash E x) (setPINHash E x) w1 w2 := by
  unfold setPINHash
  exact (t_update h (h.client.set (f := fun c => { c with pinHash := x }) rfl rfl rfl)).bind fun _ _ _ h => t_save L h

theorem secret_same {c1 c2 : Client} (h : Near A c1 c2) (k : EC2Key) :
    sharedSecret E c2 k = sharedSecret E c1 k := by
  unfold sharedSecret
  rw [h.keyAgreement]

theorem t_retries_bind (h : Twin A w1 w2) {f : Int → Go World β}
    (hf : ∀ n, T A (f n) (f n) w1 w2) : T A (getPINRetries >>= f) (getPINRetries >>= f) w1 w2 := by
  have e : ∀ w : World, (0 < w.client.pinRetries ∧ w.client.pinRetries ≤ 8 →
      getPINRetries w = (.ok w.client.pinRetries, w)) ∧
      (¬ (0 < w.client.pinRetries ∧ w.client.pinRetries ≤ 8) → getPINRetries w = (.panic .explicit, w)) := by
    intro w
    refine ⟨fun hc => ?_, fun hc => ?_⟩ <;> unfold getPINRetries <;> rw [get_bind_run]
    · rw [if_pos hc]; rfl
    · rw [if_neg hc]; rfl
  by_cases hc : 0 < w1.client.pinRetries ∧ w1.client.pinRetries ≤ 8
  · have e1 := (e w1).1 hc
    have e2 := (e w2).1 (by rw [h.client.pinRetries]; exact hc)
    rw [h.client.pinRetries] at e2
    have := hf w1.client.pinRetries
    unfold T Twice at this ⊢
    rwa [run_bind_ok e1, run_bind_ok e2]
  · exact .inr ⟨_, _, w1, w2, run_bind_panic ((e w1).2 hc),
      run_bind_panic ((e w2).2 (by rw [h.client.pinRetries]; exact hc)), h.dead⟩

theorem t_lift_bind (h : Twin A w1 w2) {r : Res α} {f : α → Go World β}
    (hf : ∀ a, r = .ok a → T A (f a) (f a) w1 w2) : T A (Go.lift r >>= f) (Go.lift r >>= f) w1 w2 := by
  cases r with
  | ok a => exact hf a rfl
  | panic c => exact .inr ⟨c, c, w1, w2, rfl, rfl, h.dead⟩

theorem t_setPIN (L : Laws E) (h : Twin A w1 w2) (args : ClientPINArgs) :
    T A (handleSetPIN E args) (handleSetPIN E args) w1 w2 := by
  unfold handleSetPIN
  refine .get ?_
  rw [h.client.pinHash]
  split
  · exact t_pure h _
  split
  · rw [secret_same h.client]
    refine t_lift_bind h fun secret _ => ?_
    split
    · exact t_pure h _
    refine t_lift_bind h fun pin _ => ?_
    split
    · exact t_pure h _
    exact (t_setRetries h _).bind fun _ _ _ h => (t_setHash L h _).bind fun _ _ _ h => t_pure h _
  · exact t_pure h _

theorem t_change (L : Laws E) (h : Twin A w1 w2) (args : ClientPINArgs) :
    T A (handleChangePIN E args) (handleChangePIN E args) w1 w2 := by
  unfold handleChangePIN
  cases hk : args.keyAgreement with
  | none => exact t_pure h _
  | some key =>
    cases args.pinAuth with
    | none => exact t_pure h _
    | some auth =>
      refine t_retries_bind h fun n => ?_
      split
      · exact t_pure h _
      refine .get ?_
      rw [secret_same h.client]
      refine t_lift_bind h fun secret hs => ?_
      split
      · exact t_pure h _
      refine t_retries_bind h fun n => (t_setRetries h _).bind fun _ v1 v2 h => t_lift_bind h fun x hx => .get ?_
      rw [h.client.pinHash]
      split
      · exact t_pure h _
      · refine (t_setRetries h _).bind fun _ _ _ h => t_lift_bind h fun pin _ => ?_
        split
        · exact t_pure h _
        · exact (t_setHash L h _).bind fun _ _ _ h => t_pure h _

theorem t_token (h : Twin A w1 w2) (args : ClientPINArgs) :
    T A (handleGetPINToken E args) (handleGetPINToken E args) w1 w2 := by
  unfold handleGetPINToken
  cases he : args.pinHashEnc with
  | none => exact t_pure h _
  | some enc =>
    cases hk : args.keyAgreement with
    | none => exact t_throw h _
    | some key =>
      dsimp only
      split
      · exact t_pure h _
      refine t_retries_bind h fun n => ?_
      split
      · exact t_pure h _
      refine .get ?_
      rw [secret_same h.client]
      refine t_lift_bind h fun secret hs => t_retries_bind h fun n =>
        (t_setRetries h _).bind fun _ v1 v2 h => t_lift_bind h fun x hx => .get ?_
      rw [h.client.pinHash, h.client.pinToken]
      split
      · exact t_pure h _
      · exact (t_setRetries h _).bind fun _ _ _ h => t_lift_bind h fun _ _ => t_pure h _

theorem t_pin (L : Laws E) (h : Twin A w1 w2) (data : Bytes) :
    T A (handleClientPIN E data) (handleClientPIN E data) w1 w2 := by
  unfold handleClientPIN
  refine .get ?_
  rw [h.client.pinEnabled]
  split
  · exact t_pure h _
  cases hd : E.decodeClientPIN data with
  | none => exact t_pure h _
  | some args =>
    dsimp only
    split
    · exact t_pure h _
    split
    · exact (t_retries h).bind fun _ _ _ h => t_pure h _
    split
    · unfold handleGetKeyAgreement
      refine .get ?_
      rw [h.client.keyAgreement]
      exact t_pure h _
    split
    · exact t_setPIN L h args
    split
    · exact t_change L h args
    split
    · exact t_token h args
    · exact t_pure h _

theorem t_ctap (L : Laws E) (h : Twin A w1 w2) (m : Bytes)
    (ha : ∀ data args, m = 0x02 :: data → E.decodeGetAssertion data = some args → args.rpId = A) :
    T A (Ctap.handleMessage E m) (Ctap.handleMessage E m) w1 w2 := by
  unfold Ctap.handleMessage
  cases m with
  | nil => exact t_throw h _
  | cons c data =>
    dsimp only
    split
    · exact t_make L h data
    split
    · exact t_info h
    split
    · rename_i hc
      exact t_assertion L h data fun args => ha data args (by rw [hc])
    split
    · exact t_pin L h data
    · exact t_throw h _

/-! ### U2F -/

theorem t_seal (h : Twin A w1 w2) (k : KeyHandle) :
    T A (U2f.sealKeyHandle E k) (U2f.sealKeyHandle E k) w1 w2 := by
  unfold U2f.sealKeyHandle
  refine .get ?_
  rw [h.client.deviceKey]
  exact (t_draw h).bind fun n _ _ h => t_lift_bind h fun _ _ => t_pure h _

theorem t_register (h : Twin A w1 w2) (r : Bytes) :
    T A (U2f.handleRegister E r) (U2f.handleRegister E r) w1 w2 := by
  unfold U2f.handleRegister
  split
  · exact t_throw h _
  dsimp only
  split
  · exact t_throw h _
  unfold newPrivateKey
  refine ((t_draw h).bind fun _ _ _ h => t_pure h _).bind fun key _ _ h => (t_seal h _).bind fun kh _ _ h =>
    (t_approve h _ _ _).bind fun ok _ _ h => ?_
  split
  · exact t_pure h _
  · exact (t_certificate h _).bind fun _ _ _ h => (t_sign h _ _).bind fun _ _ _ h => t_pure h _

theorem t_finishU2F (h : Twin A w1 w2) (k : ECPriv) (a c : Bytes) :
    T A (U2f.finishAuthenticate E k a c) (U2f.finishAuthenticate E k a c) w1 w2 := by
  unfold U2f.finishAuthenticate
  exact (t_counter h).bind fun _ _ _ h => (t_sign h _ _).bind fun _ _ _ h => t_pure h _

theorem open_same {c1 c2 : Client} (h : Near A c1 c2) (b : Bytes) :
    U2f.openKeyHandle E c2 b = U2f.openKeyHandle E c1 b := by
  unfold U2f.openKeyHandle
  rw [h.deviceKey]

theorem t_authenticate (h : Twin A w1 w2) (c : UInt8) (r : Bytes) :
    T A (U2f.handleAuthenticate E c r) (U2f.handleAuthenticate E c r) w1 w2 := by
  unfold U2f.handleAuthenticate
  refine t_lift_bind h fun a _ => ?_
  obtain ⟨ch, app, hd⟩ := a
  refine .get ?_
  rw [open_same h.client]
  refine t_lift_bind h fun o _ => ?_
  split
  · exact t_pure h _
  split
  · exact t_pure h _
  split
  · exact t_pure h _
  split
  · exact t_throw h _
  split
  · exact t_pure h _
  split
  · refine (t_approve h _ _ _).bind fun ok _ _ h => ?_
    split
    · exact t_pure h _
    · exact t_finishU2F h _ _ _
  split
  · exact t_finishU2F h _ _ _
  · exact t_pure h _

theorem t_u2f (h : Twin A w1 w2) (m : Bytes) :
    T A (U2f.handleMessage E m) (U2f.handleMessage E m) w1 w2 := by
  unfold U2f.handleMessage
  refine t_lift_bind h fun a _ => ?_
  obtain ⟨hd, r, n⟩ := a
  dsimp only
  split
  · exact t_pure h _
  split
  · exact t_register h _
  split
  · exact t_authenticate h _ _
  · exact t_throw h _

/-! ### The whole device -/

theorem t_perform (L : Laws E) (h : Twin A w1 w2) {op : Op} (ho : Within E A op) :
    T A (Device.perform E op) (Device.perform E op) w1 w2 := by
  cases op with
  | ctap m =>
    refine (t_ctap L h m fun data args e => ?_).bind fun _ _ _ h => t_pure h _
    subst e
    exact ho args
  | u2f m => exact (t_u2f h m).bind fun _ _ _ h => t_pure h _
  | enablePIN =>
    exact ((t_update h (h.client.set rfl rfl rfl)).bind fun _ _ _ h => t_save L h).bind
      fun _ _ _ h => t_pure h _
  | disablePIN =>
    exact ((t_update h (h.client.set rfl rfl rfl)).bind fun _ _ _ h => t_save L h).bind
      fun _ _ _ h => t_pure h _
  | setPIN pin => exact (t_setHash L h _).bind fun _ _ _ h => t_pure h _
  | deleteIdentity id => cases ho
  | restart => cases ho

/-- Devices that differ in others' credentials. -/
def TwinDevice (A : Bytes) (d1 d2 : Device) : Prop :=
  d2.alive = d1.alive ∧ TwinDead d1.world d2.world ∧ (d1.alive = true → Near A d1.world.client d2.world.client)

theorem twin_step (L : Laws E) {cfg : Config} {d1 d2 : Device} (h : TwinDevice A d1 d2) {op : Op}
    (ho : Within E A op) :
    (Device.step E cfg d2 op).1 = (Device.step E cfg d1 op).1 ∧
    TwinDevice A (Device.step E cfg d1 op).2 (Device.step E cfg d2 op).2 := by
  obtain ⟨ha, hd, hc⟩ := h
  have hr : Spec.History.isRestart op = false := by
    cases op with
    | restart => cases ho
    | _ => rfl
  cases a1 : d1.alive with
  | false =>
    rw [Device.step_dead hr a1, Device.step_dead hr (ha.trans a1)]
    exact ⟨rfl, ha, hd, fun h => by rw [a1] at h; cases h⟩
  | true =>
    have hw : Twin A d1.world d2.world := ⟨hc a1, hd.rnd, hd.asks⟩
    rw [Device.step_live hr a1, Device.step_live hr (ha.trans a1)]
    rcases t_perform L hw ho with ⟨r, v1, v2, q1, q2, hv⟩ | ⟨c, c', v1, v2, q1, q2, hv⟩
    · rw [q1, q2]
      exact ⟨rfl, rfl, hv.dead, fun _ => hv.client⟩
    · rw [q1, q2]
      exact ⟨rfl, rfl, hv, fun h => (nomatch h)⟩

theorem twin_run (L : Laws E) {cfg : Config} (ops : List Op) {d1 d2 : Device} (h : TwinDevice A d1 d2)
    (ho : ∀ op ∈ ops, Within E A op) :
    (Device.run E cfg d2 ops).1 = (Device.run E cfg d1 ops).1 ∧
    TwinDevice A (Device.after E cfg d1 ops) (Device.after E cfg d2 ops) := by
  induction ops generalizing d1 d2 with
  | nil => exact ⟨rfl, h⟩
  | cons op ops ih =>
    obtain ⟨e, h'⟩ := twin_step (cfg := cfg) L h (ho op (List.mem_cons_self ..))
    obtain ⟨e', h''⟩ := ih h' fun o hm => ho o (List.mem_cons_of_mem _ hm)
    refine ⟨?_, h''⟩
    rw [Device.run_cons, Device.run_cons, e, e']

end VF.Fido.Isolation
