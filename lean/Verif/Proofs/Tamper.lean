import Verif.Spec.Tamper
import Verif.Proofs.Accounts
import Verif.Proofs.OverlapSaves
import Verif.Props.Processes
import Verif.Props.Log

/-!
# Lemmas on `Verif.Spec.Tamper`
-/

namespace VF.Fido.Device

open VF.Spec.Client VF.Spec.Vault VF.Spec.History VF.Spec.Ctap VF.Spec.Store VF.Spec.Cose VF.Spec.Draws
open VF.Spec.Tamper (savedBy saved seen Unforged Hostile)
open VF.Fido.Processes (Event)
open VF.Props (withFile withFile_self step_blind)

variable {E : Env} {cfg : Client.Config}

/-! ## Old data -/

/-- A save: the client that was saved, the first draw, what was written. -/
structure Save where
  client : Client
  draw : Nat
  blob : Bytes

/-- These data decrypt to what something saved decrypts to, or not at all. -/
def Old (E : Env) (log : List Save) (data : Bytes) : Prop :=
  (∃ x ∈ log, Saved.decryptState E data E.passphrase = Saved.decryptState E x.blob E.passphrase) ∨
    ∀ s, Saved.decryptState E data E.passphrase ≠ .ok (some s)

theorem start_old {log : List Save} {data : Bytes} (h : Old E log data) (rnd : Nat) :
    (∃ x ∈ log, Client.start E cfg (some data) rnd = Client.start E cfg (some x.blob) rnd) ∨
      ∃ c, Client.start E cfg (some data) rnd = .panic c := by
  rcases h with ⟨x, hx, e⟩ | h
  · refine .inl ⟨x, hx, ?_⟩
    simp only [Client.start, Client.importData, e]
  · refine .inr ?_
    simp only [Client.start, Client.importData]
    cases hd : Saved.decryptState E data E.passphrase with
    | panic c => exact ⟨c, rfl⟩
    | ok o =>
      cases o with
      | none => exact ⟨_, rfl⟩
      | some s => exact absurd hd (h s)

theorem pairwise_draws {log : List Save} (h : log.Pairwise (fun a b => a.draw + 4 ≤ b.draw)) {x y : Save} (hx : x ∈ log)
    (hy : y ∈ log) (e : x.draw = y.draw) : x = y := by
  induction log with
  | nil => cases hx
  | cons a log ih =>
    rw [List.pairwise_cons] at h
    rcases List.mem_cons.1 hx with ex | hx <;> rcases List.mem_cons.1 hy with ey | hy
    · rw [ex, ey]
    · have := h.1 y hy; rw [ex] at e; omega
    · have := h.1 x hx; rw [ey] at e; omega
    · exact ih h.2 hx hy

theorem unforged_old (L : Laws E) {log : List Save} {n : Nat} (hd : Spec.Draws.Distinct E 32 n)
    (hp : log.Pairwise (fun a b => a.draw + 4 ≤ b.draw))
    (hs : ∀ x ∈ log, x.draw + 4 ≤ n ∧ Ctap.Saves E x.client x.draw x.blob (x.draw + 4)) {data : Bytes}
    (h : Unforged E (log.map (·.blob)) data) : Old E log data := by
  have hblob : ∀ x ∈ log, ∃ o, E.parseBlob x.blob = some o ∧ dataKey E o = some (E.rand (x.draw + 1) 32) := by
    intro x hx
    obtain ⟨st, -, he⟩ := (hs x hx).2
    obtain ⟨-, -, o, p1, -, p2, -⟩ := Overlap.encrypted_with L he
    exact ⟨o, p1, p2⟩
  have hdec : ∀ b : Bytes, ∀ blob, E.parseBlob b = some blob → Saved.decryptState E b E.passphrase =
      (if blob.keyNonce.length = 12 then
        match E.gcmOpen (E.scrypt E.passphrase blob.salt) blob.keyNonce blob.encryptionKey with
        | none => .ok none
        | some key => (decrypt E key blob.encryptedData blob.dataNonce).bind fun
          | none => Res.ok none
          | some b => .ok (E.parseState b)
      else .panic .library) := by
    intro b blob hb
    simp only [Saved.decryptState, Saved.decryptWithPassphrase, hb, decrypt, Saved.aesKeyOk_32 (L.scrypt_length _ _), if_true]
    split
    · rename_i h12
      cases E.gcmOpen (E.scrypt E.passphrase blob.salt) blob.keyNonce blob.encryptionKey with
      | none => rfl
      | some key => rfl
    · rfl
  cases hb : E.parseBlob data with
  | none =>
    refine .inr fun s e => ?_
    simp only [Saved.decryptState, Saved.decryptWithPassphrase, hb] at e
    cases e
  | some blob =>
    have e0 := hdec data blob hb
    by_cases h12 : ¬ blob.keyNonce.length = 12
    · rw [if_neg h12] at e0
      exact .inr fun s e => by rw [e0] at e; cases e
    have h12 := Decidable.not_not.1 h12
    rw [if_pos h12] at e0
    cases hk : E.gcmOpen (E.scrypt E.passphrase blob.salt) blob.keyNonce blob.encryptionKey with
    | none =>
      rw [hk] at e0
      exact .inr fun s e => by rw [e0] at e; cases e
    | some key =>
      rw [hk] at e0
      dsimp only at e0
      obtain ⟨b, hbm, o, o1, o2, o3, o4⟩ := h.key blob hb (by rw [hk]; exact (nomatch ·))
      obtain ⟨x, hx, rfl⟩ := List.mem_map.1 hbm
      obtain ⟨o', q1, q2⟩ := hblob x hx
      obtain rfl : o = o' := by rw [o1] at q1; exact Option.some.inj q1
      have hkey : key = E.rand (x.draw + 1) 32 := by
        unfold dataKey at q2
        rw [o2, o3, o4, hk] at q2
        exact Option.some.inj q2
      subst hkey
      have hok := Saved.aesKeyOk_32 (L.rand_length (x.draw + 1) 32)
      by_cases n12 : ¬ blob.dataNonce.length = 12
      · simp only [decrypt, hok, if_true, n12, if_false] at e0
        exact .inr fun s e => by rw [e0] at e; cases e
      have n12 := Decidable.not_not.1 n12
      cases hc : E.gcmOpen (E.rand (x.draw + 1) 32) blob.dataNonce blob.encryptedData with
      | none =>
        simp only [decrypt, hok, if_true, n12, hc] at e0
        exact .inr fun s e => by rw [e0] at e; cases e
      | some text =>
        obtain ⟨b', hbm', p, p1, p2, p3, p4⟩ := h.contents blob _ hb hk ⟨x.blob, hbm, o, o1, q2⟩ (by rw [hc]; exact (nomatch ·))
        obtain ⟨y, hy, rfl⟩ := List.mem_map.1 hbm'
        obtain ⟨p', r1, r2⟩ := hblob y hy
        obtain rfl : p = p' := by rw [p1] at r1; exact Option.some.inj r1
        have hxy : y.draw + 1 = x.draw + 1 := by
          have := (hs x hx).1
          have := (hs y hy).1
          exact hd _ _ (by omega) (by omega) (Option.some.inj (r2.symm.trans p2))
        obtain rfl := pairwise_draws hp hy hx (by omega)
        obtain rfl : o = p := by rw [o1] at p1; exact Option.some.inj p1
        refine .inl ⟨y, hx, ?_⟩
        rw [e0, hdec y.blob o o1, o3, o2, o4, if_pos h12, hk, p3, p4]

/-! ## One request -/

/-- A credential that an answer to a request has announced. -/
def Announced (S : List (Op × Reply)) (c : Cred) : Prop :=
  ∃ data b, (.ctap (1 :: data), .answer b) ∈ S ∧ announced b = some c

/-- A client that can be saved, with the keys of the configuration, and with credentials all of which have been announced. -/
def Good (E : Env) (cfg : Client.Config) (S : List (Op × Reply)) (c : Client) : Prop :=
  Healthy E c ∧ (c.deviceKey = cfg.deviceKey ∧ c.cert = cfg.cert ∧ SamePrivate cfg.certKey c.certKey) ∧
    ∀ s ∈ c.vault, ∃ cr, Announced S cr ∧ shown s = want cr ∧ cr.id.length = 16

theorem Good.mono {S S' : List (Op × Reply)} {c : Client} (h : Good E cfg S c) (hS : ∀ x ∈ S, x ∈ S') : Good E cfg S' c := by
  obtain ⟨h1, h2, h3⟩ := h
  refine ⟨h1, h2, fun s hs => ?_⟩
  obtain ⟨cr, ⟨data, b, q1, q2⟩, q3⟩ := h3 s hs
  exact ⟨cr, ⟨data, b, hS _ q1, q2⟩, q3⟩

theorem Good.same {S : List (Op × Reply)} {c c' : Client} (h : Good E cfg S c) (hh : Healthy E c') (hs : SameDevice c c') :
    Good E cfg S c' := by
  obtain ⟨h1, ⟨k1, k2, k3⟩, h3⟩ := h
  refine ⟨hh, ⟨hs.1.symm.trans k1, hs.2.1.symm.trans k2, SamePrivate.trans k3 hs.2.2.1⟩, ?_⟩
  intro s hm
  have hm : shown s ∈ c'.vault.map shown := List.mem_map.2 ⟨s, hm, rfl⟩
  rw [← sameCredentials_shown hs.2.2.2.2.2] at hm
  obtain ⟨t, ht, e⟩ := List.mem_map.1 hm
  obtain ⟨cr, q1, q2⟩ := h3 t ht
  exact ⟨cr, q1, e.symm.trans q2.1, q2.2⟩

theorem Good.attests {S : List (Op × Reply)} {c : Client} (h : Good E cfg S c)
    (hat : CanAttest E (boot E cfg).world.client) : CanAttest E c := by
  obtain ⟨-, ⟨-, k2, k3⟩, -⟩ := h
  obtain ⟨issuer, e1, e2, e3⟩ := hat
  have e1 : cfg.certKey = { ecdsa := some issuer } := e1
  have e3 : E.certSubject cfg.cert = some { ecdsa := some issuer.pub } := e3
  refine ⟨issuer, ?_, e2, by rw [k2]; exact e3⟩
  obtain ⟨s1, s2, s3⟩ := k3
  rw [e1] at s1 s2 s3
  generalize c.certKey = k at *
  obtain ⟨a, b, r⟩ := k
  dsimp only at s1 s2 s3
  subst s1; subst s2
  cases r with
  | none => rfl
  | some r => simp at s3

theorem savedBy_eq (d : Device) (op : Op) : savedBy E cfg d op = (step E cfg (withFile none d) op).2.world.store := rfl

/-- One request to a running device. -/
theorem own_step (L : Laws E) (hat : CanAttest E (boot E cfg).world.client) {d : Device} {op : Op} {S : List (Op × Reply)}
    (hr : op ≠ .restart) (ha : d.alive = true) (hg : Good E cfg S d.world.client) :
    d.world.rnd ≤ (step E cfg d op).2.world.rnd ∧
    ((savedBy E cfg d op = none ∧ (step E cfg d op).2.world.store = d.world.store ∧
        ((step E cfg d op).2.alive = true → Good E cfg (S ++ [(op, (step E cfg d op).1)]) (step E cfg d op).2.world.client)) ∨
      ∃ b m, savedBy E cfg d op = some b ∧ (step E cfg d op).2.world.store = some b ∧
        Ctap.Saves E (step E cfg d op).2.world.client m b (m + 4) ∧ d.world.rnd ≤ m ∧
        m + 4 ≤ (step E cfg d op).2.world.rnd ∧
        Good E cfg (S ++ [(op, (step E cfg d op).1)]) (step E cfg d op).2.world.client) := by
  have hmono : ∀ x ∈ S, x ∈ S ++ [(op, (step E cfg d op).1)] := fun x hx => List.mem_append_left _ hx
  obtain ⟨r, d1, s, hb⟩ := step_blind (E := E) (cfg := cfg) d hr
  have e1 := hb d.world.store
  rw [withFile_self] at e1
  have e0 := hb none
  have hs : savedBy E cfg d op = s := by
    rw [savedBy_eq, e0]
    show Option.or s none = s
    cases s <;> rfl
  have hst : (step E cfg d op).2.world.store = Option.or s d.world.store := by rw [e1]; rfl
  have hr' : isRestart op = false := by
    cases op with
    | restart => exact absurd rfl hr
    | _ => rfl
  -- the same with no file
  generalize hw : { d.world with store := none } = w
  have hwc : w.client = d.world.client := by rw [← hw]
  have hwr : w.rnd = d.world.rnd := by rw [← hw]
  have hwn : w.store = none := by rw [← hw]
  have el : step E cfg (withFile none d) op = (match (perform E op w).1 with
        | .ok r => (r, ⟨(perform E op w).2, true⟩)
        | .panic _ => (.panicked, ⟨(perform E op w).2, false⟩)) := by
    rw [← hw]
    exact step_live (d := withFile none d) hr' ha
  have ew : (step E cfg (withFile none d) op).2.world = (perform E op w).2 := by
    rw [el]
    cases (perform E op w).1 <;> rfl
  have ec : (step E cfg d op).2.world.client = (perform E op w).2.client := by rw [← ew, e0, e1]; rfl
  have ern : (step E cfg d op).2.world.rnd = (perform E op w).2.rnd := by rw [← ew, e0, e1]; rfl
  have es : s = (perform E op w).2.store := by
    rw [← ew, e0]
    show s = Option.or s none
    cases s <;> rfl
  have er : (step E cfg d op).1 = (match (perform E op w).1 with | .ok r => r | .panic _ => .panicked) := by
    have : (step E cfg d op).1 = (step E cfg (withFile none d) op).1 := by rw [e0, e1]
    rw [this, el]
    cases (perform E op w).1 <;> rfl
  have ea : (step E cfg d op).2.alive = true → ∃ r, (perform E op w).1 = .ok r := by
    have : (step E cfg d op).2.alive = (step E cfg (withFile none d) op).2.alive := by rw [e0, e1]; rfl
    rw [this, el]
    cases (perform E op w).1 with
    | ok r => exact fun _ => ⟨r, rfl⟩
    | panic c => intro h; cases h
  rw [hs, hst, ec, ern]
  obtain ⟨o1, o2⟩ := perform_out L op w
  refine ⟨by rw [← hwr]; exact o1, ?_⟩
  cases o2 with
  | kept hk hc =>
    have : s = none := by rw [es, hk, hwn]
    subst this
    refine .inl ⟨rfl, by cases d.world.store <;> rfl, fun _ => ?_⟩
    refine Good.mono (Good.same (c := w.client) (by rw [hwc]; exact hg) ?_ hc.same) hmono
    exact hc.healthy (by rw [hwc]; exact hg.1)
  | lost c hl hk =>
    have : s = none := by rw [es, hk, hwn]
    subst this
    refine .inl ⟨rfl, by cases d.world.store <;> rfl, fun hal => ?_⟩
    obtain ⟨r, hok⟩ := ea hal
    rw [hok] at hl
    cases hl
  | saved blob m n hk hv hh hch hkeys hbound =>
    have : s = some blob := by rw [es, hk]
    subst this
    have hn := saves_rnd L hv
    subst hn
    refine .inr ⟨blob, m, rfl, rfl, hv, by omega, hbound.2, ?_⟩
    have hh := hh (by rw [hwc]; exact hg.1)
    have hkeys : (perform E op w).2.client.deviceKey = cfg.deviceKey ∧ (perform E op w).2.client.cert = cfg.cert ∧
        SamePrivate cfg.certKey (perform E op w).2.client.certKey := by
      obtain ⟨k1, k2, k3⟩ := hkeys
      rw [k1, k2, k3, hwc]
      exact hg.2.1
    refine ⟨hh, hkeys, ?_⟩
    have hold : ∀ t ∈ w.client.vault, 
        ∃ cr, Announced (S ++ [(op, (step E cfg d op).1)]) cr ∧ shown t = want cr ∧ cr.id.length = 16 := by
      rw [hwc]
      exact (hg.mono hmono).2.2
    intro t ht
    by_cases hmk : ∃ data, op = .ctap (1 :: data)
    · obtain ⟨data, rfl⟩ := hmk
      rw [perform_ctap'] at ht hk er
      rcases make_ends L data (w := w) (by rw [hwc]; exact hg.1) (by rw [hwc]; exact hg.attests hat) with
        ⟨e, w', -, hm, hc⟩ | ⟨c, w', hm, hc⟩ | ⟨body, w', hm⟩
      · rw [hm] at ht
        dsimp only at ht
        rw [hc] at ht
        exact hold t ht
      · rw [hm] at hk
        dsimp only at hk
        rw [hc, hwn] at hk
        cases hk
      · obtain ⟨s, cr, q1, q2, q3, q4, -⟩ := creation_announces L hm
        rw [hm] at ht er
        dsimp only at ht er
        rw [q1] at ht
        rcases List.mem_append.1 ht with ht | ht
        · exact hold t ht
        · obtain rfl := List.mem_singleton.1 ht
          refine ⟨cr, ⟨data, 0 :: body, List.mem_append_right _ (List.mem_singleton.2 ?_), q3⟩, q4, ?_⟩
          · rw [er]
            rfl
          · rw [← (Prod.mk.inj q4).1, q2, L.rand_length]
    · cases hch with
      | same h => rw [h] at ht; exact hold t ht
      | added rp user h hr ho =>
        cases op with
        | ctap m =>
          cases m with
          | nil => cases ho
          | cons c data =>
            by_cases hc : c = 1
            · exact absurd ⟨data, by rw [hc]⟩ hmk
            · exfalso
              unfold isMakeCredential at ho
              split at ho
              · rename_i heq; cases heq; exact hc rfl
              · cases ho
        | _ => cases ho
      | used i h ho =>
        have ht : shown t ∈ (perform E op w).2.client.vault.map shown := List.mem_map.2 ⟨t, ht, rfl⟩
        rw [h, bump_shown] at ht
        obtain ⟨t', h1, h2⟩ := List.mem_map.1 ht
        obtain ⟨cr, q1, q2⟩ := hold t' h1
        exact ⟨cr, q1, h2.symm.trans q2.1, q2.2⟩
      | removed s h ho => exact hold t (h.mem_iff.2 (List.mem_cons_of_mem _ ht))

/-! ## Histories -/

theorem tamper_after_snoc (d : Device) (evs : List Event) (e : Event) :
    Spec.Tamper.after E cfg d (evs ++ [e]) = (match e with
      | .own op => (step E cfg (Spec.Tamper.after E cfg d evs) op).2
      | .wrote data => Processes.wrote data (Spec.Tamper.after E cfg d evs)) := by
  unfold Spec.Tamper.after
  rw [Props.run_split]
  cases e <;> rfl

theorem tamper_saved_append (evs1 evs2 : List Event) (d : Device) :
    saved E cfg d (evs1 ++ evs2) = saved E cfg d evs1 ++ saved E cfg (Spec.Tamper.after E cfg d evs1) evs2 := by
  induction evs1 generalizing d with
  | nil => rfl
  | cons e evs ih =>
    cases e with
    | wrote data => exact ih _
    | own op =>
      rw [List.cons_append, saved, saved, ih, List.append_assoc]
      rfl

theorem tamper_seen_append (evs1 evs2 : List Event) (d : Device) :
    seen E cfg d (evs1 ++ evs2) = seen E cfg d evs1 ++ seen E cfg (Spec.Tamper.after E cfg d evs1) evs2 := by
  induction evs1 generalizing d with
  | nil => rfl
  | cons e evs ih =>
    cases e with
    | wrote data => exact ih _
    | own op =>
      rw [List.cons_append, seen, seen, ih]
      rfl

/-- What is known after a history. -/
structure Known (E : Env) (cfg : Client.Config) (evs : List Event) (log : List Save) : Prop where
  blobs : log.map (·.blob) = saved E cfg (boot E cfg) evs
  draws : log.Pairwise (fun a b => a.draw + 4 ≤ b.draw)
  bound : ∀ x ∈ log, x.draw + 4 ≤ (Spec.Tamper.after E cfg (boot E cfg) evs).world.rnd
  saves : ∀ x ∈ log, Ctap.Saves E x.client x.draw x.blob (x.draw + 4)
  good : ∀ x ∈ log, Good E cfg (seen E cfg (boot E cfg) evs) x.client
  when_ : ∀ x ∈ log, ∃ pre op post, evs = pre ++ .own op :: post ∧
    savedBy E cfg (Spec.Tamper.after E cfg (boot E cfg) pre) op = some x.blob ∧
    (Spec.Tamper.after E cfg (boot E cfg) (pre ++ [.own op])).world.client = x.client
  running : (Spec.Tamper.after E cfg (boot E cfg) evs).alive = true →
    Good E cfg (seen E cfg (boot E cfg) evs) (Spec.Tamper.after E cfg (boot E cfg) evs).world.client
  file : ((Spec.Tamper.after E cfg (boot E cfg) evs).world.store = none ∧ log = [] ∧ ∀ data, .wrote data ∉ evs) ∨
    ∃ data, (Spec.Tamper.after E cfg (boot E cfg) evs).world.store = some data ∧ Old E log data

theorem Old.mono {log log' : List Save} {data : Bytes} (h : Old E log data) : Old E (log ++ log') data := by
  rcases h with ⟨x, hx, e⟩ | h
  · exact .inl ⟨x, List.mem_append_left _ hx, e⟩
  · exact .inr h

/-- What a start does. -/
theorem known_start (L : Laws E) (hu : Usable E cfg) {evs : List Event} {log : List Save} (h : Known E cfg evs log) :
    (∃ c, Client.start E cfg (Spec.Tamper.after E cfg (boot E cfg) evs).world.store
        (Spec.Tamper.after E cfg (boot E cfg) evs).world.rnd = .panic c) ∨
    ∃ c', Client.start E cfg (Spec.Tamper.after E cfg (boot E cfg) evs).world.store
        (Spec.Tamper.after E cfg (boot E cfg) evs).world.rnd = .ok c' ∧
      Good E cfg (seen E cfg (boot E cfg) evs) c' ∧
      (((Spec.Tamper.after E cfg (boot E cfg) evs).world.store = none ∧ log = [] ∧ ∀ data, .wrote data ∉ evs) ∨
        ∃ x ∈ log, SameDevice x.client c') := by
  rcases h.file with ⟨h1, h2⟩ | ⟨data, h1, h2⟩
  · refine .inr ⟨Client.fresh E cfg _, by rw [h1]; rfl, ?_, .inl ⟨h1, h2⟩⟩
    refine ⟨⟨hu.1, hu.2.1, hu.2.2, by simp [Client.fresh], by simp [Client.fresh]⟩, ⟨rfl, rfl, SamePrivate.refl _⟩, ?_⟩
    intro s hs
    cases hs
  · rw [h1]
    rcases start_old (cfg := cfg) h2 (Spec.Tamper.after E cfg (boot E cfg) evs).world.rnd with ⟨x, hx, e⟩ | ⟨c, e⟩
    · obtain ⟨-, c', q1, q2, q3, -⟩ := saves_restore L (h.good x hx).1 (h.saves x hx) cfg
        (Spec.Tamper.after E cfg (boot E cfg) evs).world.rnd
      exact .inr ⟨c', e.trans q1, (h.good x hx).same q3 q2, .inr ⟨x, hx, q2⟩⟩
    · exact .inl ⟨c, e⟩

theorem hostile_front {d : Device} {evs : List Event} {e : Event} (h : Hostile E cfg d (evs ++ [e])) : Hostile E cfg d evs := by
  intro pre data post he
  exact h pre data (post ++ [e]) (by rw [he]; simp)

theorem tamper_rnd_front (L : Laws E) (evs : List Event) (e : Event) :
    (Spec.Tamper.after E cfg (boot E cfg) evs).world.rnd ≤ (Spec.Tamper.after E cfg (boot E cfg) (evs ++ [e])).world.rnd := by
  rw [tamper_after_snoc]
  cases e with
  | own op => exact step_rnd L _ op
  | wrote data => exact Nat.le_refl _

theorem tamper_rnd (L : Laws E) (evs : List Event) : ∀ more : List Event,
    (Spec.Tamper.after E cfg (boot E cfg) evs).world.rnd ≤ (Spec.Tamper.after E cfg (boot E cfg) (evs ++ more)).world.rnd := by
  intro more
  induction more using Props.snoc_induction with
  | h0 => rw [List.append_nil]; exact Nat.le_refl _
  | h1 more e ih =>
    rw [← List.append_assoc]
    exact Nat.le_trans ih (tamper_rnd_front L _ e)

theorem known (L : Laws E) (hu : Usable E cfg) (hat : CanAttest E (boot E cfg).world.client) (evs : List Event)
    (hh : Hostile E cfg (boot E cfg) evs)
    (hd : Spec.Draws.Distinct E 32 (Spec.Tamper.after E cfg (boot E cfg) evs).world.rnd) :
    ∃ log, Known E cfg evs log := by
  induction evs using Props.snoc_induction with
  | h0 =>
    refine ⟨[], rfl, List.Pairwise.nil, (by simp), (by simp), (by simp), (by simp), fun _ => ?_, .inl ⟨rfl, rfl, by simp⟩⟩
    refine ⟨⟨hu.1, hu.2.1, hu.2.2, (by simp [Spec.Tamper.after, Processes.run, boot, Client.fresh]),
      (by simp [Spec.Tamper.after, Processes.run, boot, Client.fresh])⟩, ⟨rfl, rfl, SamePrivate.refl _⟩, ?_⟩
    intro s hs
    cases hs
  | h1 evs e ih =>
    have hle := tamper_rnd_front (cfg := cfg) L evs e
    obtain ⟨log, k⟩ := ih (hostile_front hh) (fun i j hi hj => hd i j (by omega) (by omega))
    have hwhen : ∀ x ∈ log, ∃ pre op post, evs ++ [e] = pre ++ .own op :: post ∧
        savedBy E cfg (Spec.Tamper.after E cfg (boot E cfg) pre) op = some x.blob ∧
        (Spec.Tamper.after E cfg (boot E cfg) (pre ++ [.own op])).world.client = x.client := by
      intro x hx
      obtain ⟨pre, op, post, q1, q2⟩ := k.when_ x hx
      exact ⟨pre, op, post ++ [e], by rw [q1]; simp, q2⟩
    cases e with
    | wrote data =>
      have ea := tamper_after_snoc (E := E) (cfg := cfg) (boot E cfg) evs (.wrote data)
      dsimp only at ea
      have es : seen E cfg (boot E cfg) (evs ++ [.wrote data]) = seen E cfg (boot E cfg) evs := by
        rw [tamper_seen_append]; exact List.append_nil _
      refine ⟨log, ?_, k.draws, ?_, k.saves, ?_, hwhen, ?_, .inr ⟨data, by rw [ea]; rfl, ?_⟩⟩
      · rw [tamper_saved_append, k.blobs]; exact (List.append_nil _).symm
      · rw [ea]; exact k.bound
      · rw [es]; exact k.good
      · rw [es, ea]; exact k.running
      · refine unforged_old L hd k.draws (fun x hx => ⟨by have := k.bound x hx; omega, k.saves x hx⟩) ?_
        rw [k.blobs]
        exact hh evs data [] rfl
    | own op =>
      have ea := tamper_after_snoc (E := E) (cfg := cfg) (boot E cfg) evs (.own op)
      dsimp only at ea
      have es : seen E cfg (boot E cfg) (evs ++ [.own op]) = seen E cfg (boot E cfg) evs ++
          [(op, (step E cfg (Spec.Tamper.after E cfg (boot E cfg) evs) op).1)] := by
        rw [tamper_seen_append]; rfl
      have ev : saved E cfg (boot E cfg) (evs ++ [.own op]) = saved E cfg (boot E cfg) evs ++
          (savedBy E cfg (Spec.Tamper.after E cfg (boot E cfg) evs) op).toList := by
        rw [tamper_saved_append]
        show _ ++ (_ ++ []) = _
        rw [List.append_nil]
      have hgood : ∀ x ∈ log, Good E cfg (seen E cfg (boot E cfg) (evs ++ [.own op])) x.client := by
        intro x hx
        rw [es]
        exact (k.good x hx).mono fun y hy => List.mem_append_left _ hy
      have hbound : ∀ x ∈ log, x.draw + 4 ≤ (Spec.Tamper.after E cfg (boot E cfg) (evs ++ [.own op])).world.rnd := by
        intro x hx
        have := k.bound x hx
        omega
      have hw : (∀ data, Event.wrote data ∉ evs) → ∀ data, Event.wrote data ∉ evs ++ [.own op] := by
        intro h data hm
        rcases List.mem_append.1 hm with hm | hm
        · exact h data hm
        · cases List.mem_singleton.1 hm
      -- nothing saved
      have hnone : savedBy E cfg (Spec.Tamper.after E cfg (boot E cfg) evs) op = none →
          (Spec.Tamper.after E cfg (boot E cfg) (evs ++ [.own op])).world.store =
            (Spec.Tamper.after E cfg (boot E cfg) evs).world.store →
          ((Spec.Tamper.after E cfg (boot E cfg) (evs ++ [.own op])).alive = true →
            Good E cfg (seen E cfg (boot E cfg) (evs ++ [.own op]))
              (Spec.Tamper.after E cfg (boot E cfg) (evs ++ [.own op])).world.client) →
          ∃ log, Known E cfg (evs ++ [.own op]) log := by
        intro hs hst hg
        refine ⟨log, ?_, k.draws, hbound, k.saves, hgood, hwhen, hg, ?_⟩
        · rw [ev, hs, k.blobs]; exact (List.append_nil _).symm
        · rw [hst]
          rcases k.file with ⟨f1, f2, f3⟩ | f
          · exact .inl ⟨f1, f2, hw f3⟩
          · exact .inr f
      by_cases hr : op = .restart
      · subst hr
        have hs : savedBy E cfg (Spec.Tamper.after E cfg (boot E cfg) evs) .restart = none := rfl
        rcases known_start L hu k with ⟨c, hc⟩ | ⟨c', hc, hg, -⟩
        · have e : step E cfg (Spec.Tamper.after E cfg (boot E cfg) evs) .restart = (.panicked,
              ⟨{ (Spec.Tamper.after E cfg (boot E cfg) evs).world with
                rnd := (Spec.Tamper.after E cfg (boot E cfg) evs).world.rnd + 2 }, false⟩) := by
            simp only [step, hc]
          refine hnone hs (by rw [ea, e]) ?_
          rw [ea, e]
          intro h
          cases h
        · have e : step E cfg (Spec.Tamper.after E cfg (boot E cfg) evs) .restart = (.started,
              ⟨{ (Spec.Tamper.after E cfg (boot E cfg) evs).world with
                client := c', rnd := (Spec.Tamper.after E cfg (boot E cfg) evs).world.rnd + 2 }, true⟩) := by
            simp only [step, hc]
          refine hnone hs (by rw [ea, e]) ?_
          rw [ea, es, e]
          exact fun _ => hg.mono fun y hy => List.mem_append_left _ hy
      cases ha : (Spec.Tamper.after E cfg (boot E cfg) evs).alive with
      | false =>
        have hr' : isRestart op = false := by
          cases op with
          | restart => exact absurd rfl hr
          | _ => rfl
        have e := step_dead (E := E) (cfg := cfg) (d := Spec.Tamper.after E cfg (boot E cfg) evs) hr' ha
        have hs : savedBy E cfg (Spec.Tamper.after E cfg (boot E cfg) evs) op = none := by
          rw [savedBy_eq, step_dead (d := withFile none _) hr' ha]; rfl
        refine hnone hs (by rw [ea, e]) ?_
        rw [ea, e]
        intro h
        rw [ha] at h
        cases h
      | true =>
        obtain ⟨-, ⟨h1, h2, h3⟩ | ⟨b, m, h1, h2, h3, h4, h5, h6⟩⟩ := own_step L hat hr ha (k.running ha)
        · exact hnone h1 (by rw [ea]; exact h2) (by rw [ea, es]; exact h3)
        · refine ⟨log ++ [⟨(step E cfg (Spec.Tamper.after E cfg (boot E cfg) evs) op).2.world.client, m, b⟩], ?_, ?_, ?_, ?_, ?_,
            ?_, ?_, ?_⟩
          · rw [ev, h1, List.map_append, k.blobs]; rfl
          · rw [List.pairwise_append]
            refine ⟨k.draws, List.pairwise_singleton _ _, ?_⟩
            intro x hx y hy
            obtain rfl := List.mem_singleton.1 hy
            have := k.bound x hx
            dsimp only
            omega
          · intro x hx
            rcases List.mem_append.1 hx with hx | hx
            · exact hbound x hx
            · obtain rfl := List.mem_singleton.1 hx
              rw [ea]; exact h5
          · intro x hx
            rcases List.mem_append.1 hx with hx | hx
            · exact k.saves x hx
            · obtain rfl := List.mem_singleton.1 hx
              exact h3
          · intro x hx
            rcases List.mem_append.1 hx with hx | hx
            · exact hgood x hx
            · obtain rfl := List.mem_singleton.1 hx
              rw [es]; exact h6
          · intro x hx
            rcases List.mem_append.1 hx with hx | hx
            · exact hwhen x hx
            · obtain rfl := List.mem_singleton.1 hx
              exact ⟨evs, op, [], rfl, h1, by rw [ea]⟩
          · rw [ea, es]; exact fun _ => h6
          · refine .inr ⟨b, by rw [ea]; exact h2, .inl ⟨_, List.mem_append_right _ (List.mem_singleton.2 rfl), rfl⟩⟩

end VF.Fido.Device
