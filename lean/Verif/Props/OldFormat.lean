import Verif.Spec.OldFormat
import Verif.Proofs.Restore
import Verif.Props.Restart
import Verif.Proofs.Toy
import Verif.Proofs.ToyHistory

/-!
# C140: saved data of older versions are read; an unreadable key loses the credentials after it
-/

namespace VF.Props

open VF.Fido VF.Spec.Cose VF.Spec.Client VF.Spec.Vault VF.Spec.OldFormat
open VF.Spec.History (Usable)

variable {E : Env} {cfg : Client.Config}

theorem importKey_readable (L : Laws E) (ha : Apart E) {b : Bytes} {k : PrivKey} (h : Readable E b k) :
    ∃ k', Vault.importKey E b = .ok (some k') ∧ SamePrivate k k' ∧ Only k' ∧ KeyValid E k' := by
  rcases h with ⟨h1, h2, h3⟩ | ⟨ec, h1, rfl, rfl⟩
  · obtain ⟨b', k', m1, m2, m3, m4, m5⟩ := Vault.private_round_trip L k h1 h2
    rw [h3] at m1
    cases m1
    exact ⟨k', by simp only [Vault.importKey, m2, Res.bind_ok], m3, m4, m5⟩
  · refine ⟨{ ecdsa := some ec }, ?_, ⟨rfl, rfl, rfl⟩, .ecdsa ec, h1⟩
    simp only [Vault.importKey, Cose.unmarshalPrivate, ha ec h1, Res.bind_ok, L.parseECDER_toDER ec h1]

theorem importKey_unreadable {b : Bytes} (h : Unreadable E b) : Vault.importKey E b = .ok none := by
  simp only [Vault.importKey, Cose.unmarshalPrivate, h.1, Res.bind_ok, h.2]

/-- What follows the credentials that are read: nothing, or one that cannot be read and what follows that. -/
def Ends (E : Env) (tail : List SavedSource) : Prop := ∀ bad rest, tail = bad :: rest → Unreadable E bad.key

theorem importLoop_stops {tail : List SavedSource} (ht : Ends E tail) : ∀ (l : List (SavedSource × PrivKey)) (last : SavedSource),
    (∀ p ∈ l, Vault.importKey E p.1.key = .ok (some p.2)) →
    ∃ who, Vault.importLoop E last (l.map Prod.fst ++ tail) = .ok (l, who, tail.isEmpty) ∧ who ∈ last :: (l.map Prod.fst ++ tail)
  | [], last, _ => by
    cases tail with
    | nil => exact ⟨last, rfl, List.mem_cons_self ..⟩
    | cons bad rest =>
      refine ⟨bad, ?_, by simp⟩
      simp only [List.map_nil, List.nil_append, Vault.importLoop, importKey_unreadable (ht bad rest rfl), Res.bind_ok,
        List.isEmpty_cons]
  | p :: l, last, h => by
    obtain ⟨who, h1, h2⟩ := importLoop_stops ht l p.1 (fun q hq => h q (List.mem_cons_of_mem _ hq))
    refine ⟨who, ?_, ?_⟩
    · simp only [List.map_cons, List.cons_append, Vault.importLoop, h p (List.mem_cons_self ..), Res.bind_ok, h1]
    · rw [List.map_cons, List.cons_append]
      exact List.mem_cons_of_mem _ h2

theorem importSources_stops (old : List Source) {tail : List SavedSource} (ht : Ends E tail) (l : List (SavedSource × PrivKey))
    (h : ∀ p ∈ l, Vault.importKey E p.1.key = .ok (some p.2)) :
    ∃ v, Vault.importSources E old (l.map Prod.fst ++ tail) = .ok (old ++ v, tail.isEmpty) ∧ v.length = l.length ∧
      ∀ (i : Nat) (p : SavedSource × PrivKey) (s : Source), l[i]? = some p → v[i]? = some s →
        s.id = p.1.id ∧ s.type = p.1.type ∧ s.counter = p.1.counter ∧ s.key = p.2 ∧
        ∃ who ∈ l.map Prod.fst ++ tail, s.rp = some who.rp ∧ s.user = some who.user := by
  cases hs : l.map Prod.fst ++ tail with
  | nil =>
    obtain ⟨h1, h2⟩ := List.append_eq_nil_iff.1 hs
    obtain rfl : l = [] := List.map_eq_nil_iff.1 h1
    subst h2
    exact ⟨[], by rw [List.append_nil]; rfl, rfl, fun i p s hp => nomatch hp⟩
  | cons s0 rest =>
    obtain ⟨who, h1, h2⟩ := importLoop_stops ht l s0 h
    rw [hs] at h1 h2
    refine ⟨_, by simp only [Vault.importSources, h1, Res.bind_ok]; rfl, by simp, fun i p s hp hv => ?_⟩
    rw [List.getElem?_map, hp] at hv
    obtain rfl := Option.some.inj hv
    refine ⟨rfl, rfl, rfl, rfl, who, ?_, rfl, rfl⟩
    rcases List.mem_cons.1 h2 with rfl | h2
    · exact List.mem_cons_self ..
    · exact h2

/-- With the keys as they are read. -/
theorem readable_all (L : Laws E) (ha : Apart E) : ∀ (creds : List (SavedSource × PrivKey)),
    (∀ p ∈ creds, Readable E p.1.key p.2) →
    ∃ l : List (SavedSource × PrivKey), l.map Prod.fst = creds.map Prod.fst ∧
      (∀ p ∈ l, Vault.importKey E p.1.key = .ok (some p.2) ∧ Only p.2 ∧ KeyValid E p.2) ∧
      ∀ (i : Nat) (p q : SavedSource × PrivKey), creds[i]? = some p → l[i]? = some q → q.1 = p.1 ∧ SamePrivate p.2 q.2
  | [], _ => ⟨[], rfl, fun p hp => (nomatch hp), fun i p q hp => nomatch hp⟩
  | p :: creds, h => by
    obtain ⟨l, h1, h2, h3⟩ := readable_all L ha creds (fun q hq => h q (List.mem_cons_of_mem _ hq))
    obtain ⟨k, k1, k2, k3, k4⟩ := importKey_readable L ha (h p (List.mem_cons_self ..))
    refine ⟨(p.1, k) :: l, by rw [List.map_cons, List.map_cons, h1], ?_, ?_⟩
    · intro q hq
      rcases List.mem_cons.1 hq with rfl | hq
      · exact ⟨k1, k3, k4⟩
      · exact h2 q hq
    · intro i a q hp hq
      cases i with
      | zero =>
        simp only [List.getElem?_cons_zero, Option.some.injEq] at hp hq
        subst hp; subst hq
        exact ⟨rfl, k2⟩
      | succ i => exact h3 i a q (by simpa using hp) (by simpa using hq)

/-- **Import** keeps the credentials that the vault has, adds those up to the first unreadable key, in their order, and
returns an error exactly if there is such a key. -/
theorem C140_import (L : Laws E) (ha : Apart E) (old : List Source) (creds : List (SavedSource × PrivKey)) (tail : List SavedSource)
    (hr : ∀ p ∈ creds, Readable E p.1.key p.2) (ht : ∀ bad rest, tail = bad :: rest → Unreadable E bad.key) :
    ∃ new ok, Vault.importSources E old (creds.map Prod.fst ++ tail) = .ok (old ++ new, ok) ∧ (ok = true ↔ tail = []) ∧
      new.length = creds.length ∧
      ∀ (i : Nat) (p : SavedSource × PrivKey) (s : Source), creds[i]? = some p → new[i]? = some s → Restored p.1 p.2 s := by
  obtain ⟨l, l1, l2, l3⟩ := readable_all L ha creds hr
  obtain ⟨v, v1, v2, v3⟩ := importSources_stops old ht l (fun p hp => (l2 p hp).1)
  rw [l1] at v1
  have hlen : l.length = creds.length := by
    have := congrArg List.length l1
    simpa using this
  refine ⟨v, _, v1, List.isEmpty_iff, v2.trans hlen, fun i p s hp hv => ?_⟩
  obtain ⟨q, hq⟩ : ∃ q, l[i]? = some q := by
    have : i < creds.length := (List.getElem?_eq_some_iff.1 hp).1
    exact ⟨l[i]'(by omega), List.getElem?_eq_getElem (by omega)⟩
  obtain ⟨g1, g2⟩ := l3 i p q hp hq
  obtain ⟨f1, f2, f3, f4, -⟩ := v3 i q s hq hv
  rw [g1] at f1 f2 f3
  exact ⟨f1, f2, f3, by rw [f4]; exact g2⟩

/-- A start with saved data in which all credentials up to the first unreadable one are `creds`. -/
theorem start_reads (L : Laws E) (ha : Apart E) {st : SavedState} (hu : st.Utf8) (hcert : E.parseCert st.cert = true)
    {certKey : PrivKey} (hk : Readable E st.certKey certKey) {creds : List (SavedSource × PrivKey)} {tail : List SavedSource}
    (hs : st.sources = creds.map Prod.fst ++ tail) (hr : ∀ p ∈ creds, Readable E p.1.key p.2) (ht : Ends E tail)
    {blob : Bytes} {rnd n : Nat} (hb : Saved.encryptState E st E.passphrase rnd = some (blob, n)) (now : Nat) :
    ∃ c, Client.start E cfg (some blob) now = .ok c ∧ Restores st certKey creds c ∧ Healthy E c ∧
      ∀ s ∈ c.vault, ∃ who ∈ st.sources, s.rp = some who.rp ∧ s.user = some who.user := by
  obtain ⟨b', b1, b2⟩ := Saved.decryptState_encryptState L st hu E.passphrase rnd
  rw [hb] at b1
  cases b1
  obtain ⟨k', k1, k2, k3, k4⟩ := importKey_readable L ha hk
  obtain ⟨l, l1, l2, l3⟩ := readable_all L ha creds hr
  obtain ⟨v, v1, v2, v3⟩ := importSources_stops [] ht l (fun p hp => (l2 p hp).1)
  rw [l1, ← hs] at v1
  have hlen : l.length = creds.length := by
    have := congrArg List.length l1
    simpa using this
  have c1 : E.parseCert st.norm.cert = true := hcert
  have c2 : Vault.importKey E st.norm.certKey = .ok (some k') := k1
  have c3 : Vault.importSources E [] st.norm.sources = .ok (v, tail.isEmpty) := v1
  refine ⟨{ Client.fresh E cfg now with
      deviceKey := st.encryptionKey, cert := st.cert, certKey := k', authCounter := st.authCounter,
      pinEnabled := st.pinEnabled, pinHash := st.norm.pinHash, vault := v }, ?_, ?_, ?_, fun s hv => ?_⟩
  · simp only [Client.start, Client.importData, b2, Res.bind_ok, c1, c2, c3, Bool.true_eq_false, if_false]
    rfl
  · refine ⟨rfl, rfl, k2, rfl, rfl, rfl, v2.trans hlen, fun i p s hp hv => ?_⟩
    obtain ⟨q, hq⟩ : ∃ q, l[i]? = some q := by
      have : i < creds.length := (List.getElem?_eq_some_iff.1 hp).1
      exact ⟨l[i]'(by omega), List.getElem?_eq_getElem (by omega)⟩
    obtain ⟨g1, g2⟩ := l3 i p q hp hq
    obtain ⟨f1, f2, f3, f4, -⟩ := v3 i q s hq hv
    rw [g1] at f1 f2 f3
    exact ⟨f1, f2, f3, by rw [f4]; exact g2⟩
  · refine ⟨hcert, k3, k4, ?_, fun s hv => ?_⟩
    · show (if st.pinHash = some [] then none else st.pinHash) ≠ some []
      split
      · exact fun h => nomatch h
      · assumption
    · obtain ⟨i, hi⟩ := List.mem_iff_getElem?.1 hv
      obtain ⟨q, hq⟩ : ∃ q, l[i]? = some q := by
        have : i < v.length := (List.getElem?_eq_some_iff.1 hi).1
        exact ⟨l[i]'(by omega), List.getElem?_eq_getElem (by omega)⟩
      have hm := List.mem_of_getElem? hq
      obtain ⟨-, f2, -, f4, who, w1, w2, w3⟩ := v3 i q s hq hi
      rw [l1, ← hs] at w1
      obtain ⟨-, u2, u3, u4, u5⟩ := hu who w1
      have hqs : q.1 ∈ st.sources := by
        rw [hs, ← l1]
        exact List.mem_append_left _ (List.mem_map_of_mem hm)
      refine ⟨by rw [f4]; exact (l2 q hm).2.1, by rw [f4]; exact (l2 q hm).2.2, by rw [f2]; exact (hu q.1 hqs).1,
        ⟨_, w2, u2, u3⟩, ⟨_, w3, u4, u5⟩⟩
  · obtain ⟨i, hi⟩ := List.mem_iff_getElem?.1 hv
    obtain ⟨q, hq⟩ : ∃ q, l[i]? = some q := by
      have : i < v.length := (List.getElem?_eq_some_iff.1 hi).1
      exact ⟨l[i]'(by omega), List.getElem?_eq_getElem (by omega)⟩
    obtain ⟨-, -, -, -, who, w1, w2⟩ := v3 i q s hq hi
    rw [l1, ← hs] at w1
    exact ⟨who, w1, w2⟩

/-- **Old and new keys are read.**  Saved data with keys in the old format, the new one or some in each: the program starts,
and the device has all the keys, credentials and counters. -/
theorem C140_old_data_read (L : Laws E) (ha : Apart E) {st : SavedState} (hu : st.Utf8) (hcert : E.parseCert st.cert = true)
    {certKey : PrivKey} (hk : Readable E st.certKey certKey) {creds : List (SavedSource × PrivKey)}
    (hs : st.sources = creds.map Prod.fst) (hr : ∀ p ∈ creds, Readable E p.1.key p.2)
    {blob : Bytes} {rnd n : Nat} (hb : Saved.encryptState E st E.passphrase rnd = some (blob, n)) (now : Nat) :
    ∃ c, Client.start E cfg (some blob) now = .ok c ∧ Restores st certKey creds c := by
  obtain ⟨c, h1, h2, -⟩ := start_reads (cfg := cfg) L ha hu hcert hk (tail := []) (by rw [hs, List.append_nil]) hr
    (fun bad rest h => nomatch h) hb now
  exact ⟨c, h1, h2⟩

theorem export_new {k : PrivKey} {b : Bytes} (h1 : Only k) (h2 : KeyValid E k) (h : Cose.marshalPrivate k = .ok b) : New E b k :=
  ⟨h1, h2, h⟩

theorem exportSources_new : ∀ {v : List Source} {saved : List SavedSource}, (∀ s ∈ v, Only s.key ∧ KeyValid E s.key) →
    Vault.exportSources v = .ok saved → ∀ x ∈ saved, ∃ k, New E x.key k
  | [], saved, _, h => by
    cases h
    exact fun x hx => nomatch hx
  | s :: v, saved, hv, h => by
    simp only [Vault.exportSources] at h
    cases hk : Cose.marshalPrivate s.key with
    | panic c => rw [hk] at h; cases h
    | ok b =>
      rw [hk] at h
      simp only [Res.bind_ok] at h
      cases hrp : s.rp with
      | none => rw [hrp] at h; cases h
      | some rp =>
        cases hus : s.user with
        | none => rw [hrp, hus] at h; cases h
        | some u =>
          rw [hrp, hus] at h
          cases hr : Vault.exportSources v with
          | panic c => rw [hr] at h; cases h
          | ok tail =>
            rw [hr] at h
            simp only [Res.bind_ok] at h
            cases h
            intro x hx
            rcases List.mem_cons.1 hx with rfl | hx
            · exact ⟨s.key, (hv s (List.mem_cons_self ..)).1, (hv s (List.mem_cons_self ..)).2, hk⟩
            · exact exportSources_new (fun y hy => hv y (List.mem_cons_of_mem _ hy)) hr x hx

/-- **What is saved then is in the new format**, and a start with it gives the same device. -/
theorem C140_converted (L : Laws E) (ha : Apart E) {st : SavedState} (hu : st.Utf8) (hcert : E.parseCert st.cert = true)
    {certKey : PrivKey} (hk : Readable E st.certKey certKey) {creds : List (SavedSource × PrivKey)}
    (hs : st.sources = creds.map Prod.fst) (hr : ∀ p ∈ creds, Readable E p.1.key p.2)
    {blob : Bytes} {rnd n : Nat} (hb : Saved.encryptState E st E.passphrase rnd = some (blob, n)) {now : Nat} {c : Client}
    (hc : Client.start E cfg (some blob) now = .ok c) :
    ∃ st', Client.exportState c = .ok st' ∧ (∃ k, New E st'.certKey k) ∧ (∀ x ∈ st'.sources, ∃ k, New E x.key k) ∧
      ∀ rnd', ∃ blob', Saved.encryptState E st' E.passphrase rnd' = some (blob', rnd' + 4) ∧
        Holds E cfg (some blob') c := by
  obtain ⟨c', h1, -, h3, -⟩ := start_reads (cfg := cfg) L ha hu hcert hk (tail := []) (by rw [hs, List.append_nil]) hr
    (fun bad rest h => nomatch h) hb now
  rw [hc] at h1
  cases h1
  obtain ⟨st', e1, -, e3⟩ := healthy_export L h3
  refine ⟨st', e1, ?_, ?_, fun rnd' => ?_⟩
  · simp only [Client.exportState] at e1
    cases hm : Cose.marshalPrivate c.certKey with
    | panic p => rw [hm] at e1; cases e1
    | ok b =>
      rw [hm] at e1
      simp only [Res.bind_ok] at e1
      cases hv : Vault.exportSources c.vault with
      | panic p => rw [hv] at e1; cases e1
      | ok saved =>
        rw [hv] at e1
        cases e1
        exact ⟨c.certKey, h3.2.1, h3.2.2.1, hm⟩
  · simp only [Client.exportState] at e1
    cases hm : Cose.marshalPrivate c.certKey with
    | panic p => rw [hm] at e1; cases e1
    | ok b =>
      rw [hm] at e1
      simp only [Res.bind_ok] at e1
      cases hv : Vault.exportSources c.vault with
      | panic p => rw [hv] at e1; cases e1
      | ok saved =>
        rw [hv] at e1
        cases e1
        exact exportSources_new (fun s hs => ⟨(h3.2.2.2.2 s hs).1, (h3.2.2.2.2 s hs).2.1⟩) hv
  · obtain ⟨blob', b1, -⟩ := e3 cfg rnd' 0
    refine ⟨blob', b1, fun now' => ?_⟩
    obtain ⟨b2, g1, c2, g2, g3, -⟩ := e3 cfg rnd' now'
    rw [b1] at g1
    cases g1
    exact ⟨c2, g2, g3⟩

/-- **Who registered with an older version can log in.**  All credentials are of one relying party (otherwise see C38 and C78),
with different ids.  A login for one of them succeeds and is signed with the key that was saved. -/
theorem C140_login (L : Laws E) (ha : Apart E) {st : SavedState} (hu : st.Utf8) (hcert : E.parseCert st.cert = true)
    {certKey : PrivKey} (hk : Readable E st.certKey certKey) {creds : List (SavedSource × PrivKey)}
    (hs : st.sources = creds.map Prod.fst) (hr : ∀ p ∈ creds, Readable E p.1.key p.2) {rpId : Bytes}
    (hrp : ∀ p ∈ creds, p.1.rp.id = rpId) (hids : ∀ p ∈ creds, ∀ q ∈ creds, p.1.id = q.1.id → p = q)
    {blob : Bytes} {rnd n : Nat} (hb : Saved.encryptState E st E.passphrase rnd = some (blob, n)) {now : Nat} {w : World}
    (hc : Client.start E cfg (some blob) now = .ok w.client) {p : SavedSource × PrivKey} (hp : p ∈ creds)
    {data : Bytes} {args : GetAssertionArgs} {d : Descriptor} (hd : E.decodeGetAssertion data = some args) (hid : args.rpId = rpId)
    (hallow : args.allowList = some [d]) (hdid : d.id = p.1.id) (hpin : AssertionPinOk E w.client args)
    (hyes : args.up = some false ∨ ∀ rp user, E.approve w.asks .getAssertion rp user = true) :
    ∃ body w', Ctap.handleMessage E (0x02 :: data) w = (.ok (0 :: body), w') ∧
      (body.length < 18446744073709551616 → ∃ authData sig pub, Spec.Ctap.IsAssertion (0 :: body) p.1.id authData sig ∧
        Cose.publicOf p.2 = .ok pub ∧ Cose.verify E pub (authData ++ args.clientDataHash) sig = .ok true) := by
  obtain ⟨c, h1, h2, h3, h4⟩ := start_reads (cfg := cfg) L ha hu hcert hk (tail := []) (by rw [hs, List.append_nil]) hr
    (fun bad rest h => nomatch h) hb now
  rw [hc] at h1
  obtain rfl := Res.ok.inj h1
  obtain ⟨i, hi⟩ := List.mem_iff_getElem?.1 hp
  obtain ⟨s, hsv⟩ : ∃ s, w.client.vault[i]? = some s := by
    have : i < creds.length := (List.getElem?_eq_some_iff.1 hi).1
    have := h2.count
    exact ⟨w.client.vault[i]'(by omega), List.getElem?_eq_getElem (by omega)⟩
  have hm : Matches args.rpId args.allowList s := by
    obtain ⟨who, w1, w2, -⟩ := h4 s (List.mem_of_getElem? hsv)
    rw [hs] at w1
    obtain ⟨q, q1, rfl⟩ := List.mem_map.1 w1
    refine ⟨⟨_, w2, by rw [hid]; exact hrp q q1⟩, fun l hl => ?_⟩
    rw [hallow] at hl
    cases hl
    exact ⟨d, List.mem_singleton.2 rfl, hdid.trans (h2.creds i p s hi hsv).1.symm⟩
  obtain ⟨body, w', hw⟩ := C77_valid_assertion_succeeds L h3 hd hpin ⟨s, List.mem_of_getElem? hsv, hm⟩ hyes
  refine ⟨body, w', hw, fun hlen => ?_⟩
  obtain ⟨args', t, authData, sig, pub, g1, g2, g3, g4, g5, g6⟩ := C47_assertion_uses_matching_credential L hw hlen
    (fun s hs => (h3.2.2.2.2 s hs).2.1)
  rw [hd] at g1
  cases g1
  obtain ⟨j, hj⟩ := List.mem_iff_getElem?.1 g2
  obtain ⟨q, hq⟩ : ∃ q, creds[j]? = some q := by
    have : j < w.client.vault.length := (List.getElem?_eq_some_iff.1 hj).1
    have := h2.count
    exact ⟨creds[j]'(by omega), List.getElem?_eq_getElem (by omega)⟩
  obtain ⟨e1, -, -, e4⟩ := h2.creds j q t hq hj
  obtain ⟨d', hd1, hd2⟩ := g3.2 _ hallow
  obtain rfl := List.mem_singleton.1 hd1
  obtain rfl := hids p hp q (List.mem_of_getElem? hq) (by rw [← hdid, hd2, e1])
  rw [e1] at g4
  exact ⟨authData, sig, pub, g4, (publicOf_same e4).trans g5, g6⟩

/-- **An unreadable key is not reported.**  The program starts; the credential with this key and all after it are missing, and
after the next time the device saves its data they are gone for good, also those whose keys are readable. -/
theorem C140_unreadable_loses (L : Laws E) (ha : Apart E) {st : SavedState} (hu : st.Utf8) (hcert : E.parseCert st.cert = true)
    {certKey : PrivKey} (hk : Readable E st.certKey certKey) {creds : List (SavedSource × PrivKey)} {bad : SavedSource}
    {rest : List SavedSource} (hs : st.sources = creds.map Prod.fst ++ bad :: rest) (hr : ∀ p ∈ creds, Readable E p.1.key p.2)
    (hbad : Unreadable E bad.key) {blob : Bytes} {rnd n : Nat}
    (hb : Saved.encryptState E st E.passphrase rnd = some (blob, n)) (now : Nat) :
    ∃ c, Client.start E cfg (some blob) now = .ok c ∧ Restores st certKey creds c ∧
      ∀ {w w' : World}, w.client = c → Client.saveData E w = (.ok (), w') →
        ∀ now', ∃ c', Client.start E cfg w'.store now' = .ok c' ∧ Restores st certKey creds c' := by
  obtain ⟨c, h1, h2, h3, -⟩ := start_reads (cfg := cfg) L ha hu hcert hk hs hr
    (fun b r h => by cases h; exact hbad) hb now
  refine ⟨c, h1, h2, fun {w w'} hw hsave now' => ?_⟩
  rcases VF.Fido.Ctap.saveData_cases E w with ⟨p, g, -⟩ | ⟨data, rnd', g1, g2⟩
  · rw [hsave] at g; cases g
  · rw [hsave] at g2
    cases g2
    rw [hw] at g1
    obtain ⟨-, c', r1, r2, -, r4, -⟩ := saves_restore L h3 g1 cfg now'
    refine ⟨c', r1, ?_⟩
    obtain ⟨s1, s2, s3, s4, s5, s6, s7⟩ := r2
    refine ⟨s1.symm.trans h2.deviceKey, s2.symm.trans h2.cert, ?_, r4.trans h2.authCounter, s4.symm.trans h2.pinEnabled,
      s5.symm.trans h2.pinHash, s6.symm.trans h2.count, fun i p s hp hv => ?_⟩
    · exact ⟨h2.certKey.1.trans s3.1, h2.certKey.2.1.trans s3.2.1, h2.certKey.2.2.trans s3.2.2⟩
    · obtain ⟨x, hx⟩ : ∃ x, c.vault[i]? = some x := by
        have : i < c'.vault.length := (List.getElem?_eq_some_iff.1 hv).1
        exact ⟨c.vault[i]'(by omega), List.getElem?_eq_getElem (by omega)⟩
      obtain ⟨f1, f2, f3, f4⟩ := s7 i x s hx hv
      obtain ⟨k1, k2, k3, k4⟩ := h2.creds i p x hp hx
      exact ⟨f1.symm.trans k1, f2.symm.trans k2, f3.symm.trans k3, k4.1.trans f4.1, k4.2.1.trans f4.2.1, k4.2.2.trans f4.2.2⟩

/-- Keys in DER are no CBOR. -/
theorem der_no_cbor (ec : ECPriv) : Spec.Cbor.decode (ecToDER ec) = none := by
  have h : ∀ (n : Nat) (rest : Bytes), Spec.Cbor.readItem (n + 1) (0x30 :: rest) = some (.nint 16, rest) := by
    intro n rest
    simp [Spec.Cbor.readItem, Spec.Cbor.argument]
  have h2 : ∃ rest, ecToDER ec = 0x30 :: 0x77 :: rest := ⟨_, rfl⟩
  obtain ⟨rest, h2⟩ := h2
  rw [h2, Spec.Cbor.decode, show 2 * (0x30 :: 0x77 :: rest : Bytes).length = (2 * rest.length + 3) + 1 by
    simp only [List.length_cons]; omega, h]

theorem toy_apart (ap : List Ask → Action → Bytes → Bytes → Bool) : Apart (Toy.toy ap) := by
  intro ec _
  show Toy.header (ecToDER ec) = none
  rw [Toy.header, der_no_cbor]

theorem toy_unreadable (ap : List Ask → Action → Bytes → Bytes → Bool) : Unreadable (Toy.toy ap) [] := by
  refine ⟨rfl, ?_⟩
  show Toy.inv Toy.ECOk ecToDER [] = none
  rw [Toy.inv, dif_neg]
  rintro ⟨a, -, h⟩
  cases h

section

variable (ap : List Ask → Action → Bytes → Bytes → Bool)

/-- A credential with the second key, in DER. -/
noncomputable def oldCred : SavedSource :=
  { type := ascii "public-key", id := [1], key := ecToDER ((Toy.toy ap).genEC 1), rp := ⟨[97], []⟩, user := ⟨[1], [], []⟩, counter := 7 }

/-- Saved data of an older version, with the first key in DER. -/
noncomputable def oldState (sources : List SavedSource) : SavedState :=
  { encryptionKey := List.replicate 32 9, cert := (Toy.config false).cert, certKey := ecToDER ((Toy.toy ap).genEC 0), authCounter := 3
    pinEnabled := true, pinHash := some [1, 2, 3], sources := sources }

theorem oldCred_utf8 : (oldCred ap).Utf8 := by
  have h1 : utf8 (ascii "public-key") := ⟨"public-key", by decide +kernel⟩
  have h2 : utf8 [97] := ⟨"a", by decide +kernel⟩
  have h3 : utf8 [] := ⟨"", by decide +kernel⟩
  exact ⟨h1, h2, h3, h3, h3⟩

theorem oldCred_readable : Readable (Toy.toy ap) (oldCred ap).key { ecdsa := some ((Toy.toy ap).genEC 1) } :=
  .inr ⟨_, (Toy.toy_laws ap).genEC_valid 1, rfl, rfl⟩

theorem oldState_readable (l : List SavedSource) :
    Readable (Toy.toy ap) (oldState ap l).certKey { ecdsa := some ((Toy.toy ap).genEC 0) } :=
  .inr ⟨_, (Toy.toy_laws ap).genEC_valid 0, rfl, rfl⟩

end

/-- Saved data with an old and a new credential, as C140_old_data_read and C140_converted want them. -/
theorem C140_case : ∃ (E : Env) (st : SavedState) (certKey : PrivKey) (creds : List (SavedSource × PrivKey)) (blob : Bytes) (n : Nat),
    Laws E ∧ Apart E ∧ st.Utf8 ∧ E.parseCert st.cert = true ∧ Old E st.certKey certKey ∧ st.sources = creds.map Prod.fst ∧
    (∀ p ∈ creds, Readable E p.1.key p.2) ∧ Saved.encryptState E st E.passphrase 0 = some (blob, n) ∧
    ∃ a b, creds = [a, b] ∧ Old E a.1.key a.2 ∧ New E b.1.key b.2 := by
  have L := Toy.toy_laws (fun _ _ _ _ => true)
  obtain ⟨b, k', m1, -⟩ := Vault.private_round_trip L { ecdsa := some ((Toy.toy (fun _ _ _ _ => true)).genEC 2) } (.ecdsa _)
    (L.genEC_valid 2)
  have hnew : New (Toy.toy (fun _ _ _ _ => true)) b { ecdsa := some ((Toy.toy (fun _ _ _ _ => true)).genEC 2) } :=
    ⟨.ecdsa _, L.genEC_valid 2, m1⟩
  have hold : Old (Toy.toy (fun _ _ _ _ => true)) (oldCred fun _ _ _ _ => true).key
    { ecdsa := some ((Toy.toy (fun _ _ _ _ => true)).genEC 1) } := ⟨_, L.genEC_valid 1, rfl, rfl⟩
  have hu : (oldState (fun _ _ _ _ => true) [oldCred (fun _ _ _ _ => true), { oldCred (fun _ _ _ _ => true) with id := [2], key := b }]).Utf8 := by
    intro x hx
    rcases List.mem_cons.1 hx with rfl | hx
    · exact oldCred_utf8 _
    · obtain rfl := List.mem_singleton.1 hx
      exact oldCred_utf8 (fun _ _ _ _ => true)
  obtain ⟨blob, b1, -⟩ := Saved.decryptState_encryptState L _ hu (Toy.toy (fun _ _ _ _ => true)).passphrase 0
  refine ⟨_, _, { ecdsa := some ((Toy.toy (fun _ _ _ _ => true)).genEC 0) },
    [(oldCred (fun _ _ _ _ => true), { ecdsa := some ((Toy.toy (fun _ _ _ _ => true)).genEC 1) }),
     ({ oldCred (fun _ _ _ _ => true) with id := [2], key := b }, { ecdsa := some ((Toy.toy (fun _ _ _ _ => true)).genEC 2) })],
    blob, _, L, toy_apart _, hu, (Toy.config_usable (fun _ _ _ _ => true) false).1, ⟨_, L.genEC_valid 0, rfl, rfl⟩, rfl, ?_, b1,
    _, _, rfl, hold, hnew⟩
  intro p hp
  rcases List.mem_cons.1 hp with rfl | hp
  · exact .inr hold
  · obtain rfl := List.mem_singleton.1 hp
    exact .inl hnew

/-- A login with one of two credentials of an older version, as C140_login wants it. -/
theorem C140_login_case : ∃ (E : Env) (cfg : Client.Config) (st : SavedState) (creds : List (SavedSource × PrivKey)) (blob : Bytes)
    (n : Nat) (w : World) (p : SavedSource × PrivKey) (get body : Bytes) (args : GetAssertionArgs) (w' : World), Laws E ∧
    st.sources = creds.map Prod.fst ∧ creds.length = 2 ∧ p ∈ creds ∧ (∀ q ∈ creds, Old E q.1.key q.2) ∧
    Saved.encryptState E st E.passphrase 0 = some (blob, n) ∧ Client.start E cfg (some blob) 0 = .ok w.client ∧
    E.decodeGetAssertion get = some args ∧ (∃ d, args.allowList = some [d] ∧ d.id = p.1.id) ∧
    Ctap.handleMessage E (0x02 :: get) w = (.ok (0 :: body), w') := by
  have L := Toy.toy_laws (fun _ _ _ _ => true)
  have hold : Old (Toy.toy (fun _ _ _ _ => true)) (oldCred fun _ _ _ _ => true).key
    { ecdsa := some ((Toy.toy (fun _ _ _ _ => true)).genEC 1) } := ⟨_, L.genEC_valid 1, rfl, rfl⟩
  have huc : ∀ id : Bytes, ({ oldCred (fun _ _ _ _ => true) with id := id, rp := ⟨ascii "example.org", []⟩ } : SavedSource).Utf8 := by
    intro id
    obtain ⟨u1, -, u3, u4, u5⟩ := oldCred_utf8 (fun _ _ _ _ => true)
    exact ⟨u1, Toy.utf8_ascii_example.1, u3, u4, u5⟩
  have hu : (oldState (fun _ _ _ _ => true) [{ oldCred (fun _ _ _ _ => true) with id := [2], rp := ⟨ascii "example.org", []⟩ },
      { oldCred (fun _ _ _ _ => true) with id := Toy.descriptor.id, rp := ⟨ascii "example.org", []⟩ }]).Utf8 := by
    intro x hx
    rcases List.mem_cons.1 hx with rfl | hx
    · exact huc _
    · obtain rfl := List.mem_singleton.1 hx
      exact huc _
  obtain ⟨blob, b1, -⟩ := Saved.decryptState_encryptState L _ hu (Toy.toy (fun _ _ _ _ => true)).passphrase 0
  have hr : ∀ p ∈ [(({ oldCred (fun _ _ _ _ => true) with id := [2], rp := ⟨ascii "example.org", []⟩ } : SavedSource),
        ({ ecdsa := some ((Toy.toy (fun _ _ _ _ => true)).genEC 1) } : PrivKey)),
      ({ oldCred (fun _ _ _ _ => true) with id := Toy.descriptor.id, rp := ⟨ascii "example.org", []⟩ },
        { ecdsa := some ((Toy.toy (fun _ _ _ _ => true)).genEC 1) })], Old (Toy.toy (fun _ _ _ _ => true)) p.1.key p.2 := by
    intro p hp
    rcases List.mem_cons.1 hp with rfl | hp
    · exact hold
    · obtain rfl := List.mem_singleton.1 hp
      exact hold
  have hcert := (Toy.config_usable (fun _ _ _ _ => true) false).1
  obtain ⟨c, h1, -⟩ := start_reads (cfg := Toy.config false) L (toy_apart _) hu hcert (oldState_readable _ _) (tail := []) rfl
    (fun p hp => .inr (hr p hp)) (fun bad rest h => nomatch h) b1 0
  have hd := Toy.get_decodes (ap := fun _ _ _ _ => true) (some [Toy.descriptor]) none none (.inr rfl) (by simp)
  obtain ⟨body, w', g1, -⟩ := C140_login (w := ⟨c, none, 0, []⟩) (rpId := ascii "example.org") (d := Toy.descriptor) L (toy_apart _) hu
    hcert (oldState_readable _ _) rfl (fun p hp => .inr (hr p hp))
    (fun p hp => by
      rcases List.mem_cons.1 hp with rfl | hp
      · rfl
      · obtain rfl := List.mem_singleton.1 hp
        rfl)
    (fun p hp q hq e => by
      rcases List.mem_cons.1 hp with rfl | hp <;> rcases List.mem_cons.1 hq with rfl | hq
      · rfl
      · obtain rfl := List.mem_singleton.1 hq
        exact absurd (show ([2] : Bytes) = Toy.descriptor.id from e) (by decide +kernel)
      · obtain rfl := List.mem_singleton.1 hp
        exact absurd (show Toy.descriptor.id = ([2] : Bytes) from e) (by decide +kernel)
      · obtain rfl := List.mem_singleton.1 hp
        obtain rfl := List.mem_singleton.1 hq
        rfl)
    b1 h1 (List.mem_cons_of_mem _ (List.mem_singleton.2 rfl)) hd rfl rfl rfl (.inr (.inl rfl)) (.inr fun _ _ => rfl)
  exact ⟨_, Toy.config false, oldState (fun _ _ _ _ => true) _, _, blob, _, ⟨c, none, 0, []⟩, _, _, body, _, w', L, rfl, rfl,
    List.mem_cons_of_mem _ (List.mem_singleton.2 rfl), hr, b1, h1, hd, ⟨_, rfl, rfl⟩, g1⟩

/-- **So credentials are lost without notice**: the first of two saved credentials has an unreadable key; the second, whose key
is readable, is missing too, and the next saving removes both. -/
theorem C140_reported_refuted : ∃ (E : Env) (cfg : Client.Config) (st : SavedState) (bad good : SavedSource) (k : PrivKey)
    (blob : Bytes) (n : Nat), Laws E ∧ Usable E cfg ∧ st.sources = [bad, good] ∧ Unreadable E bad.key ∧ Readable E good.key k ∧
    Saved.encryptState E st E.passphrase 0 = some (blob, n) ∧
    ∀ now, ∃ c, Client.start E cfg (some blob) now = .ok c ∧ c.vault = [] ∧
      ∀ {w w' : World}, w.client = c → Client.saveData E w = (.ok (), w') →
        ∀ now', ∃ c', Client.start E cfg w'.store now' = .ok c' ∧ c'.vault = [] := by
  have L := Toy.toy_laws (fun _ _ _ _ => true)
  have hu : (oldState (fun _ _ _ _ => true) [{ oldCred (fun _ _ _ _ => true) with id := [2], key := [] }, oldCred (fun _ _ _ _ => true)]).Utf8 := by
    intro x hx
    rcases List.mem_cons.1 hx with rfl | hx
    · exact oldCred_utf8 (fun _ _ _ _ => true)
    · obtain rfl := List.mem_singleton.1 hx
      exact oldCred_utf8 _
  obtain ⟨blob, b1, -⟩ := Saved.decryptState_encryptState L _ hu (Toy.toy (fun _ _ _ _ => true)).passphrase 0
  refine ⟨_, Toy.config false, _, _, _, _, blob, _, L, Toy.config_usable _ _, rfl, toy_unreadable _, oldCred_readable _, b1,
    fun now => ?_⟩
  obtain ⟨c, h1, h2, h3⟩ := C140_unreadable_loses (cfg := Toy.config false) (creds := []) L (toy_apart _) hu
    (Toy.config_usable (fun _ _ _ _ => true) false).1 (oldState_readable _ _) rfl (fun p hp => nomatch hp) (toy_unreadable _) b1 now
  refine ⟨c, h1, List.eq_nil_of_length_eq_zero h2.count, fun {w w'} hw hs now' => ?_⟩
  obtain ⟨c', k1, k2⟩ := h3 hw hs now'
  exact ⟨c', k1, List.eq_nil_of_length_eq_zero k2.count⟩

end VF.Props
