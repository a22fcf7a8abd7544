import Verif.Spec.RelyingParty
import Verif.Proofs.Store

/-!
# Relying parties and the credentials of the device
-/

namespace VF.Fido.Device

open VF.Spec.Client VF.Spec.Vault VF.Spec.History VF.Spec.Ctap VF.Spec.Store VF.Spec.RelyingParty
open Client Ctap

variable {E : Env} {cfg : Config}

/-- What a party makes of the answer to a creation that succeeded. -/
theorem register_eq (L : Laws E) {data body : Bytes} {w w' : World}
    (h : Ctap.handleMessage E (0x01 :: data) w = (.ok (0 :: body), w')) :
    ∃ (args : MakeCredArgs) (rp : RPEntity) (k : ECPriv) (cert : Bytes) (ad : AuthData) (flags : UInt8),
      E.decodeMakeCred data = some args ∧ args.rp = some rp ∧ Client.supported args.params = true ∧
      makeCredentialPIN E w.client args = .ok flags ∧ (ad.userVerified = true ↔ flags = 4) ∧
      w'.client = { w.client with vault := w.client.vault ++
        [⟨ascii "public-key", E.rand w.rnd 16, { ecdsa := some k }, some rp, args.user, 0⟩] } ∧
      w.rnd < w'.rnd ∧ ad.rpIdHash = E.sha256 rp.id ∧ ad.userPresent = true ∧
      (∃ n, Cose.createAttestationCert E w.client.cert w.client.certKey { ecdsa := some k } n
        = .ok (some cert)) ∧
      (∀ r : Record, r = ⟨E.rand w.rnd 16, k.pub.x, k.pub.y, 0⟩ → r.key = k.pub) ∧
      ∀ (p : Party) (known : List Record), register E p known args (0 :: body) =
        if genuine E p ad = true ∧ (∃ q ∈ args.params, q.alg = -7) ∧
          E.certSignedBy cert p.anchor = true ∧ (∀ r ∈ known, r.id ≠ E.rand w.rnd 16)
        then some ⟨E.rand w.rnd 16, k.pub.x, k.pub.y, 0⟩ else none := by
  obtain ⟨args, rp, flags, blob, n, k, authData, sig, cert, ad, at', xb, yb, h1, h2, h3, h4, -, h6,
    h7, h8, -, h10, h11, h12, h13, h14, h15, h16, -, h18, h19, -, h21, h22, h23, h24, h25, h26⟩ :=
    Ctap.creation_spec L h
  have hv : ECValid E k := by rw [h6]; exact L.genEC_valid _
  obtain ⟨bp, -⟩ := Vault.ecValid_bounds L hv
  obtain ⟨b, e, hd⟩ := h11
  obtain rfl := (List.cons.inj e).2
  have hn := saves_rnd L h8
  have hsub : (E.certSubject cert).bind (·.ecdsa) = some k.pub := by
    have h26' := h26
    simp only [Cose.createAttestationCert, Cose.publicOf, Cose.extractPublicKey, Res.bind_ok] at h26'
    cases hx : Cose.extractPrivateKey w.client.certKey with
    | panic c => rw [hx] at h26'; cases h26'
    | ok ck =>
      rw [hx] at h26'
      simp only [Res.bind_ok] at h26'
      cases hcc : E.createCert (Cose.attestationTemplate E n) (some w.client.cert) { ecdsa := some k.pub } ck n with
      | none => rw [hcc] at h26'; simp at h26'
      | some c =>
        rw [hcc] at h26'
        simp only at h26'
        split at h26'
        · obtain rfl := Option.some.inj (Res.ok.inj h26')
          rw [(L.createCert_sound _ _ _ _ _ _ hcc).2.1]
          rfl
        · simp at h26'
  refine ⟨args, rp, k, cert, ad, flags, h1, h3, h2, h4, h15, h7, by omega, h13, h14, ⟨n, h26⟩, ?_, ?_⟩
  · rintro r rfl
    simp only [Record.key]
    rcases k with ⟨⟨p, x, y⟩, d⟩
    dsimp only at bp
    subst bp
    rfl
  · intro p known
    have f1 : ∀ a b c : Cbor, field 1 (.map [(.int 1, a), (.int 2, b), (.int 3, c)]) = some a := by
      intros; rfl
    have f2 : ∀ a b c : Cbor, field 2 (.map [(.int 1, a), (.int 2, b), (.int 3, c)]) = some b := by
      intros; rfl
    have f3 : ∀ a b c : Cbor, field 3 (.map [(.int 1, a), (.int 2, b), (.int 3, c)]) = some c := by
      intros; rfl
    have g1 : ∀ a b c d e : Cbor, field 1 (.map [(.int 1, a), (.int 3, b), (.int (-1), c),
        (.int (-2), d), (.int (-3), e)]) = some a := by
      intros; rfl
    have g2 : ∀ a b c d e : Cbor, field 3 (.map [(.int 1, a), (.int 3, b), (.int (-1), c),
        (.int (-2), d), (.int (-3), e)]) = some b := by
      intros; rfl
    have g3 : ∀ a b c d e : Cbor, field (-1) (.map [(.int 1, a), (.int 3, b), (.int (-1), c),
        (.int (-2), d), (.int (-3), e)]) = some c := by
      intros; rfl
    have g4 : ∀ a b c d e : Cbor, field (-2) (.map [(.int 1, a), (.int 3, b), (.int (-1), c),
        (.int (-2), d), (.int (-3), e)]) = some d := by
      intros; rfl
    have g5 : ∀ a b c d e : Cbor, field (-3) (.map [(.int 1, a), (.int 3, b), (.int (-1), c),
        (.int (-2), d), (.int (-3), e)]) = some e := by
      intros; rfl
    have n1 : ∀ a b c : Cbor, named "alg" (.map [(.str "alg", a), (.str "sig", b), (.str "x5c", c)]) =
        some a := by
      intros a b c
      simp [named, asText, Cbor.str]
    have n2 : ∀ a b c : Cbor, named "sig" (.map [(.str "alg", a), (.str "sig", b), (.str "x5c", c)]) =
        some b := by
      intros a b c
      have q : (ascii "alg" == ascii "sig") = false := by decide +kernel
      simp [named, asText, Cbor.str, q, List.find?_cons]
    have n3 : ∀ a b c : Cbor, named "x5c" (.map [(.str "alg", a), (.str "sig", b), (.str "x5c", c)]) =
        some c := by
      intros a b c
      have q1 : (ascii "alg" == ascii "x5c") = false := by decide +kernel
      have q2 : (ascii "sig" == ascii "x5c") = false := by decide +kernel
      simp [named, asText, Cbor.str, q1, q2, List.find?_cons]
    have t1 : asText (.str "packed") = some (ascii "packed") := rfl
    have t2 : integer (.int (-7)) = some (-7) := rfl
    have t3 : integer (.int 2) = some 2 := rfl
    have t4 : integer (.int 1) = some 1 := rfl
    have t5 : ∀ b, asBytes (.bytes b) = some b := fun _ => rfl
    have t6 : ∀ l, asList (.array l) = some l := fun _ => rfl
    simp only [register, hd, Option.bind_eq_bind, Option.bind_some, bytesField, f1, f2, f3, n1, n2, n3, h12,
      h19, h22, g1, g2, g3, g4, g5, t1, t2, t3, t4, t5, t6, List.head?_cons, hsub, h16, h18, h21, h23, h24,
      h25, true_and]

/-- What a party makes of the answer to an assertion that succeeded. -/
theorem login_eq {id authData sig b : Bytes} {ad : AuthData}
    (ha : IsAssertion b id authData sig) (hp : parseAuthData authData = some ad) (p : Party)
    (known : List Record) (args : GetAssertionArgs) :
    login E p known args b = (known.find? (fun r => r.id == id)).bind (fun r =>
      if allowed args.allowList id = true ∧ genuine E p ad = true ∧
        E.verifyEC r.key (E.sha256 (authData ++ args.clientDataHash)) sig = true ∧
        (ad.counter = 0 ∧ r.counter = 0 ∨ r.counter < ad.counter)
      then some { r with counter := ad.counter } else none) := by
  obtain ⟨body, rfl, hd⟩ := ha
  have f1 : ∀ a b c : Cbor, field 1 (.map [(.int 1, a), (.int 2, b), (.int 3, c)]) = some a := by
    intros; rfl
  have f2 : ∀ a b c : Cbor, field 2 (.map [(.int 1, a), (.int 2, b), (.int 3, c)]) = some b := by
    intros; rfl
  have f3 : ∀ a b c : Cbor, field 3 (.map [(.int 1, a), (.int 2, b), (.int 3, c)]) = some c := by
    intros; rfl
  have n1 : ∀ a b : Cbor, named "id" (.map [(.str "id", a), (.str "type", b)]) = some a := by
    intros a b
    simp [named, asText, Cbor.str]
  have t5 : ∀ b, asBytes (.bytes b) = some b := fun _ => rfl
  simp only [login, hd, Option.bind_eq_bind, Option.bind_some, bytesField, f1, f2, f3, n1, t5, hp]

/-- What a party makes of one request and its reply. -/
theorem see_cases (E : Env) (p : Party) (l : List Record) (op : Op) (reply : Reply) :
    see E p l (op, reply) = l ∨
    (∃ data body args r, op = .ctap (1 :: data) ∧ reply = .answer (0 :: body) ∧
      E.decodeMakeCred data = some args ∧ args.rp.map (·.id) = some p.id ∧
      register E p l args (0 :: body) = some r ∧ see E p l (op, reply) = l ++ [r]) ∨
    (∃ data body args r, op = .ctap (2 :: data) ∧ reply = .answer (0 :: body) ∧
      E.decodeGetAssertion data = some args ∧ args.rpId = p.id ∧
      login E p l args (0 :: body) = some r ∧
      see E p l (op, reply) = l.map (fun o => if o.id = r.id then r else o)) := by
  unfold see
  split
  · rename_i data b e
    obtain ⟨rfl, rfl⟩ := Prod.mk.inj e
    cases hd : E.decodeMakeCred data with
    | none => exact .inl rfl
    | some args =>
      dsimp only
      split
      · rename_i hid
        cases hr : register E p l args b with
        | none => left; simp
        | some r =>
          right; left
          have hb : ∃ body, b = 0 :: body := by
            unfold register at hr
            split at hr
            · exact ⟨_, rfl⟩
            · cases hr
          obtain ⟨body, rfl⟩ := hb
          exact ⟨data, body, args, r, rfl, rfl, hd, hid, hr, rfl⟩
      · exact .inl rfl
  · rename_i data b e
    obtain ⟨rfl, rfl⟩ := Prod.mk.inj e
    cases hd : E.decodeGetAssertion data with
    | none => exact .inl rfl
    | some args =>
      dsimp only
      split
      · rename_i hid
        cases hr : login E p l args b with
        | none => exact .inl rfl
        | some r =>
          right; right
          have hb : ∃ body, b = 0 :: body := by
            unfold login at hr
            split at hr
            · exact ⟨_, rfl⟩
            · cases hr
          obtain ⟨body, rfl⟩ := hb
          exact ⟨data, body, args, r, rfl, rfl, hd, hid, hr, rfl⟩
      · exact .inl rfl
  · exact .inl rfl

/-- An answered message. -/
theorem ctap_answered {d d' : Device} {m b : Bytes}
    (h : step E cfg d (.ctap m) = (.answer b, d')) :
    d.alive = true ∧ d'.alive = true ∧ Ctap.handleMessage E m d.world = (.ok b, d'.world) := by
  have halive : d.alive = true := by
    cases hal : d.alive with
    | true => rfl
    | false => rw [step_dead rfl hal] at h; cases h
  rw [step_live rfl halive, perform_ctap'] at h
  cases hr : (Ctap.handleMessage E m d.world).1 with
  | panic c => rw [hr] at h; cases h
  | ok x =>
    rw [hr] at h
    simp only [outcome, Prod.mk.injEq, Reply.answer.injEq] at h
    obtain ⟨rfl, rfl⟩ := h
    exact ⟨halive, rfl, by rw [← hr]⟩

/-- Ids in the vault and in the records `l` of a party are distinct draws; where they meet, the keys are
the same, and the party has not seen a higher counter.  Counters are at most `k`. -/
structure Follows (E : Env) (l : List Record) (k n : Nat) (v : List Source) : Prop where
  ids : (v.map (·.id)).Nodup
  drawn : ∀ s ∈ v, ∃ i, i < n ∧ s.id = E.rand i 16
  bound : ∀ s ∈ v, s.counter.toNat ≤ k
  ec : ∀ s ∈ v, s.key.ecdsa.isSome
  recs : (l.map (·.id)).Nodup
  known : ∀ r ∈ l, ∃ i, i < n ∧ r.id = E.rand i 16
  agree : ∀ s ∈ v, ∀ r ∈ l, r.id = s.id →
    s.key.ecdsa.map (·.pub) = some r.key ∧ r.counter ≤ s.counter.toNat

theorem follows_same {l : List Record} {k n : Nat} {v v' : List Source}
    (h : SameCredentials v v') (hf : Follows E l k n v) : Follows E l k n v' := by
  refine ⟨by rw [← sameCredentials_ids h]; exact hf.ids, ?_, ?_, ?_, hf.recs, hf.known, ?_⟩
  all_goals
    intro s hs
    obtain ⟨t, ht, e1, e2, e3⟩ := sameCredentials_mem h hs
  · rw [← e1]; exact hf.drawn t ht
  · rw [← e2]; exact hf.bound t ht
  · rw [← e3]; exact hf.ec t ht
  · rw [← e1, ← e2, ← e3]; exact hf.agree t ht

theorem follows_mono {l : List Record} {k k' n n' : Nat} {v : List Source} (hk : k ≤ k')
    (hn : n ≤ n') (hf : Follows E l k n v) : Follows E l k' n' v := by
  refine ⟨hf.ids, ?_, fun s hs => Nat.le_trans (hf.bound s hs) hk, hf.ec, hf.recs, ?_, hf.agree⟩
  · intro s hs
    obtain ⟨i, h1, h2⟩ := hf.drawn s hs
    exact ⟨i, by omega, h2⟩
  · intro s hs
    obtain ⟨i, h1, h2⟩ := hf.known s hs
    exact ⟨i, by omega, h2⟩

theorem follows_change {N : Nat} (hd : DistinctDraws E N) {l : List Record} {op : Op}
    {k n n' : Nat} {v v' : List Source} (hn : n ≤ n') (hN : n' ≤ N)
    (hk : k + (if isGetAssertion op then 1 else 0) < 4294967296)
    (hc : Change E op n n' v v') (hf : Follows E l k n v) :
    Follows E l (k + (if isGetAssertion op then 1 else 0)) n' v' := by
  cases hc with
  | same h => rw [h]; exact follows_mono (by omega) hn hf
  | added rp user h hr ho =>
    subst h
    have hf' := follows_mono (Nat.le_add_right k (if isGetAssertion op then 1 else 0)) hn hf
    have fresh : ∀ {x : Bytes}, (∃ i, i < n ∧ x = E.rand i 16) → x ≠ E.rand n 16 := by
      rintro x ⟨i, h1, rfl⟩ e
      have := hd i n (by omega) (by omega) e
      omega
    refine ⟨?_, ?_, ?_, ?_, hf'.recs, hf'.known, ?_⟩
    · rw [List.map_append, List.nodup_append]
      refine ⟨hf.ids, by simp, ?_⟩
      intro a ha b hb
      simp only [List.map_cons, List.map_nil, List.mem_singleton] at hb
      subst hb
      obtain ⟨s, hs, rfl⟩ := List.mem_map.1 ha
      exact fresh (hf.drawn s hs)
    all_goals
      intro s hs
      rcases List.mem_append.1 hs with hs | hs
    · exact hf'.drawn s hs
    · rw [List.mem_singleton.1 hs]; exact ⟨n, by omega, rfl⟩
    · exact hf'.bound s hs
    · rw [List.mem_singleton.1 hs]; exact Nat.zero_le _
    · exact hf'.ec s hs
    · rw [List.mem_singleton.1 hs]; rfl
    · exact hf'.agree s hs
    · intro r hr' e
      rw [List.mem_singleton.1 hs] at e
      exact absurd e (fresh (hf.known r hr'))
  | used i h hu =>
    subst h
    rw [hu] at hk ⊢
    simp only [if_true] at hk ⊢
    have hf' := follows_mono (Nat.le_add_right k 1) hn hf
    have key : ∀ t ∈ v, (bumped t).counter.toNat = t.counter.toNat + 1 :=
      fun t ht => counter_succ (by have := hf.bound t ht; omega)
    refine ⟨by rw [bump_ids]; exact hf.ids, ?_, ?_, ?_, hf'.recs, hf'.known, ?_⟩
    all_goals
      intro s hs
      obtain ⟨t, h1, h2⟩ := mem_bump hs
    · rcases h2 with h2 | h2 <;> (rw [h2]; exact hf'.drawn t h1)
    · have := hf.bound t h1
      have := key t h1
      rcases h2 with rfl | rfl <;> omega
    · rcases h2 with h2 | h2 <;> (rw [h2]; exact hf'.ec t h1)
    · intro r hr e
      rcases h2 with rfl | rfl
      · exact hf.agree s h1 r hr e
      · have := hf.agree t h1 r hr e
        have := key t h1
        exact ⟨(hf.agree t h1 r hr e).1, by omega⟩
  | removed s h ho =>
    have hids := h.map (fun s : Source => s.id)
    have hf' := follows_mono (Nat.le_add_right k (if isGetAssertion op then 1 else 0)) hn hf
    have hmem : ∀ t ∈ v', t ∈ v := fun t ht => h.mem_iff.2 (List.mem_cons_of_mem _ ht)
    refine ⟨?_, fun t ht => hf'.drawn t (hmem t ht), fun t ht => hf'.bound t (hmem t ht),
      fun t ht => hf'.ec t (hmem t ht), hf'.recs, hf'.known, fun t ht => hf'.agree t (hmem t ht)⟩
    have := hids.nodup_iff.1 hf.ids
    rw [List.map_cons, List.nodup_cons] at this
    exact this.2

/-- A record for a credential that is in the vault may be added. -/
theorem follows_register {l : List Record} {k n : Nat} {v : List Source} {r : Record} {s : Source}
    (hs : s ∈ v) (hid : r.id = s.id) (hkey : s.key.ecdsa.map (·.pub) = some r.key)
    (hc : r.counter ≤ s.counter.toNat) (hnew : ∀ o ∈ l, o.id ≠ r.id) (hf : Follows E l k n v) :
    Follows E (l ++ [r]) k n v := by
  refine ⟨hf.ids, hf.drawn, hf.bound, hf.ec, ?_, ?_, ?_⟩
  · rw [List.map_append, List.nodup_append]
    refine ⟨hf.recs, by simp, ?_⟩
    intro a ha b hb
    simp only [List.map_cons, List.map_nil, List.mem_singleton] at hb
    subst hb
    obtain ⟨o, ho, rfl⟩ := List.mem_map.1 ha
    exact hnew o ho
  · intro o ho
    rcases List.mem_append.1 ho with ho | ho
    · exact hf.known o ho
    · rw [List.mem_singleton.1 ho, hid]; exact hf.drawn s hs
  · intro t ht o ho e
    rcases List.mem_append.1 ho with ho | ho
    · exact hf.agree t ht o ho e
    · rw [List.mem_singleton.1 ho] at e ⊢
      obtain rfl := eq_of_id hf.ids hs ht (by rw [← hid]; exact e)
      exact ⟨hkey, hc⟩

/-- A record may be updated when a credential of its id has the new counter. -/
theorem follows_login {l : List Record} {k n : Nat} {v : List Source} {r r' : Record} {s : Source}
    (hs : s ∈ v) (hr : r ∈ l) (hid : r.id = s.id) (hrid : r'.id = r.id) (hrk : r'.key = r.key)
    (hc : r'.counter ≤ s.counter.toNat) (hf : Follows E l k n v) :
    Follows E (l.map (fun o => if o.id = r'.id then r' else o)) k n v := by
  have hids : (l.map (fun o => if o.id = r'.id then r' else o)).map (·.id) = l.map (·.id) := by
    rw [List.map_map]
    refine List.map_congr_left fun o _ => ?_
    dsimp only [Function.comp]
    split
    · rename_i e; exact e.symm
    · rfl
  refine ⟨hf.ids, hf.drawn, hf.bound, hf.ec, by rw [hids]; exact hf.recs, ?_, ?_⟩
  · intro o ho
    obtain ⟨q, hq, rfl⟩ := List.mem_map.1 ho
    have : (if q.id = r'.id then r' else q).id = q.id := by
      split
      · rename_i e; exact e.symm
      · rfl
    rw [this]
    exact hf.known q hq
  · intro t ht o ho e
    obtain ⟨q, hq, rfl⟩ := List.mem_map.1 ho
    split at e
    · rename_i e'
      rw [if_pos e']
      obtain rfl := eq_of_id hf.ids hs ht (by rw [← hid, ← hrid]; exact e)
      rw [hrk]
      exact ⟨(hf.agree _ ht r hr hid).1, hc⟩
    · rename_i e'
      rw [if_neg e']
      exact hf.agree t ht q hq e

/-- Answers of a device whose credentials are followed. -/
theorem follows_assertion (L : Laws E) {l : List Record} {k : Nat} {d d' : Device}
    {data body : Bytes} (h : step E cfg d (.ctap (2 :: data)) = (.answer (0 :: body), d'))
    (hk : k + 1 < 4294967296) (hi : Inv E cfg (Follows E l k) d) :
    ∃ (args : GetAssertionArgs) (i : Nat) (s : Source) (rp : RPEntity) (flags : UInt8)
      (authData sig : Bytes) (ad : AuthData) (key : ECPriv),
      E.decodeGetAssertion data = some args ∧ First d.world.client.vault args.rpId args.allowList i s ∧
      s.rp = some rp ∧ getAssertionPIN E d.world.client args = .ok flags ∧
      d'.world.client.vault = Client.bump d.world.client.vault i ∧
      IsAssertion (0 :: body) s.id authData sig ∧ parseAuthData authData = some ad ∧
      ad.rpIdHash = E.sha256 args.rpId ∧ (args.up ≠ some false ↔ ad.userPresent = true) ∧
      (ad.userVerified = true ↔ flags = 4) ∧ ad.counter = s.counter.toNat + 1 ∧
      s.key.ecdsa = some key ∧
      E.verifyEC key.pub (E.sha256 (authData ++ args.clientDataHash)) sig = true := by
  obtain ⟨halive, -, hm⟩ := ctap_answered h
  obtain ⟨c, hh, -, hf, hc⟩ := hi
  obtain rfl := hc halive
  have hkeys : ∀ s ∈ d.world.client.vault, ∃ k, s.key.ecdsa = some k ∧ ECValid E k := by
    intro s hs
    obtain ⟨k, hk⟩ := Option.isSome_iff_exists.1 (hf.ec s hs)
    have hv := (hh.2.2.2.2 s hs).2.1
    simp only [KeyValid, hk] at hv
    exact ⟨k, hk, hv⟩
  have hlen : body.length < 18446744073709551616 := by
    refine assertion_length L hm ?_
    intro s hs'
    obtain ⟨k, hk, hv⟩ := hkeys s hs'
    obtain ⟨i, -, hi⟩ := hf.drawn s hs'
    exact ⟨by rw [hi, L.rand_length]; omega, k, hk, hv⟩
  obtain ⟨args, i, s, rp, user, flags, blob, n, authData, sig, ad, h1, h2, h3, -, h5, h6, -, -, -, h10,
    h11, h12, h13, h14, -, -, h17, -, h19⟩ := Ctap.assertion_spec L hm hlen
  have hs := List.mem_of_getElem? h2.1
  obtain ⟨key, hkey, hv⟩ := hkeys s hs
  have hsig : signECDSA E key (authData ++ args.clientDataHash) n = .ok sig := by
    simpa only [Cose.sign, hkey] using h19
  refine ⟨args, i, s, rp, flags, authData, sig, ad, key, h1, h2, h3, h5, by rw [h6], h11, h12, h13, ?_,
    h14, ?_, hkey, (Ctap.signECDSA_ok L hv hsig).1⟩
  · rcases h10 with ⟨q1, -, q3⟩ | ⟨q1, -, q3⟩ <;> simp [q1, q3]
  · rw [h17]
    exact counter_succ (by have := hf.bound s hs; omega)

theorem mem_bump_self {v : List Source} {i : Nat} {s : Source} (h : v[i]? = some s) :
    bumped s ∈ bump v i := by
  refine List.mem_iff_getElem?.2 ⟨i, ?_⟩
  simp [bump, List.getElem?_modify, h, bumped]

theorem follows_step (L : Laws E) {N : Nat} (hd : DistinctDraws E N) {l : List Record} {k : Nat}
    {d : Device} {op : Op} (p : Party) (hk : k + (if isGetAssertion op then 1 else 0) < 4294967296)
    (hN : (step E cfg d op).2.world.rnd ≤ N) (hi : Inv E cfg (Follows E l k) d) :
    Inv E cfg (Follows E (see E p l (op, (step E cfg d op).1))
      (k + (if isGetAssertion op then 1 else 0))) (step E cfg d op).2 := by
  have base : Inv E cfg (Follows E l (k + (if isGetAssertion op then 1 else 0)))
      (step E cfg d op).2 := by
    refine inv_step (P := Follows E l k) L (fun n v v' => follows_same)
      (fun n n' v h1 _ => follows_mono (Nat.le_add_right _ _) h1) ?_ hi
    intro n v v' h1 h2 h3 h4
    exact follows_change hd h1 (Nat.le_trans h2 hN) hk h3 h4
  rcases see_cases E p l op (step E cfg d op).1 with e | ⟨data, body, args, r, rfl, e1, e2, e3, e4, e⟩ |
    ⟨data, body, args, r, rfl, e1, e2, e3, e4, e⟩
  · rw [e]; exact base
  · rw [e]
    have hst : step E cfg d (.ctap (1 :: data)) =
        (.answer (0 :: body), (step E cfg d (.ctap (1 :: data))).2) := by rw [← e1]
    obtain ⟨-, hal, hm⟩ := ctap_answered hst
    obtain ⟨args', rp, key, cert, ad, flags, q1, q2, -, -, -, q6, q7, -, -, -, q11, q12⟩ :=
      register_eq L hm
    obtain rfl : args' = args := by rw [e2] at q1; exact (Option.some.inj q1).symm
    rw [q12] at e4
    split at e4
    · rename_i hcond
      obtain rfl := (Option.some.inj e4).symm
      obtain ⟨c, g1, g2, g3, g4⟩ := base
      obtain rfl := g4 hal
      refine ⟨_, g1, g2, ?_, g4⟩
      refine follows_register
        (s := ⟨ascii "public-key", E.rand d.world.rnd 16, { ecdsa := some key }, some rp, args'.user, 0⟩)
        (by rw [q6]; simp) rfl ?_ (Nat.zero_le _) hcond.2.2.2 g3
      rw [q11 _ rfl]
      rfl
    · cases e4
  · rw [e]
    have hst : step E cfg d (.ctap (2 :: data)) =
        (.answer (0 :: body), (step E cfg d (.ctap (2 :: data))).2) := by rw [← e1]
    obtain ⟨-, hal, hm⟩ := ctap_answered hst
    have hk' : k + 1 < 4294967296 := by simpa [isGetAssertion] using hk
    obtain ⟨args', i, s, rp, flags, authData, sig, ad, key, q1, q2, q3, q4, q5, q6, q7, q8, q9, q10,
      q11', q12, q13⟩ := follows_assertion L hst hk' hi
    rw [login_eq q6 q7] at e4
    cases hr : l.find? (fun r => r.id == s.id) with
    | none => rw [hr] at e4; cases e4
    | some r0 =>
      rw [hr] at e4
      simp only [Option.bind_some] at e4
      split at e4
      · obtain rfl := (Option.some.inj e4).symm
        have hmem := List.mem_of_find?_eq_some hr
        have hid : r0.id = s.id := by simpa using List.find?_some hr
        obtain ⟨c, g1, g2, g3, g4⟩ := base
        obtain rfl := g4 hal
        refine ⟨_, g1, g2, ?_, g4⟩
        refine follows_login (s := bumped s) (by rw [q5]; exact mem_bump_self q2.1) hmem hid rfl rfl
          ?_ g3
        have hb := hi
        obtain ⟨c, -, -, hf, hc⟩ := hb
        obtain rfl := hc (ctap_answered hst).1
        have hc1 := hf.bound s (List.mem_of_getElem? q2.1)
        have : (bumped s).counter.toNat = s.counter.toNat + 1 := counter_succ (by omega)
        show ad.counter ≤ _
        rw [this, q11']
        exact Nat.le_refl _
      · cases e4

theorem follows_after (L : Laws E) {N : Nat} (hd : DistinctDraws E N) (p : Party) :
    ∀ (ops : List Op) (l : List Record) (k : Nat) (d : Device),
      k + ops.countP isGetAssertion < 4294967296 → (after E cfg d ops).world.rnd ≤ N →
      Inv E cfg (Follows E l k) d →
      Inv E cfg (Follows E ((events E cfg d ops).foldl (see E p) l) (k + ops.countP isGetAssertion))
        (after E cfg d ops)
  | [], l, k, d, _, _, h => h
  | op :: ops, l, k, d, hk, hN, h => by
    have hr := after_rnd (cfg := cfg) L (step E cfg d op).2 ops
    rw [after_cons] at hN
    rw [List.countP_cons] at hk ⊢
    have h' := follows_step (op := op) L hd p
      (by generalize (if isGetAssertion op = true then 1 else 0) = x at *; omega) (by omega) h
    have := follows_after L hd p ops _ _ _
      (by generalize (if isGetAssertion op = true then 1 else 0) = x at *; omega) hN h'
    rw [after_cons, events_cons, List.foldl_cons]
    rwa [show k + (List.countP isGetAssertion ops + if isGetAssertion op = true then 1 else 0) =
      k + (if isGetAssertion op then 1 else 0) + List.countP isGetAssertion ops by omega]

theorem follows_boot (hu : Usable E cfg) : Inv E cfg (Follows E [] 0) (boot E cfg) := by
  refine inv_boot hu ⟨List.nodup_nil, ?_, ?_, ?_, List.nodup_nil, ?_, ?_⟩
  all_goals
    intro s hs
    cases hs

theorem follows_reachable (L : Laws E) (hu : Usable E cfg) (p : Party) (ops : List Op)
    (hd : DistinctDraws E (after E cfg (boot E cfg) ops).world.rnd)
    (huses : ops.countP isGetAssertion < 4294967296) :
    Inv E cfg (Follows E (records E p (events E cfg (boot E cfg) ops)) (ops.countP isGetAssertion))
      (after E cfg (boot E cfg) ops) := by
  have := follows_after L hd p ops [] 0 _ (by omega) (Nat.le_refl _) (follows_boot hu)
  rwa [Nat.zero_add] at this

end VF.Fido.Device
