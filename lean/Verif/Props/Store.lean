import Verif.Proofs.Store
import Verif.Proofs.ToyHistory
import Verif.Props.Log

/-!
# Which credentials a device holds, and where assertions come from (C89, C90, C91)
-/

namespace VF.Props

open VF.Fido VF.Fido.Device VF.Spec.Client VF.Spec.Vault VF.Spec.History VF.Spec.Ctap VF.Spec.Store

variable {E : Env} {cfg : Client.Config}

/-! ## C89 -/

/-- What should be held: the credentials announced by answers to MakeCredential and not deleted
afterwards. -/
theorem C89_meaning_of_held (seen : List (Op × Reply)) (c : Cred) :
    c ∈ held seen ↔ ∃ pre data b post, seen = pre ++ (.ctap (1 :: data), .answer b) :: post ∧
      announced b = some c ∧ (.deleteIdentity c.id, .deleted true) ∉ post := by
  have hsnoc : ∀ (seen : List (Op × Reply)) e, held (seen ++ [e]) = learn (held seen) e := by
    intro seen e
    simp only [held, List.foldl_append, List.foldl_cons, List.foldl_nil]
  refine snoc_induction (P := fun seen => c ∈ held seen ↔ ∃ pre data b post,
    seen = pre ++ (.ctap (1 :: data), .answer b) :: post ∧ announced b = some c ∧
      (.deleteIdentity c.id, .deleted true) ∉ post) ?_ ?_ seen
  · constructor
    · intro h; cases h
    · rintro ⟨pre, data, b, post, h, -⟩
      cases pre <;> cases h
  · intro seen e ih
    rw [hsnoc]
    have hlast : ∀ {pre post : List (Op × Reply)} {x : Op × Reply}, seen ++ [e] = pre ++ x :: post →
        (post = [] ∧ x = e) ∨ ∃ post', post = post' ++ [e] ∧ seen = pre ++ x :: post' := by
      intro pre post x h
      rcases List.eq_nil_or_concat post with rfl | ⟨post', y, rfl⟩
      · have := List.append_inj' h rfl
        exact .inl ⟨rfl, (List.cons.inj this.2).1.symm⟩
      · right
        have h' : seen ++ [e] = (pre ++ x :: post') ++ [y] := by rw [h]; simp
        have := List.append_inj' h' rfl
        obtain rfl := (List.cons.inj this.2).1
        exact ⟨post', by simp, this.1⟩
    have hkeep : e ≠ (.deleteIdentity c.id, .deleted true) → c ∈ held seen →
        ∃ pre data b post, seen ++ [e] = pre ++ (.ctap (1 :: data), .answer b) :: post ∧
          announced b = some c ∧ (.deleteIdentity c.id, .deleted true) ∉ post := by
      intro hne h
      obtain ⟨pre, data, b, post, h1, h2, h3⟩ := ih.1 h
      refine ⟨pre, data, b, post ++ [e], by rw [h1]; simp, h2, ?_⟩
      intro hm
      rcases List.mem_append.1 hm with hm | hm
      · exact h3 hm
      · exact hne (List.mem_singleton.1 hm).symm
    constructor
    · intro h
      unfold learn at h
      split at h
      · rename_i data b
        rcases List.mem_append.1 h with h | h
        · exact hkeep (by simp) h
        · exact ⟨seen, data, b, [], rfl, by simpa using h, by simp⟩
      · rename_i id
        obtain ⟨h1, h2⟩ := List.mem_filter.1 h
        refine hkeep ?_ h1
        intro e
        simp only [Prod.mk.injEq, Op.deleteIdentity.injEq, and_true] at e
        simp [e] at h2
      · refine hkeep ?_ h
        rintro rfl
        rename_i hx hy
        exact hy _ rfl
    · rintro ⟨pre, data, b, post, h1, h2, h3⟩
      rcases hlast h1 with ⟨rfl, rfl⟩ | ⟨post', rfl, h4⟩
      · show c ∈ held seen ++ (announced b).toList
        rw [h2]
        simp
      · have hc : c ∈ held seen :=
          ih.2 ⟨pre, data, b, post', h4, h2, fun hm => h3 (List.mem_append_left _ hm)⟩
        unfold learn
        split
        · exact List.mem_append_left _ hc
        · rename_i id
          refine List.mem_filter.2 ⟨hc, ?_⟩
          simp only [bne_iff_ne, ne_eq]
          rintro rfl
          exact h3 (List.mem_append_right _ (List.mem_singleton.2 rfl))
        · exact hc

/-- After any history with restarts and crashes, the identities of the running device are exactly those
announced to relying parties and not deleted since, each once, with the announced public keys.  The
device can attest, and random draws do not repeat. -/
theorem C89_credentials_held (L : Laws E) (hu : Usable E cfg)
    (hat : CanAttest E (boot E cfg).world.client) (ops : List Op)
    (ha : (after E cfg (boot E cfg) ops).alive = true)
    (hd : DistinctDraws E (after E cfg (boot E cfg) ops).world.rnd) :
    ((Client.identities (after E cfg (boot E cfg) ops).world.client).map
        (fun s => (s.id, Cose.publicOf s.key))).Perm
      ((held (events E cfg (boot E cfg) ops)).map
        (fun c => (c.id, .ok { ecdsa := some c.key }))) := by
  obtain ⟨c, -, -, hs, hc⟩ := stores_reachable L hu hat ops hd
  obtain rfl := hc ha
  generalize held (events E cfg (boot E cfg) ops) = l at *
  generalize (after E cfg (boot E cfg) ops).world.client = c at *
  let f : Bytes × Option ECPub → Bytes × Res PubKey := fun p =>
    (p.1, match p.2 with
      | some k => .ok { ecdsa := some k }
      | none => .panic .explicit)
  have h := hs.1.map f
  rw [List.map_map, List.map_map] at h
  have e : c.vault.map (f ∘ shown) = c.vault.map (fun s => (s.id, Cose.publicOf s.key)) := by
    refine List.map_congr_left fun s hm => ?_
    have : shown s ∈ l.map want := hs.1.mem_iff.1 (List.mem_map.2 ⟨s, hm, rfl⟩)
    obtain ⟨w, -, hw⟩ := List.mem_map.1 this
    have hk := (Prod.mk.inj hw).2
    cases he : s.key.ecdsa with
    | none => rw [he] at hk; cases hk
    | some k => simp [f, shown, he, Cose.publicOf]
  rw [e] at h
  exact h

/-! ## C90 -/

/-- After any history, the credential of a successful assertion was announced by an earlier answer to
MakeCredential and not deleted since, and the signature over authenticator data and client data hash
verifies under the public key announced there. -/
theorem C90_assertion_provenance (L : Laws E) (hu : Usable E cfg)
    (hat : CanAttest E (boot E cfg).world.client) (ops : List Op) {data body : Bytes} {d' : Device}
    (h : step E cfg (after E cfg (boot E cfg) ops) (.ctap (2 :: data)) = (.answer (0 :: body), d'))
    (hd : DistinctDraws E (after E cfg (boot E cfg) ops).world.rnd) :
    ∃ args c authData sig pre request answer post,
      E.decodeGetAssertion data = some args ∧ IsAssertion (0 :: body) c.id authData sig ∧
      events E cfg (boot E cfg) ops = pre ++ (.ctap (1 :: request), .answer answer) :: post ∧
      announced answer = some c ∧ (.deleteIdentity c.id, .deleted true) ∉ post ∧
      E.verifyEC c.key (E.sha256 (authData ++ args.clientDataHash)) sig = true := by
  have hst := stores_reachable L hu hat ops hd
  have hheld := C89_meaning_of_held (events E cfg (boot E cfg) ops)
  generalize held (events E cfg (boot E cfg) ops) = l at *
  generalize after E cfg (boot E cfg) ops = d at *
  have halive : d.alive = true := by
    cases hal : d.alive with
    | true => rfl
    | false => rw [step_dead rfl hal] at h; cases h
  obtain ⟨c, hh, -, hs, hc⟩ := hst
  obtain rfl := hc halive
  have hm : Ctap.handleMessage E (0x02 :: data) d.world = (.ok (0 :: body), d'.world) := by
    rw [step_live rfl halive, perform_ctap'] at h
    cases hr : (Ctap.handleMessage E (2 :: data) d.world).1 with
    | panic c => rw [hr] at h; cases h
    | ok b =>
      rw [hr] at h
      simp only [outcome, Prod.mk.injEq, Reply.answer.injEq] at h
      rw [← h.1, ← h.2, ← hr]
  have hkeys : ∀ s ∈ d.world.client.vault, ∃ w ∈ l, s.id = w.id ∧ ∃ k, s.key.ecdsa = some k ∧
      k.pub = w.key ∧ ECValid E k := by
    intro s hm
    have : shown s ∈ l.map want := hs.1.mem_iff.1 (List.mem_map.2 ⟨s, hm, rfl⟩)
    obtain ⟨w, hw1, hw⟩ := List.mem_map.1 this
    obtain ⟨e1, e2⟩ := Prod.mk.inj hw
    have hv := (hh.2.2.2.2 s hm).2.1
    cases he : s.key.ecdsa with
    | none => rw [he] at e2; cases e2
    | some k =>
      rw [he] at e2
      simp only [KeyValid, he] at hv
      exact ⟨w, hw1, e1.symm, k, rfl, (Option.some.inj e2).symm, hv⟩
  have hlen : body.length < 18446744073709551616 := by
    refine assertion_length L hm ?_
    intro s hs'
    obtain ⟨w, -, -, k, hk, -, hv⟩ := hkeys s hs'
    obtain ⟨i, -, hi⟩ := hs.2.2 s hs'
    exact ⟨by rw [hi, L.rand_length]; omega, k, hk, hv⟩
  obtain ⟨args, i, s, rp, user, flags, blob, n, authData, sig, ad, h1, h2, -, -, -, -, -, -, -, -,
    h11, -, -, -, -, -, -, -, h19⟩ := Ctap.assertion_spec L hm hlen
  obtain ⟨w, hw, hid, k, hk, hp, hv⟩ := hkeys s (List.mem_of_getElem? h2.1)
  obtain ⟨pre, request, answer, post, g1, g2, g3⟩ := (hheld w).1 hw
  rw [hid] at h11
  refine ⟨args, w, authData, sig, pre, request, answer, post, h1, h11, g1, g2, g3, ?_⟩
  have hsig : signECDSA E k (authData ++ args.clientDataHash) n = .ok sig := by
    simpa only [Cose.sign, hk] using h19
  rw [← hp]
  exact (Ctap.signECDSA_ok L hv hsig).1

/-- A history that meets the hypotheses of C89 and C90: a creation, a login, a restart, and then a
login. -/
example : ∃ (E : Env) (cfg : Client.Config) (ops : List Op) (data body : Bytes) (d' : Device),
    Laws E ∧ Usable E cfg ∧ CanAttest E (boot E cfg).world.client ∧ ops.length = 3 ∧
    (after E cfg (boot E cfg) ops).alive = true ∧
    step E cfg (after E cfg (boot E cfg) ops) (.ctap (2 :: data)) = (.answer (0 :: body), d') ∧
    DistinctDraws E (after E cfg (boot E cfg) ops).world.rnd := by
  obtain ⟨E, cfg, make, get, d1, d2, d3, d4, body1, body2, id, authData1, authData2, sig1, sig2, ad1,
    ad2, L, hu, hat, h1, h2, h3, h4, -, -, -, -, hd, -⟩ := Toy.login_restart_login
  have e : after E cfg (boot E cfg) [.ctap make, .ctap (2 :: get), .restart] = d3 := by
    show after E cfg (after E cfg (boot E cfg) [.ctap make]) [.ctap (2 :: get), .restart] = d3
    rw [h1, after_cons, h2]
    exact h3
  refine ⟨E, cfg, [.ctap make, .ctap (2 :: get), .restart], get, body2, d4, L, hu, hat, rfl, ?_, ?_, ?_⟩
  · rw [e]
    cases hal : d3.alive with
    | true => rfl
    | false => rw [step_dead rfl hal] at h4; cases h4
  · rw [e]; exact h4
  · rw [e]
    have r := step_rnd (cfg := cfg) L d3 (.ctap (2 :: get))
    rw [h4] at r
    exact fun i j hi hj => hd i j (Nat.lt_of_lt_of_le hi r) (Nat.lt_of_lt_of_le hj r)

/-! ## C91 -/

/-- Two creations announce different ids, whatever the device did before and does in between (also
restarts, crashes and deletions), as long as random draws do not repeat. -/
theorem C91_ids_distinct (L : Laws E) (mid : List Op) {data1 data2 b1 b2 : Bytes}
    {c1 c2 : Cred} {d1 d2 d3 d4 : Device}
    (h2 : step E cfg d1 (.ctap (1 :: data1)) = (.answer b1, d2))
    (h3 : after E cfg d2 mid = d3)
    (h4 : step E cfg d3 (.ctap (1 :: data2)) = (.answer b2, d4))
    (ha1 : announced b1 = some c1) (ha2 : announced b2 = some c2)
    (hd : DistinctDraws E d4.world.rnd) : c1.id ≠ c2.id := by
  have key : ∀ {d d' : Device} {data b : Bytes} {c : Cred},
      step E cfg d (.ctap (1 :: data)) = (.answer b, d') → announced b = some c →
      c.id = E.rand d.world.rnd 16 ∧ d.world.rnd < d'.world.rnd := by
    intro d d' data b c h ha
    have halive : d.alive = true := by
      cases hal : d.alive with
      | true => rfl
      | false => rw [step_dead rfl hal] at h; cases h
    have hb : ∃ body, b = 0 :: body := by
      unfold announced at ha
      split at ha
      · exact ⟨_, rfl⟩
      · cases ha
    obtain ⟨body, rfl⟩ := hb
    have hm : Ctap.handleMessage E (1 :: data) d.world = (.ok (0 :: body), d'.world) := by
      rw [step_live rfl halive, perform_ctap'] at h
      cases hr : (Ctap.handleMessage E (1 :: data) d.world).1 with
      | panic c => rw [hr] at h; cases h
      | ok b =>
        rw [hr] at h
        simp only [outcome, Prod.mk.injEq, Reply.answer.injEq] at h
        rw [← h.1, ← h.2, ← hr]
    obtain ⟨s, c', -, q2, q3, q4, q5⟩ := creation_announces L hm
    rw [ha] at q3
    obtain rfl := Option.some.inj q3
    exact ⟨(Prod.mk.inj q4).1.symm.trans q2, q5⟩
  obtain ⟨e1, r1⟩ := key h2 ha1
  obtain ⟨e2, r2⟩ := key h4 ha2
  have r := after_rnd (cfg := cfg) L d2 mid
  rw [h3] at r
  intro e
  rw [e1, e2] at e
  have := hd _ _ (by omega) (by omega) e
  omega

/-- Two creations in a row. -/
example : ∃ (E : Env) (cfg : Client.Config) (data b1 b2 : Bytes) (c1 c2 : Cred) (d2 d4 : Device),
    Laws E ∧ step E cfg (boot E cfg) (.ctap (1 :: data)) = (.answer b1, d2) ∧
    step E cfg (after E cfg d2 []) (.ctap (1 :: data)) = (.answer b2, d4) ∧
    announced b1 = some c1 ∧ announced b2 = some c2 ∧ DistinctDraws E d4.world.rnd := by
  let ap : List Ask → Action → Bytes → Bytes → Bool := fun _ _ _ _ => true
  have L := Toy.toy_laws ap
  obtain ⟨b0, w1, blob, m, n, h1, h2, h3, h4, h5, h6, -⟩ := made L
    (w := (boot (Toy.toy ap) (Toy.config false)).world) (Toy.boot_healthy ap false)
    (Toy.boot_attests ap false) (Toy.make_decodes ap [] none (.inl rfl) (by simp))
    (by dsimp only [Toy.makeArgs]; decide +kernel) rfl rfl (flags := 0) rfl rfl
  obtain ⟨b1, w2, -, -, -, g1, -, -, -, -, g6, -⟩ := made L
    (w := w1) h3
    (by
      obtain ⟨i, q1, q2, q3⟩ := Toy.boot_attests ap false
      exact ⟨i, by rw [h2]; exact q1, q2, by rw [h2]; exact q3⟩)
    (Toy.make_decodes ap [] none (.inl rfl) (by simp))
    (by dsimp only [Toy.makeArgs]; decide +kernel) rfl rfl (flags := 0) (by
      simp [Ctap.makeCredentialPIN, h2, boot, Client.fresh, Toy.config]) rfl
  obtain ⟨-, c1, -, -, a1, -⟩ := creation_announces L h1
  obtain ⟨-, c2, -, -, a2, -⟩ := creation_announces L g1
  refine ⟨Toy.toy ap, Toy.config false, Toy.makeData [] none, 0 :: b0, 0 :: b1, c1, c2, ⟨w1, true⟩,
    ⟨w2, true⟩, L, step_ctap rfl h1, step_ctap (d := ⟨w1, true⟩) rfl g1, a1, a2, ?_⟩
  have h6 : w1.rnd ≤ 2 + 8 := h6.2
  exact Toy.toy_draws ap (by show w2.rnd ≤ 256; omega)

end VF.Props
