import Verif.Props.GetAssertion
import Verif.Props.History

/-!
# Relying parties after a restart (C78)
-/

namespace VF.Props

open VF.Fido VF.Fido.Device VF.Spec.Ctap VF.Spec.Client VF.Spec.Vault VF.Spec.Cose VF.Spec.History

variable {E : Env} {cfg : Client.Config}

theorem publicOf_same {a b : PrivKey} (h : SamePrivate a b) : Cose.publicOf a = Cose.publicOf b := by
  obtain ⟨h1, h2, h3⟩ := h
  unfold Cose.publicOf
  rw [h1, h2]
  generalize b.rsa = rb at *
  generalize a.rsa = ra at *
  cases ra with
  | none =>
    cases rb with
    | none => rfl
    | some y => cases h3
  | some x =>
    cases rb with
    | none => cases h3
    | some y =>
      have h3 : (x.pub.n, x.pub.e, x.d, x.primes) = (y.pub.n, y.pub.e, y.d, y.primes) :=
        Option.some.inj h3
      simp only [Prod.mk.injEq] at h3
      have : x.pub = y.pub := by
        obtain ⟨n, e, -⟩ := h3
        generalize x.pub = px at *
        generalize y.pub = py at *
        cases px; cases py
        simp_all
      generalize b.ecdsa = u
      generalize b.ed25519 = v
      cases u <;> cases v <;> first | rfl | simp only [this]

/-- What a restart makes of the device: the same credentials, all with the entities of the last. -/
theorem restart_uniform (L : Laws E) (hu : Usable E cfg) (ops : List Op)
    (ha : (after E cfg (boot E cfg) ops).alive = true) :
    ∃ c', (step E cfg (after E cfg (boot E cfg) ops) .restart).2 =
        ⟨{ (after E cfg (boot E cfg) ops).world with
            client := c', rnd := (after E cfg (boot E cfg) ops).world.rnd + 2 }, true⟩ ∧
      SameDevice (after E cfg (boot E cfg) ops).world.client c' ∧ Healthy E c' ∧
      ∀ last, (after E cfg (boot E cfg) ops).world.client.vault.getLast? = some last →
        ∀ s ∈ c'.vault, s.rp = last.rp ∧ s.user = last.user := by
  obtain ⟨c, -, h2, -, h4⟩ := inv_reachable L hu ops
  obtain rfl := h4 ha
  obtain ⟨c', s1, s2, s3, -, s5⟩ := h2 (after E cfg (boot E cfg) ops).world.rnd
  refine ⟨c', ?_, s2, s3, s5⟩
  simp only [step, s1]

theorem mem_of_sameCredentials {v v' : List Source} (h : SameCredentials v v') {s : Source}
    (hs : s ∈ v) : ∃ s' ∈ v', SameCredential s s' := by
  obtain ⟨i, hi, e⟩ := List.getElem_of_mem hs
  have hi' : i < v'.length := by rw [← h.1]; exact hi
  exact ⟨v'[i], List.getElem_mem hi', h.2 i s v'[i] (by rw [List.getElem?_eq_getElem hi, e])
    (List.getElem?_eq_getElem hi')⟩

/-- After any history and a restart, only the relying party of the credential stored last can get
an assertion. -/
theorem C78_only_last_relying_party (L : Laws E) (hu : Usable E cfg) (ops : List Op) {d d' d'' : Device}
    (h1 : after E cfg (boot E cfg) ops = d) (ha : d.alive = true)
    (h2 : (step E cfg d .restart).2 = d') {data body : Bytes}
    (h3 : step E cfg d' (.ctap (0x02 :: data)) = (.answer (0 :: body), d'')) :
    ∃ args last rp, E.decodeGetAssertion data = some args ∧
      d.world.client.vault.getLast? = some last ∧ last.rp = some rp ∧ rp.id = args.rpId := by
  subst h1
  obtain ⟨c', e, s2, s3, s5⟩ := restart_uniform L hu ops ha
  generalize after E cfg (boot E cfg) ops = d at *
  rw [e] at h2
  subst h2
  rw [step_live rfl rfl, perform_ctap'] at h3
  have hc := Ctap.handleGetAssertion_cases E data
    { d.world with client := c', rnd := d.world.rnd + 2 }
  rw [Ctap.handleMessage_get] at h3
  generalize (Ctap.handleGetAssertion E data
    { d.world with client := c', rnd := d.world.rnd + 2 }) = p at *
  obtain ⟨r, w'⟩ := p
  dsimp only at hc h3
  have key : ∀ b, r = .ok b → b = 0 :: body := by
    rintro b rfl
    exact Reply.answer.inj (Prod.mk.inj h3).1
  cases hc with
  | nothing hw hr =>
    cases r with
    | ok b =>
      obtain ⟨e, he, -, hb⟩ := hr _ rfl
      rw [key b rfl] at hb
      exact absurd (List.cons.inj hb).1.symm he
    | panic c => cases h3
  | none args flags hd hp hm hw hr => have := key _ hr; simp at this
  | unsaved args flags i s hd hp hi hn c hr hw => subst hr; cases h3
  | refused args flags i s rp user blob n hd hp hi hn hup hrp hu ha hr hw =>
    have := key _ hr; simp at this
  | saved args flags flags' i s rp user blob n asks hd hp hi hn hrp hu hq hw hr =>
    have hs : s ∈ c'.vault := List.mem_of_getElem? hi.1
    obtain ⟨rp', q1, q2⟩ := hi.2.1.1
    cases hl : d.world.client.vault.getLast? with
    | none =>
      rw [List.getLast?_eq_none_iff] at hl
      have := s2.2.2.2.2.2.1
      rw [hl] at this
      rw [List.length_eq_zero_iff.1 this.symm] at hs
      cases hs
    | some last => exact ⟨args, last, rp', hd, rfl, by rw [← (s5 last hl s hs).1, q1], q2⟩

/-- ... and that one can get an assertion from every credential, whoever it was created for: with
the relying party's own hash, verifying under the credential's public key. -/
theorem C78_last_relying_party_gets_all (L : Laws E) (hu : Usable E cfg) (ops : List Op)
    {d d' : Device} (h1 : after E cfg (boot E cfg) ops = d) (ha : d.alive = true)
    (h2 : (step E cfg d .restart).2 = d') {last s : Source} {rp : RPEntity}
    (hl : d.world.client.vault.getLast? = some last) (hrp : last.rp = some rp)
    (hs : s ∈ d.world.client.vault) {data : Bytes} {args : GetAssertionArgs} {desc : Descriptor}
    (hd : E.decodeGetAssertion data = some args) (hid : args.rpId = rp.id)
    (hal : args.allowList = some [desc]) (hdesc : desc.id = s.id) (hpa : args.pinAuth = none)
    (hap : args.up = some false ∨
      ∀ rp user, E.approve d.world.asks .getAssertion rp user = true) :
    ∃ body d'', step E cfg d' (.ctap (0x02 :: data)) = (.answer (0 :: body), d'') ∧
      (body.length < 18446744073709551616 →
        ∃ t ∈ d.world.client.vault, ∃ authData sig ad pub, t.id = s.id ∧
          IsAssertion (0 :: body) t.id authData sig ∧ parseAuthData authData = some ad ∧
          ad.rpIdHash = E.sha256 rp.id ∧ Cose.publicOf t.key = .ok pub ∧
          Cose.verify E pub (authData ++ args.clientDataHash) sig = .ok true) := by
  subst h1
  obtain ⟨c', e, s2, s3, s5⟩ := restart_uniform L hu ops ha
  generalize after E cfg (boot E cfg) ops = d at *
  rw [e] at h2
  subst h2
  obtain ⟨s', hs', k1, -⟩ := mem_of_sameCredentials s2.2.2.2.2.2 hs
  obtain ⟨flags, hp⟩ := (assertionPinOk_iff E c' args).1 (.inr (.inl hpa))
  obtain ⟨body, w', h⟩ := Ctap.getAssertion_succeeds L
    (w := { d.world with client := c', rnd := d.world.rnd + 2 }) s3 hd hp
    ⟨s', hs', ⟨rp, by rw [(s5 last hl s' hs').1, hrp], hid.symm⟩, by
      intro l hl'
      rw [hal] at hl'
      obtain rfl := Option.some.inj hl'
      exact ⟨desc, by simp, by rw [hdesc, k1]⟩⟩ hap
  refine ⟨body, _, step_ctap rfl h, fun hlen => ?_⟩
  obtain ⟨args', i, t', _, _, _, _, n, authData, sig, ad, g1, g2, -, -, -, -, -, -, -, -, g11, g12, g13,
    -, -, -, -, -, g19⟩ := Ctap.assertion_spec L h hlen
  rw [hd] at g1
  obtain rfl := Option.some.inj g1
  have ht' : t' ∈ c'.vault := List.mem_of_getElem? g2.1
  obtain ⟨desc', d1, d2⟩ := g2.2.1.2 _ hal
  obtain rfl := List.mem_singleton.1 d1
  obtain ⟨pub, q1, q2⟩ := Ctap.sign_verifies L (s3.2.2.2.2 t' ht').2.1 g19
  obtain ⟨j, hj, ej⟩ := List.getElem_of_mem ht'
  have hj' : j < d.world.client.vault.length := by rw [s2.2.2.2.2.2.1]; exact hj
  have hsame := s2.2.2.2.2.2.2 j d.world.client.vault[j] t' (List.getElem?_eq_getElem hj')
    (by rw [List.getElem?_eq_getElem hj, ej])
  refine ⟨d.world.client.vault[j], List.getElem_mem hj', authData, sig, ad, pub, ?_, ?_, g12,
    by rw [g13, hid], by rw [publicOf_same hsame.2.2.2]; exact q1, q2⟩
  · rw [hsame.1, ← d2, hdesc]
  · rw [hsame.1]; exact g11

/-- Relying parties and users survive exactly if they are the same for all credentials. -/
theorem C78_kept_iff (L : Laws E) (hu : Usable E cfg) (ops : List Op)
    {d d' : Device} (h1 : after E cfg (boot E cfg) ops = d) (ha : d.alive = true)
    (h2 : (step E cfg d .restart).2 = d') :
    d'.world.client.vault.map (fun s => (s.id, s.rp, s.user)) =
        d.world.client.vault.map (fun s => (s.id, s.rp, s.user)) ↔
      ∀ s ∈ d.world.client.vault, ∀ t ∈ d.world.client.vault, s.rp = t.rp ∧ s.user = t.user := by
  subst h1
  obtain ⟨c', e, s2, s3, s5⟩ := restart_uniform L hu ops ha
  generalize after E cfg (boot E cfg) ops = d at *
  rw [e] at h2
  subst h2
  show c'.vault.map _ = _ ↔ _
  have hsame := s2.2.2.2.2.2
  constructor
  · intro h
    cases hl : d.world.client.vault.getLast? with
    | none =>
      rw [List.getLast?_eq_none_iff] at hl
      rw [hl]; intro s hs; cases hs
    | some last =>
      have key : ∀ s ∈ d.world.client.vault, s.rp = last.rp ∧ s.user = last.user := by
        intro s hs
        have hm : (s.id, s.rp, s.user) ∈ c'.vault.map (fun s => (s.id, s.rp, s.user)) := by
          rw [h]; exact List.mem_map.2 ⟨s, hs, rfl⟩
        obtain ⟨s', hs', e⟩ := List.mem_map.1 hm
        simp only [Prod.mk.injEq] at e
        have := s5 last hl s' hs'
        exact ⟨by rw [← e.2.1, this.1], by rw [← e.2.2, this.2]⟩
      intro s hs t ht
      exact ⟨by rw [(key s hs).1, (key t ht).1], by rw [(key s hs).2, (key t ht).2]⟩
  · intro h
    apply List.ext_getElem
    · simp [hsame.1]
    · intro i h1 h2
      simp only [List.length_map] at h1 h2
      simp only [List.getElem_map, Prod.mk.injEq]
      have q := hsame.2 i d.world.client.vault[i] c'.vault[i] (List.getElem?_eq_getElem h2)
        (List.getElem?_eq_getElem h1)
      have hne : d.world.client.vault ≠ [] := by
        intro e; rw [e] at h2; exact Nat.not_lt_zero _ h2
      have hl := List.getLast?_eq_some_getLast hne
      have u := s5 _ hl c'.vault[i] (List.getElem_mem h1)
      have v := h _ (List.getElem_mem h2) _ (List.getLast_mem hne)
      exact ⟨q.1.symm, by rw [u.1, v.1], by rw [u.2, v.2]⟩

/-! A witness: credentials for two relying parties, then a restart. -/

def otherRp : RPEntity := { id := ascii "other.org", name := ascii "Other" }

def otherMake : MakeCredArgs := { Toy.makeArgs [] none with rp := some otherRp }

/-- A request of the other relying party, naming a credential. -/
def otherGet (id : Bytes) : GetAssertionArgs :=
  { Toy.getArgs (some [{ type := ascii "public-key", id := id, transports := [] }]) none none with
    rpId := ascii "other.org" }

theorem otherRp_fits : Spec.Platform.textFits (ascii "other.org") ∧
    Spec.Platform.textFits (ascii "Other") :=
  ⟨⟨⟨"other.org", by decide +kernel⟩, Toy.short_of_small (by decide +kernel)⟩,
    ⟨⟨"Other", by decide +kernel⟩, Toy.short_of_small (by decide +kernel)⟩⟩

theorem otherMake_fits : Spec.Platform.MakeCredFits otherMake := by
  obtain ⟨h1, -, h3⟩ := Toy.make_fits [] none (.inl rfl) (by simp)
  refine ⟨h1, ?_, h3⟩
  intro r hr
  obtain rfl : otherRp = r := by simpa [otherMake] using hr
  exact otherRp_fits

theorem otherGet_fits {id : Bytes} (h : id.length = 16) :
    Spec.Platform.GetAssertionFits (otherGet id) := by
  refine ⟨otherRp_fits.1, Toy.short_of_small (by dsimp only [otherGet, Toy.getArgs]; decide), ?_, ?_⟩
  · intro l hl
    obtain rfl : [_] = l := by simpa [otherGet, Toy.getArgs] using hl
    refine ⟨?_, by simp⟩
    intro d hd
    obtain rfl : d = _ := by simpa using hd
    exact ⟨Toy.short_of_small (by dsimp only; omega), Toy.text_publicKey, by simp, by simp⟩
  · intro b hb
    simp [otherGet, Toy.getArgs] at hb

theorem restart_witness : ∃ (E : Env) (cfg : Client.Config) (makeA makeB getA getB : Bytes)
    (argsA argsB : GetAssertionArgs) (d d' : Device) (a b : Source) (body body' authData sig : Bytes),
    Laws E ∧ Usable E cfg ∧
    E.decodeGetAssertion getA = some argsA ∧ argsA.rpId = ascii "example.org" ∧
    E.decodeGetAssertion getB = some argsB ∧ argsB.rpId = ascii "other.org" ∧
    after E cfg (boot E cfg) [.ctap (0x01 :: makeA), .ctap (0x01 :: makeB)] = d ∧
    d.world.client.vault = [a, b] ∧
    a.rp.map (·.id) = some (ascii "example.org") ∧ b.rp.map (·.id) = some (ascii "other.org") ∧
    step E cfg d .restart = (.started, d') ∧
    (step E cfg d (.ctap (0x02 :: getA))).1 = .answer (0 :: body) ∧
    (step E cfg d (.ctap (0x02 :: getB))).1 = .answer [0x2E] ∧
    (step E cfg d' (.ctap (0x02 :: getA))).1 = .answer [0x2E] ∧
    (step E cfg d' (.ctap (0x02 :: getB))).1 = .answer (0 :: body') ∧
    IsAssertion (0 :: body') a.id authData sig ∧
    CanAttest E (boot E cfg).world.client ∧ argsA.up = none ∧ argsB.up = none ∧
    DistinctDraws E d.world.rnd := by
  let ap : List Ask → Action → Bytes → Bytes → Bool := fun _ _ _ _ => true
  have L := Toy.toy_laws ap
  let E := Toy.toy ap
  let cfg := Toy.config false
  have hm1 := Toy.make_decodes ap [] none (.inl rfl) (by simp)
  have hm2 := L.decode_makeCred _ otherMake_fits
  have hg1 := Toy.get_decodes ap none none none (.inl rfl) (by simp)
  obtain ⟨b0, w1, blob1, m1, n1, h1, h2, h3, -, -, hr, -⟩ := made L (w := (boot E cfg).world)
    (Toy.boot_healthy ap false) (Toy.boot_attests ap false) hm1
    (by dsimp only [Toy.makeArgs]; decide +kernel) rfl rfl (flags := 0) rfl rfl
  have s1 := step_ctap (E := E) (cfg := cfg) (d := boot E cfg) rfl h1
  have hat : CanAttest E w1.client := by
    obtain ⟨i, q⟩ := Toy.boot_attests ap false
    rw [h2]; exact ⟨i, q⟩
  obtain ⟨b1, w2, blob2, m2, n2, k1, k2, k3, k4, k5, hr2, -⟩ := made L (w := w1) h3 hat hm2
    (rp := otherRp) (user := Toy.user)
    (by dsimp only [otherMake, Toy.makeArgs]; decide +kernel) rfl rfl (flags := 0)
    (by rw [h2]; rfl) rfl
  have s2 := step_ctap (E := E) (cfg := cfg) (d := ⟨w1, true⟩) rfl k1
  obtain ⟨a, ea⟩ : ∃ a, a = Vault.newIdentity E (some Toy.rp) (some Toy.user) 2 := ⟨_, rfl⟩
  obtain ⟨b, eb⟩ : ∃ b, b = Vault.newIdentity E (some otherRp) (some Toy.user) w1.rnd := ⟨_, rfl⟩
  have hv : w2.client.vault = [a, b] := by
    rw [k2, ea, eb]
    show w1.client.vault ++ _ = _
    rw [h2]; rfl
  have harp : a.rp = some Toy.rp := by rw [ea]; rfl
  have hbrp : b.rp = some otherRp := by rw [eb]; rfl
  have hal : a.id.length = 16 := by rw [ea]; exact L.rand_length _ _
  have hbl : b.id.length = 16 := by rw [eb]; exact L.rand_length _ _
  have hae : a.key.ecdsa.isSome ∧ b.key.ecdsa.isSome := by rw [ea, eb]; exact ⟨rfl, rfl⟩
  have hg2 := L.decode_getAssertion _ (otherGet_fits hal)
  have hne : Toy.rp.id ≠ otherRp.id := by dsimp only [Toy.rp, otherRp]; decide +kernel
  have hpin : w2.client.pinEnabled = false := by rw [k2, h2]; rfl
  obtain ⟨c', s3, r1, r2, r3⟩ := restarted (E := E) (cfg := cfg) (d := ⟨w2, true⟩) L k3 k4 k5
  have hpin' : c'.pinEnabled = false := by rw [← r1.2.2.2.1]; exact hpin
  have hu' : ∀ s ∈ c'.vault, s.rp = some otherRp := by
    intro s hs
    rw [← hbrp]
    exact (r3 b (by show w2.client.vault.getLast? = _; rw [hv]; rfl) s hs).1
  obtain ⟨body, w3, g3⟩ := Ctap.getAssertion_succeeds L (w := w2) k3 hg1 (flags := 0)
    (by simp [Ctap.getAssertionPIN, hpin])
    ⟨a, by rw [hv]; simp, ⟨Toy.rp, harp, rfl⟩, by intro l hl; cases hl⟩ (.inr (fun _ _ => rfl))
  have g4 := (C49_no_credentials_iff (E := E) (w := w2)
      (data := Cbor.encode (Spec.Platform.getAssertionItem (otherGet a.id))) k3).2
    ⟨_, hg2, .inl hpin, by
      rw [hv]
      intro s hs hmt
      simp only [List.mem_cons, List.not_mem_nil, or_false] at hs
      rcases hs with e | e
      · obtain ⟨r, q1, q2⟩ := hmt.1
        rw [e, harp] at q1
        obtain rfl := Option.some.inj q1
        exact hne q2
      · obtain ⟨d, q1, q2⟩ := hmt.2 _ rfl
        obtain rfl := List.mem_singleton.1 q1
        have q2 : a.id = s.id := q2
        rw [e, ea, eb] at q2
        have q2 : List.replicate 16 (UInt8.ofNat 2) = List.replicate 16 (UInt8.ofNat w1.rnd) := q2
        have q2 := Toy.toy_draws ap (n := 256) (Nat.le_refl _) 2 w1.rnd (by omega)
          (by have : w1.rnd ≤ 2 + 8 := hr.2; omega) q2
        have : 2 < w1.rnd := hr.1
        omega⟩
  have g5 := (C49_no_credentials_iff (E := E)
      (w := { w2 with client := c', rnd := w2.rnd + 2 }) (data := Toy.getData none none none) r2).2
    ⟨_, hg1, .inl hpin', by
      intro s hs hmt
      obtain ⟨r, q1, q2⟩ := hmt.1
      rw [hu' s hs] at q1
      obtain rfl := Option.some.inj q1
      exact hne q2.symm⟩
  obtain ⟨a', ha', i1, i2, i3, i4⟩ := mem_of_sameCredentials r1.2.2.2.2.2 (s := a)
    (by show a ∈ w2.client.vault; rw [hv]; simp)
  obtain ⟨body', w4, i, s, authData, sig, ad, _, _, _, p1, p2, p3, p4, p5, -⟩ :=
    got L (w := { w2 with client := c', rnd := w2.rnd + 2 }) r2 hg2 (flags := 0)
      (by simp [Ctap.getAssertionPIN, hpin'])
      ⟨a', ha', ⟨otherRp, hu' a' ha', rfl⟩, by
        intro l hl
        obtain rfl := Option.some.inj hl
        exact ⟨_, List.mem_singleton.2 rfl, i1⟩⟩ (.inr (fun _ _ => rfl))
      (by
        intro y hy
        obtain ⟨z, z1, z2, -, z3⟩ := sameCredentials_mem r1.2.2.2.2.2 hy
        have z1 : z ∈ w2.client.vault := z1
        rw [hv] at z1
        simp only [List.mem_cons, List.not_mem_nil, or_false] at z1
        rcases z1 with e | e
        · exact ⟨by rw [← z2, e]; omega, by rw [← z3, e]; exact hae.1⟩
        · exact ⟨by rw [← z2, e]; omega, by rw [← z3, e]; exact hae.2⟩)
  have hsid : s.id = a.id := by
    obtain ⟨d, q1, q2⟩ := p4.2 _ rfl
    obtain rfl := List.mem_singleton.1 q1
    exact q2.symm
  rw [hsid] at p5
  refine ⟨E, cfg, Toy.makeData [] none, Cbor.encode (Spec.Platform.makeCredItem otherMake), _, _, _, _, ⟨w2, true⟩, _, a, b, body, body', authData, sig, L,
    Toy.config_usable ap false, hg1, rfl, hg2, rfl, ?_, hv, by rw [harp]; rfl, by rw [hbrp]; rfl, s3,
    ?_, ?_, ?_, ?_, p5, Toy.boot_attests ap false, rfl, rfl, ?_⟩
  · rw [after_cons, s1, after_cons]
    show after E cfg (step E cfg ⟨w1, true⟩ _).2 [] = _
    rw [s2]; rfl
  · rw [step_ctap rfl g3]
  · rw [step_live rfl rfl, perform_ctap']; dsimp only; rw [g4]; rfl
  · rw [step_live rfl rfl, perform_ctap']; dsimp only; rw [g5]; rfl
  · rw [step_ctap rfl p1]
  · refine Toy.toy_draws ap ?_
    have h1 : w1.rnd ≤ 2 + 8 := hr.2
    have h2 : w2.rnd ≤ w1.rnd + 8 := hr2.2
    show w2.rnd ≤ 256
    omega

/-- The property fails: before the restart `example.org` can log in and `other.org` gets nothing
from `example.org`'s credential; after the restart it is the other way round. -/
theorem C78_refuted : ∃ (E : Env) (cfg : Client.Config) (makeA makeB getA getB : Bytes)
    (argsA argsB : GetAssertionArgs) (d d' : Device) (a b : Source) (body body' authData sig : Bytes),
    Laws E ∧ Usable E cfg ∧
    E.decodeGetAssertion getA = some argsA ∧ argsA.rpId = ascii "example.org" ∧
    E.decodeGetAssertion getB = some argsB ∧ argsB.rpId = ascii "other.org" ∧
    after E cfg (boot E cfg) [.ctap (0x01 :: makeA), .ctap (0x01 :: makeB)] = d ∧
    d.world.client.vault = [a, b] ∧
    a.rp.map (·.id) = some (ascii "example.org") ∧ b.rp.map (·.id) = some (ascii "other.org") ∧
    step E cfg d .restart = (.started, d') ∧
    (step E cfg d (.ctap (0x02 :: getA))).1 = .answer (0 :: body) ∧
    (step E cfg d (.ctap (0x02 :: getB))).1 = .answer [0x2E] ∧
    (step E cfg d' (.ctap (0x02 :: getA))).1 = .answer [0x2E] ∧
    (step E cfg d' (.ctap (0x02 :: getB))).1 = .answer (0 :: body') ∧
    IsAssertion (0 :: body') a.id authData sig := by
  obtain ⟨E, cfg, makeA, makeB, getA, getB, argsA, argsB, d, d', a, b, body, body', authData, sig, h1, h2, h3,
    h4, h5, h6, h7, h8, h9, h10, h11, h12, h13, h14, h15, h16, -⟩ := restart_witness
  exact ⟨E, cfg, makeA, makeB, getA, getB, argsA, argsB, d, d', a, b, body, body', authData, sig, h1, h2, h3,
    h4, h5, h6, h7, h8, h9, h10, h11, h12, h13, h14, h15, h16⟩

end VF.Props
