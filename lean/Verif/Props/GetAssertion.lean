import Verif.Proofs.ToyDevice

/-!
# authenticatorGetAssertion (C45, C47–C49, C51, C77)
-/

namespace VF.Props

open VF.Fido VF.Spec.Ctap VF.Spec.Client VF.Spec.Vault VF.Spec.Cose

theorem assertionPinOk_iff (E : Env) (c : Client) (args : GetAssertionArgs) :
    AssertionPinOk E c args ↔ ∃ flags, Ctap.getAssertionPIN E c args = .ok flags := by
  constructor
  · intro h
    unfold Ctap.getAssertionPIN
    by_cases he : c.pinEnabled = false
    · rw [if_pos he]; exact ⟨_, rfl⟩
    · rw [if_neg he]
      rcases h with h | h | ⟨h1, h2⟩
      · exact absurd h he
      · rw [h]; exact ⟨_, rfl⟩
      · rw [h2]; simp only [h1, ne_eq, not_true_eq_false, if_false, Ctap.derivePINAuth, if_true]
        exact ⟨_, rfl⟩
  · rintro ⟨flags, h⟩
    rcases Ctap.getAssertionPIN_ok h with ⟨h1, -⟩ | ⟨-, h1, -⟩ | ⟨-, h1, -⟩
    · exact .inl h1
    · exact .inr (.inr h1)
    · exact .inr (.inl h1)

/-! ## C45 (assertion) -/

/-- The authenticator data of a successful assertion. -/
theorem C45_assertion_authenticator_data {E : Env} (L : Laws E) {data body : Bytes} {w w' : World}
    (h : Ctap.handleMessage E (0x02 :: data) w = (.ok (0 :: body), w'))
    (hlen : body.length < 18446744073709551616) :
    ∃ args id authData sig ad, ∃ (i : Nat) (s : Source),
      E.decodeGetAssertion data = some args ∧
      IsAssertion (0 :: body) id authData sig ∧ parseAuthData authData = some ad ∧
      ad.rpIdHash = E.sha256 args.rpId ∧
      (ad.userPresent = true ↔ ∃ a ∈ newAsks w w', a.answer = true) ∧
      (ad.userVerified = true ↔ w.client.pinEnabled = true ∧
        PinAuthOk E w.client args.clientDataHash args.pinAuth args.pinProtocol) ∧
      ad.attestedData = false ∧ ad.otherFlags = false ∧ ad.rest = [] ∧
      w'.client.vault[i]? = some s ∧ s.id = id ∧ ad.counter = s.counter.toNat := by
  obtain ⟨args, i, s, rp, user, flags, blob, n, authData, sig, ad, h1, h2, h3, h4, h5, h6, h7, h8, h9,
    h10, h11, h12, h13, h14, h15, h16, h17, h18, h19⟩ := Ctap.assertion_spec L h hlen
  refine ⟨args, s.id, authData, sig, ad, i, Ctap.bumped s, h1, h11, h12, h13, ?_, ?_, h15, h16,
    h18, by rw [h6]; exact Ctap.bump_get h2.1, rfl, h17⟩
  · rcases h10 with ⟨-, q2, q3⟩ | ⟨-, q2, q3⟩
    · simp [newAsks, q2, q3]
    · simp [newAsks, q2, q3]
  · rw [h14]
    rcases Ctap.uv_iff_get h5 with ⟨rfl, h⟩ | ⟨rfl, h⟩
    · constructor
      · intro e; exact absurd e (by decide)
      · intro e; exact absurd e h
    · exact ⟨fun _ => h, fun _ => rfl⟩

/-! ## C47 -/

/-- The credential named belongs to the requested relying party and is allowed, and the signature
verifies under its public key. -/
theorem C47_assertion_uses_matching_credential {E : Env} (L : Laws E) {data body : Bytes}
    {w w' : World} (h : Ctap.handleMessage E (0x02 :: data) w = (.ok (0 :: body), w'))
    (hlen : body.length < 18446744073709551616)
    (hv : ∀ s ∈ w.client.vault, KeyValid E s.key) :
    ∃ args s authData sig pub, E.decodeGetAssertion data = some args ∧ s ∈ w.client.vault ∧
      Matches args.rpId args.allowList s ∧ IsAssertion (0 :: body) s.id authData sig ∧
      Cose.publicOf s.key = .ok pub ∧
      Cose.verify E pub (authData ++ args.clientDataHash) sig = .ok true := by
  obtain ⟨args, i, s, rp, user, flags, blob, n, authData, sig, ad, h1, h2, h3, h4, h5, h6, h7, h8, h9,
    h10, h11, h12, h13, h14, h15, h16, h17, h18, h19⟩ := Ctap.assertion_spec L h hlen
  have hs := List.mem_of_getElem? h2.1
  obtain ⟨pub, hp, hver⟩ := Ctap.sign_verifies L (hv s hs) h19
  exact ⟨args, s, authData, sig, pub, h1, hs, h2.2.1, h11, hp, hver⟩

/-- If several match, it is the one created (or restored) first. -/
theorem C47_first_match {E : Env} (L : Laws E) {data body : Bytes}
    {w w' : World} (h : Ctap.handleMessage E (0x02 :: data) w = (.ok (0 :: body), w'))
    (hlen : body.length < 18446744073709551616) :
    ∃ args authData sig before s after, E.decodeGetAssertion data = some args ∧
      w.client.vault = before ++ s :: after ∧ IsAssertion (0 :: body) s.id authData sig ∧
      ∀ t ∈ before, ¬ Matches args.rpId args.allowList t := by
  obtain ⟨args, i, s, rp, user, flags, blob, n, authData, sig, ad, h1, h2, h3, h4, h5, h6, h7, h8, h9,
    h10, h11, -⟩ := Ctap.assertion_spec L h hlen
  obtain ⟨hi, e⟩ := List.getElem?_eq_some_iff.1 h2.1
  refine ⟨args, authData, sig, w.client.vault.take i, s, w.client.vault.drop (i + 1), h1, ?_, h11, ?_⟩
  · rw [← e, List.getElem_cons_drop]; simp
  · intro t ht
    obtain ⟨j, hj, e'⟩ := List.getElem_of_mem ht
    have hj' : j < i := by simp at hj; omega
    refine h2.2.2 j t hj' ?_
    rw [← e', List.getElem_take]
    exact List.getElem?_eq_getElem _

/-! ## C48 -/

/-- Without `up=false`, success only if the user was asked about that credential's relying party
and user, and agreed; with it, nobody is asked. -/
theorem C48_assertion_needs_user {E : Env} (L : Laws E) {data body : Bytes} {w w' : World}
    (h : Ctap.handleMessage E (0x02 :: data) w = (.ok (0 :: body), w'))
    (hlen : body.length < 18446744073709551616) :
    ∃ args s rp user authData sig, E.decodeGetAssertion data = some args ∧ s ∈ w.client.vault ∧
      IsAssertion (0 :: body) s.id authData sig ∧ s.rp = some rp ∧ s.user = some user ∧
      rp.id = args.rpId ∧
      newAsks w w' = if args.up = some false then [] else
        [{ action := .getAssertion, rp := rp.name, user := user.name, answer := true }] := by
  obtain ⟨args, i, s, rp, user, flags, blob, n, authData, sig, ad, h1, h2, h3, h4, h5, h6, h7, h8, h9,
    h10, h11, -⟩ := Ctap.assertion_spec L h hlen
  refine ⟨args, s, rp, user, authData, sig, h1, List.mem_of_getElem? h2.1, h11, h3, h4, ?_, ?_⟩
  · obtain ⟨rp', e, e'⟩ := h2.2.1.1
    rw [h3] at e
    obtain rfl := Option.some.inj e
    exact e'
  · rcases h10 with ⟨q1, q2, -⟩ | ⟨q1, q2, -⟩
    · simp [newAsks, q1, q2]
    · simp [newAsks, q1, q2]

/-- If the user refuses, the answer is OPERATION_DENIED: a single byte, nothing signed. -/
theorem C48_refusal_is_denied (E : Env) {data : Bytes} {w w' : World} {r : Res Bytes}
    (h : Ctap.handleMessage E (0x02 :: data) w = (r, w')) {a : Ask} (ha : a ∈ newAsks w w')
    (hf : a.answer = false) : r = .ok [0x27] := by
  have hc := Ctap.handleGetAssertion_cases E data w
  rw [Ctap.handleMessage_get] at h
  rw [h] at hc
  dsimp only at hc
  cases hc with
  | nothing hw hr => subst hw; simp [newAsks] at ha
  | none args flags hd hp hm hw hr => subst hw; simp [newAsks] at ha
  | unsaved args flags i s hd hp hi hn c hr hw => subst hw; simp [newAsks] at ha
  | refused args flags i s rp user blob n hd hp hi hn hup hrp hu ha hr hw => exact hr
  | saved args flags flags' i s rp user blob n asks hd hp hi hn hrp hu hq hw hr =>
    subst hw
    rcases hq with ⟨-, q, -⟩ | ⟨-, -, q, -⟩
    · simp [newAsks, q] at ha
    · simp [newAsks, q] at ha; subst ha; simp at hf

/-! ## C49 -/

/-- On a healthy device the answer is NO_CREDENTIALS exactly if the request decodes, its PIN
authentication does not fail, and no credential matches. -/
theorem C49_no_credentials_iff {E : Env} {data : Bytes} {w : World} (hh : Healthy E w.client) :
    (Ctap.handleMessage E (0x02 :: data) w).1 = .ok [0x2E] ↔
      ∃ args, E.decodeGetAssertion data = some args ∧ AssertionPinOk E w.client args ∧
        ∀ s ∈ w.client.vault, ¬ Matches args.rpId args.allowList s := by
  constructor
  · intro h
    rw [Ctap.handleMessage_get] at h
    have hc := Ctap.handleGetAssertion_cases E data w
    rw [h] at hc
    cases hc with
    | nothing hw hr =>
      obtain ⟨e, -, he, hb⟩ := hr _ rfl
      exact absurd (by simpa using hb.symm) he
    | none args flags hd hp hm hw hr =>
      exact ⟨args, hd, (assertionPinOk_iff E w.client args).2 ⟨flags, hp⟩, hm⟩
    | unsaved args flags i s hd hp hi hn c hr hw => simp at hr
    | refused args flags i s rp user blob n hd hp hi hn hup hrp hu ha hr hw => simp at hr
    | saved args flags flags' i s rp user blob n asks hd hp hi hn hrp hu hq hw hr =>
      obtain ⟨sig, -, h2⟩ := hr _ rfl
      simp at h2
  · rintro ⟨args, hd, hp, hm⟩
    obtain ⟨flags, hp⟩ := (assertionPinOk_iff E w.client args).1 hp
    obtain ⟨ps, hg⟩ := Ctap.healthy_getMatching hh args.rpId args.allowList
    obtain ⟨-, -, hps⟩ := Ctap.getMatching_ok hg
    rw [Ctap.handleMessage_get]
    unfold Ctap.handleGetAssertion
    simp only [hd, Go.get_bind_run, hp]
    simp only [Go.run_bind, Client.getAssertionSource, Go.run_get, Go.run_lift, hg]
    cases ps with
    | nil => rfl
    | cons i ps =>
      obtain ⟨s, hs, hmt⟩ := (hps i).1 (by simp)
      exact absurd hmt (hm s (List.mem_of_getElem? hs))

/-- ... and then nothing changes. -/
theorem C49_no_credentials_no_effect (E : Env) {data : Bytes} {w w' : World}
    (h : Ctap.handleMessage E (0x02 :: data) w = (.ok [0x2E], w')) : w' = w := by
  have hc := Ctap.handleGetAssertion_cases E data w
  rw [Ctap.handleMessage_get] at h
  rw [h] at hc
  dsimp only at hc
  cases hc with
  | nothing hw hr => exact hw
  | none args flags hd hp hm hw hr => exact hw
  | unsaved args flags i s hd hp hi hn c hr hw => simp at hr
  | refused args flags i s rp user blob n hd hp hi hn hup hrp hu ha hr hw => simp at hr
  | saved args flags flags' i s rp user blob n asks hd hp hi hn hrp hu hq hw hr =>
    obtain ⟨sig, -, h2⟩ := hr _ rfl
    simp at h2

/-- A failed PIN authentication is answered PIN_AUTH_INVALID and changes nothing. -/
theorem C49_pin_failure (E : Env) {data : Bytes} {w : World} {args : GetAssertionArgs}
    (hd : E.decodeGetAssertion data = some args) (hp : ¬ AssertionPinOk E w.client args) :
    Ctap.handleMessage E (0x02 :: data) w = (.ok [0x33], w) := by
  rw [assertionPinOk_iff] at hp
  rw [Ctap.handleMessage_get]
  unfold Ctap.handleGetAssertion
  simp only [hd, Go.get_bind_run]
  cases he : Ctap.getAssertionPIN E w.client args with
  | ok f => exact absurd ⟨f, he⟩ hp
  | error e => rw [Ctap.getAssertionPIN_error he]; rfl

/-! ## C51 -/

/-- What a refused login does: the counter of the credential is incremented, in memory and in the
saved data; nothing else. -/
theorem C51_refused_login_increments_counter {E : Env} (L : Laws E) {data : Bytes} {w w' : World}
    {r : Res Bytes} (hh : Healthy E w.client)
    (h : Ctap.handleMessage E (0x02 :: data) w = (r, w')) {a : Ask} (ha : a ∈ newAsks w w')
    (hf : a.answer = false) :
    ∃ i s, w.client.vault[i]? = some s ∧
      w'.client = { w.client with
        vault := w.client.vault.set i { s with counter := s.counter + 1 } } ∧
      ∀ cfg, Holds E cfg w'.store w'.client := by
  have hc := Ctap.handleGetAssertion_cases E data w
  rw [Ctap.handleMessage_get] at h
  rw [h] at hc
  dsimp only at hc
  have key : ∀ (i : Nat) (s : Source), w.client.vault[i]? = some s →
      Client.bump w.client.vault i = w.client.vault.set i { s with counter := s.counter + 1 } := by
    intro i s hs
    obtain ⟨hi, e⟩ := List.getElem?_eq_some_iff.1 hs
    apply List.ext_getElem?
    intro j
    rw [Client.bump, List.getElem?_modify, List.getElem?_set]
    by_cases hj : i = j
    · subst hj; simp [hi, e]
    · simp [hj]
  cases hc with
  | nothing hw hr => subst hw; simp [newAsks] at ha
  | none args flags hd hp hm hw hr => subst hw; simp [newAsks] at ha
  | unsaved args flags i s hd hp hi hn c hr hw => subst hw; simp [newAsks] at ha
  | refused args flags i s rp user blob n hd hp hi hn hup hrp hu ha hr hw =>
    subst hw
    refine ⟨i, s, hi.1, by rw [key i s hi.1], fun cfg => ?_⟩
    exact saves_holds L (Ctap.healthy_bump hh i) hn cfg
  | saved args flags flags' i s rp user blob n asks hd hp hi hn hrp hu hq hw hr =>
    subst hw
    rcases hq with ⟨-, q, -⟩ | ⟨-, -, q, -⟩
    · simp [newAsks, q] at ha
    · simp [newAsks, q] at ha; subst ha; simp at hf

/-- The state is not unchanged after a refusal. -/
theorem C51_refused_login_leaves_no_trace_refuted :
    ∃ (E : Env) (w w' : World) (data : Bytes) (a : Ask), Laws E ∧ Healthy E w.client ∧
      Ctap.handleMessage E (0x02 :: data) w = (.ok [0x27], w') ∧ a ∈ newAsks w w' ∧
      a.answer = false ∧ w'.client ≠ w.client ∧ w'.store ≠ w.store := by
  let ap : List Ask → Action → Bytes → Bytes → Bool := fun _ _ _ _ => false
  have hd := Toy.get_decodes ap none none none (.inl rfl) (by simp)
  have hh := Toy.client_healthy ap false none 8 (by simp)
  obtain ⟨i, rp, user, blob, n, h⟩ := Ctap.getAssertion_denied (Toy.toy_laws ap)
    (w := Toy.world false none 8) hh hd (flags := 0) rfl
    ⟨Toy.credential, by simp [Toy.world, Toy.client], Toy.credential_matches none (.inl rfl)⟩
    (by simp [Toy.getArgs]) (fun _ _ => rfl)
  refine ⟨Toy.toy ap, _, _, _, ⟨.getAssertion, rp, user, false⟩, Toy.toy_laws ap, hh, h,
    by simp [newAsks], rfl, ?_, by simp [Toy.world]⟩
  obtain ⟨j, s, hs, e, -⟩ := C51_refused_login_increments_counter (Toy.toy_laws ap) hh h
    (a := ⟨.getAssertion, rp, user, false⟩) (by simp [newAsks]) rfl
  rw [e]
  intro e'
  have := congrArg (fun c => (c.vault[j]?).map Source.counter) e'
  have hj := (List.getElem?_eq_some_iff.1 hs).1
  simp only [List.getElem?_set, hs, hj, if_true, Option.map_some, Option.some.injEq] at this
  have h2 := congrArg UInt32.toNat this
  have := s.counter.toNat_lt
  simp [UInt32.toNat_add] at h2
  omega

/-! ## C77 -/

/-- A login request in order succeeds: the device is healthy, the request decodes, its PIN
authentication does not fail, some credential matches, and the user (if asked) agrees. -/
theorem C77_valid_assertion_succeeds {E : Env} (L : Laws E) {data : Bytes} {w : World}
    {args : GetAssertionArgs} (hh : Healthy E w.client)
    (hd : E.decodeGetAssertion data = some args) (hp : AssertionPinOk E w.client args)
    (hm : ∃ s ∈ w.client.vault, Matches args.rpId args.allowList s)
    (ha : args.up = some false ∨ ∀ rp user, E.approve w.asks .getAssertion rp user = true) :
    ∃ body w', Ctap.handleMessage E (0x02 :: data) w = (.ok (0 :: body), w') := by
  obtain ⟨flags, hp⟩ := (assertionPinOk_iff E w.client args).1 hp
  exact Ctap.getAssertion_succeeds L hh hd hp hm ha

/-! ## The hypotheses can be met -/

/-- An assertion that succeeds on a healthy device (with an allow list, and with `up=false`). -/
example : ∃ (E : Env) (w w1 w2 : World) (d1 d2 b1 b2 : Bytes), Laws E ∧ Healthy E w.client ∧
    (∀ s ∈ w.client.vault, KeyValid E s.key) ∧
    Ctap.handleMessage E (0x02 :: d1) w = (.ok (0 :: b1), w1) ∧ b1.length < 18446744073709551616 ∧
    Ctap.handleMessage E (0x02 :: d2) w = (.ok (0 :: b2), w2) ∧ b2.length < 18446744073709551616 := by
  let ap : List Ask → Action → Bytes → Bytes → Bool := fun _ _ _ _ => true
  obtain ⟨b1, w1, h1⟩ := Toy.get_succeeds ap true (some [1]) (by simp) (some [Toy.descriptor]) none
    (.inr rfl) (.inr (fun _ _ => rfl))
  obtain ⟨b2, w2, h2⟩ := Toy.get_succeeds ap true (some [1]) (by simp) none (some false)
    (.inl rfl) (.inl rfl)
  have hh := Toy.client_healthy ap true (some [1]) 8 (by simp)
  exact ⟨Toy.toy ap, _, w1, w2, _, _, b1, b2, Toy.toy_laws ap, hh,
    fun s hs => (hh.2.2.2.2 s hs).2.1, h1, Toy.answer_short ap _ _ _ h1, h2, Toy.answer_short ap _ _ _ h2⟩

end VF.Props
