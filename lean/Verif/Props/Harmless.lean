import Verif.Proofs.OverlapLivesRun
import Verif.Proofs.OverlapDrained
import Verif.Props.OverlapPin
import Verif.Props.U2f

/-!
# C128: a host that behaves never ends the process
-/

namespace VF.Props

open VF.Fido VF.Fido.Overlap VF.Spec.Client VF.Spec.Pin VF.Spec.U2f VF.Spec.History VF.Spec.Overlap VF.Spec.Harmless

variable {E : Env} {cfg : Client.Config}

/-- However its requests overlap, with each other, with calls of the embedding program and with restarts. -/
theorem C128_alive (L : Laws E) (hu : Usable E cfg) (hat : CanAttest E (Device.boot E cfg).world.client)
    (hk : aesKeyOk cfg.deviceKey = true) (evs : List Event) (hb : Behaves E cfg.deviceKey evs) :
    ((boot E cfg).run E cfg evs).alive = true := by
  obtain ⟨_, _, h⟩ := well_run L hu hat hk evs hb
  exact h.alive

theorem kept_step {s : Process} {e : Event} (ha : (s.step E cfg e).alive = true) (h0 : s.alive = true)
    (hr : e ≠ .restart) (hb : e ≠ .begin .restart) :
    (s.step E cfg e).threads.map opOf = s.threads.map opOf ++ (beginning e).toList ∧
    ∀ (i : Nat) op, (s.step E cfg e).threads[i]? = some (.gone op) → s.threads[i]? = some (.gone op) := by
  have key : ∀ {s : Process} {j : Nat} {op : Op} {m : Mem} {p : Prog Reply} {t : Thread},
      (s.moved j op m p).alive = true → s.threads[j]? = some t → opOf t = op →
      (s.moved j op m p).threads.map opOf = s.threads.map opOf ∧
      ∀ (i : Nat) op', (s.moved j op m p).threads[i]? = some (.gone op') → s.threads[i]? = some (.gone op') ∧ i ≠ j := by
    intro s j op m p t ha hj ho
    have hjl := (List.getElem?_eq_some_iff.1 hj).1
    have aux : ∀ t', opOf t' = op → (∀ o, t' ≠ .gone o) →
        (s.threads.set j t').map opOf = s.threads.map opOf ∧
        ∀ (i : Nat) op', (s.threads.set j t')[i]? = some (.gone op') → s.threads[i]? = some (.gone op') ∧ i ≠ j := by
      intro t' h1 h2
      refine ⟨?_, ?_⟩
      · apply List.ext_getElem?
        intro i
        rw [List.getElem?_map, List.getElem?_map, List.getElem?_set]
        by_cases hi : j = i
        · subst hi
          rw [if_pos rfl, if_pos hjl, hj]
          simp [h1, ho]
        · rw [if_neg hi]
      · intro i op' hi
        rw [List.getElem?_set] at hi
        by_cases hij : j = i
        · subst hij
          rw [if_pos rfl, if_pos hjl] at hi
          exact absurd (Option.some.inj hi) (h2 _)
        · rw [if_neg hij] at hi
          exact ⟨hi, fun e => hij e.symm⟩
    cases p with
    | fail c => cases ha
    | ret r => exact aux (.ready op r) rfl (by simp)
    | act u k => exact aux (.working op (.act u k)) rfl (by simp)
  cases e with
  | restart => exact absurd rfl hr
  | begin op =>
    have hop : op ≠ .restart := fun h => hb (by rw [h])
    have e : s.step E cfg (.begin op) =
        ({ s with threads := s.threads ++ [Thread.gone op] } : Process).moved s.threads.length op s.mem
          (perform E op) := if_pos ⟨h0, hop⟩
    rw [e] at ha ⊢
    obtain ⟨h1, h2⟩ := key (t := .gone op) ha (by simp) rfl
    refine ⟨by rw [h1]; simp [opOf, beginning], ?_⟩
    intro i op' hi
    obtain ⟨h3, h4⟩ := h2 i op' hi
    dsimp only at h3
    by_cases hl : i < s.threads.length
    · rwa [List.getElem?_append_left hl] at h3
    · rw [List.getElem?_append_right (by omega)] at h3
      cases hz : i - s.threads.length with
      | zero => exact absurd (by omega) h4
      | succ n => rw [hz] at h3; simp at h3
  | turn j =>
    have e : s.step E cfg (.turn j) = match s.threads[j]? with
        | some (.working op (.act upd next)) =>
          if s.alive then s.moved j op (upd s.mem) (next s.mem) else s
        | _ => s := rfl
    have same : s.threads.map opOf = s.threads.map opOf ++ (beginning (.turn j)).toList ∧
        ∀ (i : Nat) op, s.threads[i]? = some (.gone op) → s.threads[i]? = some (.gone op) :=
      ⟨by simp [beginning], fun _ _ h => h⟩
    cases ht : s.threads[j]? with
    | none => rw [e, ht]; exact same
    | some t =>
      cases t with
      | ready op r => rw [e, ht]; exact same
      | gone op => rw [e, ht]; exact same
      | working op p =>
        cases p with
        | ret r => rw [e, ht]; exact same
        | fail c => rw [e, ht]; exact same
        | act upd next =>
          rw [e, ht] at ha ⊢
          dsimp only at ha ⊢
          rw [if_pos h0] at ha ⊢
          obtain ⟨h1, h2⟩ := key ha ht rfl
          exact ⟨by rw [h1]; simp [beginning], fun i op' hi => (h2 i op' hi).1⟩

/-- And no request is lost while the process runs: each that was begun is there, at work or with its result. -/
theorem C128_none_lost (L : Laws E) (hu : Usable E cfg) (hat : CanAttest E (Device.boot E cfg).world.client)
    (hk : aesKeyOk cfg.deviceKey = true) (evs evs' : List Event) (hb : Behaves E cfg.deviceKey (evs ++ evs'))
    (hr : .restart ∉ evs') (hr' : .begin .restart ∉ evs') :
    ((boot E cfg).run E cfg (evs ++ evs')).threads.map opOf =
      ((boot E cfg).run E cfg evs).threads.map opOf ++ evs'.filterMap beginning ∧
    ∀ (i : Nat) op, ((boot E cfg).run E cfg (evs ++ evs')).threads[i]? = some (.gone op) →
      ((boot E cfg).run E cfg evs).threads[i]? = some (.gone op) := by
  induction evs' using snoc_induction with
  | h0 => simp
  | h1 evs' e ih =>
    rw [← List.append_assoc] at hb ⊢
    have ha := C128_alive L hu hat hk _ hb
    have ha0 := C128_alive L hu hat hk _ (behaves_left hb)
    obtain ⟨h1, h2⟩ := ih (behaves_left hb) (fun h => hr (by simp [h])) (fun h => hr' (by simp [h]))
    rw [Overlap.run_snoc] at ha ⊢
    obtain ⟨h3, h4⟩ := kept_step ha ha0 (by rintro rfl; simp at hr) (by rintro rfl; simp at hr')
    refine ⟨?_, fun i op h => h2 i op (h4 i op h)⟩
    rw [h3, h1, List.filterMap_append, List.append_assoc]
    congr 2

/-! ### Requests as the specifications have them are harmless -/

theorem platform_of_agreement {c : Client} {platform : ECDHKey} {key : EC2Key} {secret : Bytes}
    (h : Agreement E c platform key secret) : OfPlatform E key := by
  obtain ⟨xb, yb, -, hx, -, hy, rfl⟩ := h.key_sent
  exact ⟨platform, h.platform_valid, hx, hy⟩

theorem harmless_request (L : Laws E) {args : ClientPINArgs} (hf : Spec.Platform.ClientPINFits args)
    (h : HarmlessPIN E args) : Harmless E cfg.deviceKey (.ctap (request args)) := by
  refine .clientPIN fun args' hd => ?_
  rw [L.decode_clientPIN _ hf] at hd
  obtain rfl := Option.some.inj hd
  exact h

theorem token_fits (L : Laws E) {c : Client} {platform : ECDHKey} {key : EC2Key} {secret : Bytes} (pin : Bytes)
    (hag : Agreement E c platform key secret) :
    Spec.Platform.ClientPINFits (getPINToken E key secret pin) ∧
      (E.cbcEncrypt secret (hash E pin)).length = 16 := by
  obtain ⟨-, hsl, hfit, -⟩ := agreement_secret L hag
  have hel : (E.cbcEncrypt secret (hash E pin)).length = 16 := by
    rw [L.cbc_length _ _ hsl (by rw [hash_length L]), hash_length L]
  refine ⟨⟨?_, by simp [getPINToken], by simp [getPINToken], ?_⟩, hel⟩
  · intro k hk
    obtain rfl : k = key := by simpa [getPINToken] using hk.symm
    exact hfit
  · intro b hb
    obtain rfl : b = _ := by simpa [getPINToken] using hb.symm
    unfold Short
    omega

theorem retries_fits : Spec.Platform.ClientPINFits getRetries := by
  refine ⟨?_, ?_, ?_, ?_⟩ <;> simp [getRetries]

theorem changePIN_fits (L : Laws E) {c : Client} {platform : ECDHKey} {key : EC2Key} {secret pin : Bytes} (old : Bytes)
    (hag : Agreement E c platform key secret) (h63 : pin.length ≤ 63) :
    Spec.Platform.ClientPINFits (changePIN E key secret old pin) := by
  obtain ⟨-, hsl, hfit, -⟩ := agreement_secret L hag
  have hl1 : (E.cbcEncrypt secret (pad64 pin)).length = 64 := by
    rw [L.cbc_length _ _ hsl (by rw [pad64_length h63]), pad64_length h63]
  have hl2 := (token_fits L old hag).2
  refine ⟨?_, ?_, ?_, ?_⟩
  · intro k hk
    obtain rfl : k = key := by simpa [changePIN] using hk.symm
    exact hfit
  · intro b hb
    obtain rfl : b = _ := by simpa [changePIN] using hb.symm
    have := auth_length L secret (E.cbcEncrypt secret (pad64 pin) ++ E.cbcEncrypt secret (hash E old))
    unfold Short
    omega
  · intro b hb
    obtain rfl : b = _ := by simpa [changePIN] using hb.symm
    unfold Short
    omega
  · intro b hb
    obtain rfl : b = _ := by simpa [changePIN] using hb.symm
    unfold Short
    omega

/-- The PIN requests of a platform that keeps to the protocol are harmless, whether the PIN is right or not. -/
theorem C128_pin_requests (L : Laws E) {c : Client} {platform : ECDHKey} {key : EC2Key} {secret : Bytes}
    (hag : Agreement E c platform key secret) (pin old : Bytes) (h63 : pin.length ≤ 63) :
    Harmless E cfg.deviceKey (.ctap (request getKeyAgreement)) ∧
    Harmless E cfg.deviceKey (.ctap (request getRetries)) ∧
    Harmless E cfg.deviceKey (.ctap (request (setPIN E key secret pin))) ∧
    Harmless E cfg.deviceKey (.ctap (request (changePIN E key secret old pin))) ∧
    Harmless E cfg.deviceKey (.ctap (request (getPINToken E key secret pin))) := by
  obtain ⟨-, hsl, hfit, -⟩ := agreement_secret L hag
  have hp := platform_of_agreement hag
  have hl1 : (E.cbcEncrypt secret (pad64 pin)).length = 64 := by
    rw [L.cbc_length _ _ hsl (by rw [pad64_length h63]), pad64_length h63]
  have hl2 := (token_fits L old hag).2
  have hl3 := (token_fits L pin hag).2
  refine ⟨harmless_request L ?_ ?_, harmless_request L ?_ ?_, harmless_request L (setPIN_fits L hag h63) ?_,
    harmless_request L (changePIN_fits L old hag h63) ?_, harmless_request L (token_fits L pin hag).1 ?_⟩
  · exact ⟨by simp [getKeyAgreement], by simp [getKeyAgreement], by simp [getKeyAgreement], by simp [getKeyAgreement]⟩
  · constructor <;> simp [getKeyAgreement]
  · exact retries_fits
  · constructor <;> simp [getRetries]
  · constructor
    · intro _ k e h1 h2
      obtain rfl : key = k := Option.some.inj h1
      obtain rfl := Option.some.inj h2
      exact ⟨hp, by unfold Spec.Status.Blocks; omega⟩
    · intro h; cases h
    · intro h; cases h
  · constructor
    · intro h; cases h
    · intro _ k h1
      obtain rfl : key = k := Option.some.inj h1
      refine ⟨hp, ?_, ?_⟩
      · show (E.cbcEncrypt secret (pad64 pin)).length % 16 = 0
        omega
      · show (E.cbcEncrypt secret (hash E old)).length % 16 = 0
        omega
    · intro h; cases h
  · constructor
    · intro h; cases h
    · intro h; cases h
    · intro _ e h1
      obtain rfl := Option.some.inj h1
      exact ⟨key, rfl, .inr ⟨hp, by unfold Spec.Status.Blocks; omega⟩⟩

/-- The key handles of registrations are the device's own. -/
theorem C128_own_handles (L : Laws E) {w : World} {application : Bytes} {reg : Registration} {x y : Nat}
    (h : Registered E w application reg x y) : Issued E w.client.deviceKey reg.keyHandle := by
  obtain ⟨hk, he, -⟩ := registered_handle L h
  rw [he]
  obtain ⟨box, plain, der, h1, h2, h3, h4⟩ := U2f.madeHandle_sealed L w.rnd hk h.application_length
  refine ⟨box, plain, h1, U2f.madeHandle_iv L hk h.application_length h1, h2, ?_⟩
  intro k der' h5 h6
  rw [h3] at h5
  obtain rfl := Option.some.inj h5
  obtain rfl := Option.some.inj h6
  exact ⟨_, h4, L.genEC_valid _⟩

/-! ### Eight attempts are too many, even with the right PIN -/

/-- From any state in which PINs can be tried: as many requests for the PIN token as there are retries left, each with the
same PIN, be it the right one, and a request for the number of retries can be interleaved so that the process ends. -/
theorem C128_eight_attempts_refuted (L : Laws E) (evs : List Event) {platform : ECDHKey} {key : EC2Key} {secret : Bytes}
    (pin : Bytes) {n : Nat} (halive : ((boot E cfg).run E cfg evs).alive = true)
    (hon : ((boot E cfg).run E cfg evs).mem.world.client.pinEnabled = true)
    (hn : ((boot E cfg).run E cfg evs).mem.world.client.pinRetries = n) (h8 : n ≤ 8)
    (hag : Agreement E ((boot E cfg).run E cfg evs).mem.world.client platform key secret) :
    ∃ evs', .restart ∉ evs' ∧
      evs'.filterMap beginning = List.replicate n (.ctap (request (getPINToken E key secret pin))) ++
        [.ctap (request getRetries)] ∧
      ((boot E cfg).run E cfg (evs ++ evs')).alive = false := by
  obtain ⟨hss, hsl, hfit, hx⟩ := agreement_secret L hag
  obtain ⟨hfits, hel⟩ := token_fits L pin hag
  have hg : decryptAESCBC E secret (E.cbcEncrypt secret (hash E pin)) = .ok (hash E pin) := by
    unfold decryptAESCBC
    rw [Saved.aesKeyOk_32 hsl, if_pos rfl, if_pos (by omega), L.cbc_decrypt _ _ hsl (by rw [hash_length L])]
  obtain ⟨evs', ts, h1, h2, h3⟩ := drain (E := E) (cfg := cfg) (L.decode_clientPIN _ hfits) rfl rfl rfl hx rfl hg n
    ((boot E cfg).run E cfg evs) h8 halive hon hn hss
  have h4 := none_left (E := E) (cfg := cfg) (s := ((boot E cfg).run E cfg (evs ++ evs'))) (L.decode_clientPIN _ retries_fits) rfl rfl
    (by rw [run_append, h3]; exact halive) (by rw [run_append, h3]; exact hon) (by rw [run_append, h3]; rfl)
  rw [← run_append, List.append_assoc] at h4
  refine ⟨_, ?_, ?_, h4⟩
  · simpa using h1
  · rw [List.filterMap_append, h2]
    rfl

/-- There is such a state: with eight retries left and the PIN known to the platform. -/
theorem C128_eight_attempts_case : ∃ (E : Env) (cfg : Client.Config) (evs : List Event) (platform : ECDHKey) (key : EC2Key)
    (secret pin : Bytes), Laws E ∧ Usable E cfg ∧ ((boot E cfg).run E cfg evs).alive = true ∧
    ((boot E cfg).run E cfg evs).mem.world.client.pinEnabled = true ∧
    ((boot E cfg).run E cfg evs).mem.world.client.pinRetries = (8 : Nat) ∧
    Agreement E ((boot E cfg).run E cfg evs).mem.world.client platform key secret ∧
    ((boot E cfg).run E cfg evs).mem.world.client.pinHash = some (hash E pin) := by
  obtain ⟨evs, platform, key, secret, p, -, -, h3, h4, h5, h6, h7⟩ := toy_pin_set
  exact ⟨_, _, evs, platform, key, secret, _, Toy.toy_laws Toy.agree, Toy.config_usable _ _, h3, h4, h5, h7, h6⟩

theorem few_of_count {key : Bytes} {evs : List Event} (h1 : ∀ op, .begin op ∈ evs → Harmless E key op)
    (h2 : evs.countP (beginsTry E) ≤ 7) : Behaves E key evs where
  harmless := h1
  few := by
    rintro x y z rfl -
    rw [List.countP_append, List.countP_append] at h2
    omega

/-- A host that behaves: it sets the PIN, and, before this is done, tries another seven times, registers with U2F and asks
how many attempts are left. -/
theorem C128_case : ∃ (E : Env) (cfg : Client.Config) (key : EC2Key) (secret : Bytes) (evs : List Event), Laws E ∧ Usable E cfg ∧
    CanAttest E (Device.boot E cfg).world.client ∧ aesKeyOk cfg.deviceKey = true ∧ Behaves E cfg.deviceKey evs ∧
    .restart ∉ evs ∧ evs.filterMap beginning = .ctap (request (setPIN E key secret [1, 2, 3, 4])) ::
      List.replicate 7 (.ctap (request (getPINToken E key secret [5, 6, 7, 8]))) ++
        [.u2f ([0, 1, 0, 0, 0, 0, 64] ++ List.replicate 64 9), .ctap (request getRetries)] ∧
    evs.countP (beginsTry E) = 7 := by
  have L := Toy.toy_laws Toy.agree
  obtain ⟨platform, key, secret, hag⟩ := toy_agreement
    (c := (Device.boot (Toy.toy Toy.agree) (Toy.config true)).world.client) rfl
  obtain ⟨-, q2, q3, -, q5⟩ := C128_pin_requests (cfg := Toy.config true) L hag [1, 2, 3, 4] [] (by simp)
  obtain ⟨-, -, -, -, q6⟩ := C128_pin_requests (cfg := Toy.config true) L hag [5, 6, 7, 8] [] (by simp)
  have c3 : tries (Toy.toy Toy.agree) (.ctap (request (setPIN (Toy.toy Toy.agree) key secret [1, 2, 3, 4]))) = false := by
    show (match (Toy.toy Toy.agree).decodeClientPIN _ with | some args => _ | none => false) = false
    rw [L.decode_clientPIN _ (setPIN_fits L hag (by simp))]
    rfl
  have c6 : tries (Toy.toy Toy.agree) (.ctap (request (getPINToken (Toy.toy Toy.agree) key secret [5, 6, 7, 8]))) = true := by
    show (match (Toy.toy Toy.agree).decodeClientPIN _ with | some args => _ | none => false) = true
    rw [L.decode_clientPIN _ (token_fits L _ hag).1]
    rfl
  have c2 : tries (Toy.toy Toy.agree) (.ctap (request getRetries)) = false := by
    show (match (Toy.toy Toy.agree).decodeClientPIN _ with | some args => _ | none => false) = false
    rw [L.decode_clientPIN _ retries_fits]
    rfl
  have hcount : (.begin (.ctap (request (setPIN (Toy.toy Toy.agree) key secret [1, 2, 3, 4]))) ::
      List.replicate 7 (.begin (.ctap (request (getPINToken (Toy.toy Toy.agree) key secret [5, 6, 7, 8])))) ++
        [.begin (.u2f ([0, 1, 0, 0, 0, 0, 64] ++ List.replicate 64 9)),
         .begin (.ctap (request getRetries)), .turn 3, .turn 0, .turn 9, .turn 5] : List Event).countP
      (beginsTry (Toy.toy Toy.agree)) = 7 := by
    rw [List.countP_append, List.countP_cons, List.countP_replicate]
    simp only [beginsTry, List.countP_cons, List.countP_nil, c2, c3, c6]
    rfl
  refine ⟨Toy.toy Toy.agree, Toy.config true, key, secret, _, L, Toy.config_usable _ _, Toy.boot_attests _ _, by decide +kernel,
    few_of_count ?_ (Nat.le_of_eq hcount), ?_, ?_, hcount⟩
  · intro op ho
    simp only [List.cons_append, List.mem_cons, List.mem_append, List.mem_replicate, List.not_mem_nil, or_false] at ho
    rcases ho with h | ⟨-, h⟩ | h | h | h | h | h | h
    · cases h; exact q3
    · cases h; exact q6
    · cases h
      have hf : Spec.U2fStatus.Frame ([0, 1, 0, 0, 0, 0, 64] ++ List.replicate 64 9) 1 0 (List.replicate 64 9) :=
        Spec.U2fStatus.Frame.data (by decide) (by decide)
      exact HarmlessU2f.register hf (by decide)
    · cases h; exact q2
    all_goals cases h
  · simp
  · rfl

end VF.Props
