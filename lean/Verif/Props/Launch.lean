import Verif.Proofs.Launch
import Verif.Props.Attestation

/-!
# C123: the demo program from start to start
-/

namespace VF.Props

open VF.Fido VF.Fido.Launch VF.Spec.Client VF.Spec.History VF.Spec.U2f VF.Spec.Attestation

variable {E : Env}

/-- **What is in the file wins.**  With something saved, `NewDefaultClient` gives the same whatever authority, key,
sealing key and PIN setting it is called with. -/
theorem C123_arguments_ignored (cfg cfg' : Client.Config) (data : Bytes) (rnd : Nat) :
    Client.start E cfg (some data) rnd = Client.start E cfg' (some data) rnd :=
  start_any cfg cfg' data rnd

/-- **Each process has one authority.**  The demo, started first with no file, in any history of requests, calls,
crashes and starts: whoever trusts the authority of the running process accepts the certificate of every
registration that succeeds, as long as both certificates are valid. -/
theorem C123_each_process (L : Laws E) {d0 d d' : Device} (h0 : Off d0) (ops : List Op) {op : Op} {r : Reply}
    (hd : after E d0 ops = d) (h : step E d op = (r, d')) (hr : registered (op, r) = true) :
    ∃ i cert n, Authority E d.world.client.cert i ∧ i + 2 ≤ d.world.rnd ∧
      certificateOf (op, r) = some cert ∧ d.world.rnd ≤ n ∧ n < d'.world.rnd ∧
      ∀ time, E.now n ≤ time → time ≤ E.addYears (E.now n) 10 →
        E.now (i + 1) ≤ time → time ≤ E.addYears (E.now (i + 1)) 10 → Chains E time cert d.world.client.cert := by
  subst hd
  have hop : isRestart op = false := by
    cases op <;> first | rfl | (unfold registered at hr; split at hr <;> simp_all)
  rcases keeps_made L ops (.inl h0) with hoff | ⟨cfg, i, h1, h2, h3⟩
  · obtain ⟨cfg, -, -⟩ := config_made L 0
    rw [step_own cfg _ hop] at h
    have := (Device.certificate_made L h hr).1
    rw [hoff.1] at this
    cases this
  · rw [step_own cfg _ hop] at h
    obtain ⟨cert, n, q1, q2, q3, q4, q5⟩ := certificate_chains L h2.1 h2.2.1 h3 h hr
    refine ⟨i, cert, n, ?_, h1, q1, q2, q3, ?_⟩
    · rw [q4, Authority, ← h2.1]
      exact h2.2.1
    · rw [q4]; exact q5

/-- **One authority for life.**  Once the demo has saved anything, it has one authority for ever: whatever happens
then (requests, calls, crashes and starts), whoever trusts it accepts the certificate of every registration that
succeeds. -/
theorem C123_one_authority (L : Laws E) {d0 d1 : Device} (h0 : Off d0) (ops : List Op)
    (hd : after E d0 ops = d1) (hs : d1.world.store ≠ none) :
    ∃ ca i, Authority E ca i ∧ i + 2 ≤ d1.world.rnd ∧ (d1.alive = true → d1.world.client.cert = ca) ∧
      ∀ (later : List Op) (op : Op) (r : Reply) (d d' : Device), after E d1 later = d → step E d op = (r, d') →
        registered (op, r) = true →
        ∃ cert n, certificateOf (op, r) = some cert ∧ d.world.rnd ≤ n ∧ n < d'.world.rnd ∧
          ∀ time, E.now n ≤ time → time ≤ E.addYears (E.now n) 10 →
            E.now (i + 1) ≤ time → time ≤ E.addYears (E.now (i + 1)) 10 → Chains E time cert ca := by
  subst hd
  rcases keeps_made L ops (.inl h0) with hoff | ⟨cfg, i, h1, h2, h3⟩
  · exact absurd hoff.2 hs
  refine ⟨cfg.cert, i, ?_, h1, ?_, ?_⟩
  · rw [Authority, ← h2.1]
    exact h2.2.1
  · intro hal
    obtain ⟨c, -, -, ⟨-, k2, -⟩, k4⟩ := h3
    rw [← k4 hal]
    exact k2
  · intro later op r d d' hd h hr
    subst hd
    have hop : isRestart op = false := by
      cases op <;> first | rfl | (unfold registered at hr; split at hr <;> simp_all)
    rw [step_own cfg _ hop] at h
    obtain ⟨cert, n, q1, q2, q3, -, q5⟩ := certificate_chains L h2.1 h2.2.1 (keeps_saved L later hs h3).2 h hr
    exact ⟨cert, n, q1, q2, q3, q5⟩

/-- The demo can always be started again, whatever happened. -/
theorem C123_starts (L : Laws E) {d0 : Device} (h0 : Off d0) (ops : List Op) :
    (step E (after E d0 ops) .restart).1 = .started ∧ (step E (after E d0 ops) .restart).2.alive = true := by
  cases hs : (after E d0 ops).world.store with
  | none =>
    obtain ⟨cfg, -, e, -⟩ := keeps_launch_new L hs
    rw [e]
    exact ⟨rfl, rfl⟩
  | some data =>
    rcases keeps_made L ops (.inl h0) with hoff | ⟨cfg, i, h1, h2, h3⟩
    · rw [hoff.2] at hs; cases hs
    · exact (keeps_launch_saved L hs h3).2.2

/-- The sealing key of every demo. -/
theorem demo_sealing_key (L : Laws E) {d0 : Device} (h0 : Off d0) (ops : List Op)
    (ha : (after E d0 ops).alive = true) :
    (after E d0 ops).world.client.deviceKey = E.sha256 (ascii "test") := by
  rcases keeps_made L ops (.inl h0) with hoff | ⟨cfg, i, h1, h2, h3⟩
  · rw [hoff.1] at ha; cases ha
  · obtain ⟨c, -, -, ⟨k1, -, -⟩, k4⟩ := h3
    rw [← k4 ha, k1]
    exact h2.2.2.1

/-- **Key handles are not bound to a device.**  A U2F key registered with one demo can be used with every other (with a
file, an authority and a history of its own): the sealing key is the same in all. -/
theorem C123_handles_bound_refuted (L : Laws E) {d0 e0 : Device} (h0 : Off d0) (h0' : Off e0) (ops ops' : List Op)
    (ha : (after E d0 ops).alive = true) (ha' : (after E e0 ops').alive = true)
    {application : Bytes} {reg : Registration} {x y : Nat}
    (hreg : Registered E (after E d0 ops).world application reg x y)
    (challenge : Bytes) (hc : challenge.length = 32)
    (hap : E.approve (after E e0 ops').world.asks .u2fAuthenticate [] [] = true) :
    ∃ answer e' auth, step E (after E e0 ops')
        (.u2f (apdu 0 2 3 0 (authenticateData challenge application reg.keyHandle) none)) = (.answer answer, e') ∧
      parseAuthentication answer = some auth ∧
      E.verifyEC { p256 := true, x := x, y := y }
        (E.sha256 (application ++ [auth.userPresence] ++ auth.counterBytes ++ challenge)) auth.signature = true := by
  obtain ⟨answer, v', auth, q1, q2, -, q3⟩ := C63_own_application L hreg (v := (after E e0 ops').world)
    (by rw [demo_sealing_key L h0 ops ha, demo_sealing_key L h0' ops' ha']) 0 3 0 none challenge hc (.inl ⟨rfl, hap⟩)
  obtain ⟨cfg, -, -⟩ := config_made L 0
  refine ⟨answer, ⟨v', true⟩, auth, ?_, q2, q3.1⟩
  rw [step_own cfg _ rfl]
  exact Device.step_u2f ha' q1

/-- The demo registers, if the user approves. -/
theorem demo_registers (L : Laws E) {d : Device} {cfg : Client.Config} {i : Nat} (hm : Made E cfg i)
    (hk : Device.Keeps E cfg d) (ha : d.alive = true) (hap : E.approve d.world.asks .u2fRegister [] [] = true) :
    ∃ b d', step E d (.u2f (apdu 0 1 0 0 (registerData (List.replicate 32 1) (List.replicate 32 2)) none)) =
        (.answer b, d') ∧ (parseRegistration b).isSome ∧ d'.alive = true ∧ d'.world.store = d.world.store ∧
      registered (.u2f (apdu 0 1 0 0 (registerData (List.replicate 32 1) (List.replicate 32 2)) none), .answer b) =
        true := by
  obtain ⟨ca, q1, -, -, q4⟩ := C122_authority L i (i + 1)
  obtain rfl : ca = cfg.cert := by
    have := hm.2.1
    rw [hm.1, q1] at this
    exact Option.some.inj (Res.ok.inj this)
  have hat : CanAttest E (Device.boot E cfg).world.client := by
    have := (q4 cfg.deviceKey cfg.enablePIN).2
    rw [← hm.1] at this
    exact this
  have hat := Device.attests_keeps hat hk ha
  obtain ⟨c, h1, -, ⟨k1, -, -⟩, k4⟩ := hk
  obtain rfl := k4 ha
  obtain ⟨b, w', h2, h3⟩ := C62_registration_succeeds L 0 0 0 (List.replicate 32 1) (List.replicate 32 2) none d.world
    (by simp) (by simp) (by rw [k1, hm.2.2.1]; simp [aesKeyOk, L.sha256_length]) h1 hat
  have h3 := h3.2 hap
  have h4 := C62_registration L (cla := 0) (p1 := 0) (p2 := 0) h2
  refine ⟨b, ⟨w', true⟩, ?_, h3, rfl, h4.2.1, ?_⟩
  · rw [step_own cfg _ rfl]
    exact Device.step_u2f ha h2
  · have hs : succeeded b ≠ none := by
      intro e
      simp [parseRegistration, e] at h3
    have hreq := request_apdu 0 1 0 0 (registerData (List.replicate 32 1) (List.replicate 32 2)) none
      (by simp [registerData])
    have hf := registerFields_data (challenge := List.replicate 32 1) (application := List.replicate 32 2) (by simp) (by simp)
    simp only [registered, hreq, Option.bind_some, if_true, hf, Option.isSome_some, Bool.true_and]
    exact Option.isSome_iff_ne_none.2 hs

/-- A demo that was never started. -/
noncomputable def neverStarted : Device :=
  ⟨{ client := Toy.client false none 8, store := none, rnd := 0, asks := [] }, false⟩

theorem neverStarted_off : Off neverStarted := ⟨rfl, rfl⟩

/-- **Before anything is saved** the authority is another one with each start: U2F registrations save nothing, and
whoever trusts the authority of a later process does not accept the certificates of an earlier one. -/
theorem C123_before_saving_refuted : ∃ (E : Env) (d0 d1 d2 d3 d4 : Device) (reg b1 b2 cert1 cert2 : Bytes),
    Laws E ∧ Off d0 ∧ step E d0 .restart = (.started, d1) ∧ step E d1 (.u2f reg) = (.answer b1, d2) ∧
    step E d2 .restart = (.started, d3) ∧ step E d3 (.u2f reg) = (.answer b2, d4) ∧
    registered (.u2f reg, .answer b1) = true ∧ registered (.u2f reg, .answer b2) = true ∧
    certificateOf (.u2f reg, .answer b1) = some cert1 ∧ certificateOf (.u2f reg, .answer b2) = some cert2 ∧
    Chains E 5 cert1 d1.world.client.cert ∧ Chains E 5 cert2 d3.world.client.cert ∧
    (∀ time, ¬ Chains E time cert1 d3.world.client.cert) ∧ (∀ time, ¬ Chains E time cert2 d1.world.client.cert) := by
  obtain ⟨ap, hap⟩ : ∃ ap : List Ask → Action → Bytes → Bytes → Bool, ∀ a b c d, ap a b c d = true :=
    ⟨fun _ _ _ _ => true, fun _ _ _ _ => rfl⟩
  have L := Toy.toy_laws ap
  have h0 := neverStarted_off
  obtain ⟨cfg1, m1, s1, k1⟩ := keeps_launch_new L h0.2
  have n0 : neverStarted.world.rnd = 0 := rfl
  rw [n0] at m1 s1
  generalize hd1 : (⟨{ neverStarted.world with client := Client.fresh (Toy.toy ap) cfg1 (0 + 2), rnd := 0 + 4 }, true⟩ : Device) = d1 at s1
  have c1 : d1.world.client.cert = cfg1.cert := by rw [← hd1]; rfl
  have a1 : d1.alive = true := by rw [← hd1]
  have st1 : d1.world.store = none := by rw [← hd1]; exact h0.2
  have r1 : d1.world.rnd = 4 := by rw [← hd1]
  rw [s1] at k1
  obtain ⟨b1, d2, s2, -, a2, st2, g1⟩ := demo_registers L m1 k1 a1 (hap _ _ _ _)
  have r2 : 4 ≤ d2.world.rnd ∧ d2.world.rnd < 100 := by
    have h := s2
    rw [step_own cfg1 _ rfl] at h
    obtain ⟨-, -, hh⟩ := Device.u2f_answered h
    have hreq := request_apdu 0 1 0 0 (registerData (List.replicate 32 1) (List.replicate 32 2)) none
      (by simp [registerData])
    have hf := registerFields_data (challenge := List.replicate 32 1) (application := List.replicate 32 2) (by simp) (by simp)
    have hs : succeeded b1 ≠ none := by
      intro e
      simp [registered, e] at g1
    obtain ⟨_, -, -, q, -⟩ := Device.u2f_register_eq L hh hreq hf hs
    have q : d2.world.rnd = d1.world.rnd + 4 := q
    omega
  obtain ⟨cfg2, m2, s3, k3⟩ := keeps_launch_new L (st2.trans st1)
  generalize hd3 : (⟨{ d2.world with client := Client.fresh (Toy.toy ap) cfg2 (d2.world.rnd + 2), rnd := d2.world.rnd + 4 }, true⟩ : Device) = d3 at s3
  have c3 : d3.world.client.cert = cfg2.cert := by rw [← hd3]; rfl
  have a3 : d3.alive = true := by rw [← hd3]
  rw [s3] at k3
  obtain ⟨b2, d4, s4, -, -, -, g2⟩ := demo_registers L m2 k3 a3 (hap _ _ _ _)
  have t2 := s2
  have t4 := s4
  rw [step_own cfg1 _ rfl] at t2
  rw [step_own cfg2 _ rfl] at t4
  obtain ⟨cert1, _, e1, -, -, -, ch1⟩ := certificate_chains L m1.1 m1.2.1 k1 t2 g1
  obtain ⟨cert2, _, e2, -, -, -, ch2⟩ := certificate_chains L m2.1 m2.2.1 k3 t4 g2
  have ch1 := ch1 5 (Nat.zero_le _) (by decide : 5 ≤ 10) (Nat.zero_le _) (by decide : 5 ≤ 10)
  have ch2 := ch2 5 (Nat.zero_le _) (by decide : 5 ≤ 10) (Nat.zero_le _) (by decide : 5 ≤ 10)
  have sub : ∀ (cfg : Client.Config) (i : Nat), Made (Toy.toy ap) cfg i →
      (Toy.toy ap).certSubject cfg.cert = some { ecdsa := some ((Toy.toy ap).genEC i).pub } := by
    intro cfg i hm
    obtain ⟨ca, q1, -, -, q4⟩ := C122_authority L i (i + 1)
    obtain rfl : ca = cfg.cert := by
      have := hm.2.1
      rw [hm.1, q1] at this
      exact Option.some.inj (Res.ok.inj this)
    obtain ⟨iss, e1, -, e2⟩ := (q4 [] false).2
    obtain rfl : iss = (Toy.toy ap).genEC i := by
      have e1 : (⟨some ((Toy.toy ap).genEC i), none, none⟩ : PrivKey) = ⟨some iss, none, none⟩ := e1
      cases e1; rfl
    exact e2
  have no : ∀ {cert : Bytes} {cfg cfg' : Client.Config} {i i' time time' : Nat}, Made (Toy.toy ap) cfg i →
      Made (Toy.toy ap) cfg' i' → Chains (Toy.toy ap) time cert cfg.cert →
      Chains (Toy.toy ap) time' cert cfg'.cert → i < 100 → i' < 100 → i = i' := by
    intro cert cfg cfg' i i' time time' hm hm' h h' hi hi'
    obtain ⟨_, _, key, -, -, q3, q4, -⟩ := h
    obtain ⟨_, _, key', -, -, q3', q4', -⟩ := h'
    rw [sub _ _ hm] at q3
    rw [sub _ _ hm'] at q3'
    have q4 := of_decide_eq_true q4
    have q4' := of_decide_eq_true q4'
    have := q4.symm.trans q4'
    rw [← q3, ← q3'] at this
    have this : Toy.scalar i % 2 ^ 256 = Toy.scalar i' % 2 ^ 256 :=
      congrArg (fun k : Option PubKey => match k with
        | some ⟨some p, _, _⟩ => p.x
        | _ => 0) this
    unfold Toy.scalar at this
    rw [Nat.mod_eq_of_lt (a := i) (by unfold p256Order; omega),
      Nat.mod_eq_of_lt (a := i') (by unfold p256Order; omega)] at this
    omega
  refine ⟨Toy.toy ap, neverStarted, d1, d2, d3, d4, _, b1, b2, cert1, cert2, L, h0, s1, s2, s3, s4, g1, g2, e1, e2,
    by rw [c1]; exact ch1, by rw [c3]; exact ch2, ?_, ?_⟩
  · intro time h
    rw [c3] at h
    have := no m1 m2 ch1 h (by omega) (by omega)
    omega
  · intro time h
    rw [c1] at h
    have := no m1 m2 h ch2 (by omega) (by omega)
    omega

/-- **A concrete case.**  The demo is started, a credential is created (and saved), the demo is started again and a
U2F key registered: both certificates are accepted under the one authority. -/
theorem C123_case : ∃ (E : Env) (d0 d1 d2 d3 d4 : Device) (make reg b1 b2 cert1 cert2 ca : Bytes),
    Laws E ∧ Off d0 ∧ step E d0 .restart = (.started, d1) ∧
    step E d1 (.ctap (1 :: make)) = (.answer (0 :: b1), d2) ∧ d2.world.store ≠ none ∧
    step E d2 .restart = (.started, d3) ∧ step E d3 (.u2f reg) = (.answer b2, d4) ∧
    registered (.u2f reg, .answer b2) = true ∧
    certificateOf (.ctap (1 :: make), .answer (0 :: b1)) = some cert1 ∧
    certificateOf (.u2f reg, .answer b2) = some cert2 ∧
    Chains E 5 cert1 ca ∧ Chains E 5 cert2 ca := by
  obtain ⟨ap, hap⟩ : ∃ ap : List Ask → Action → Bytes → Bytes → Bool, ∀ a b c d, ap a b c d = true :=
    ⟨fun _ _ _ _ => true, fun _ _ _ _ => rfl⟩
  have L := Toy.toy_laws ap
  have h0 := neverStarted_off
  obtain ⟨cfg1, m1, s1, k1⟩ := keeps_launch_new L h0.2
  have hat : ∀ {d}, Device.Keeps (Toy.toy ap) cfg1 d → d.alive = true →
      Healthy (Toy.toy ap) d.world.client ∧ CanAttest (Toy.toy ap) d.world.client := by
    intro d hk ha
    obtain ⟨ca, q1, -, -, q4⟩ := C122_authority L neverStarted.world.rnd (neverStarted.world.rnd + 1)
    obtain rfl : ca = cfg1.cert := by
      have := m1.2.1
      rw [m1.1, q1] at this
      exact Option.some.inj (Res.ok.inj this)
    have hat : CanAttest (Toy.toy ap) (Device.boot (Toy.toy ap) cfg1).world.client := by
      have := (q4 cfg1.deviceKey cfg1.enablePIN).2
      rw [← m1.1] at this
      exact this
    refine ⟨?_, Device.attests_keeps hat hk ha⟩
    obtain ⟨c, h1, -, -, k4⟩ := hk
    obtain rfl := k4 ha
    exact h1
  generalize hd1 : (⟨{ neverStarted.world with client := Client.fresh (Toy.toy ap) cfg1 (neverStarted.world.rnd + 2), rnd := neverStarted.world.rnd + 4 }, true⟩ : Device) = d1 at s1
  have a1 : d1.alive = true := by rw [← hd1]
  have p1 : d1.world.client.pinEnabled = false := by
    rw [← hd1]
    exact m1.2.2.2.2
  rw [s1] at k1
  obtain ⟨hh, hca⟩ := hat k1 a1
  obtain ⟨b1, w2, blob, m, n, h1, h2, h3, h4, h5, h6, -⟩ := Device.made L (w := d1.world) hh hca
    (Toy.make_decodes ap [] none (.inl rfl) (by simp)) (by dsimp only [Toy.makeArgs]; decide +kernel) rfl rfl (flags := 0)
    (by simp [Ctap.makeCredentialPIN, p1]) (hap _ _ _ _)
  have s2 := Device.step_ctap (E := Toy.toy ap) (cfg := cfg1) a1 h1
  have hst : (⟨w2, true⟩ : Device).world.store = some blob := h4
  clear h1 h2 h3 h4 h5 h6 hd1
  generalize (⟨w2, true⟩ : Device) = d2 at s2 hst
  have k2 : Device.Keeps (Toy.toy ap) cfg1 d2 := by
    have := Device.keeps_step L (op := .ctap (1 :: Toy.makeData [] none)) k1
    rw [s2] at this
    exact this
  have s2' : step (Toy.toy ap) d1 (.ctap (1 :: Toy.makeData [] none)) = (.answer (0 :: b1), d2) := by
    rw [step_own cfg1 _ rfl]; exact s2
  obtain ⟨k3, -, e3, a3⟩ := keeps_launch_saved L hst k2
  generalize hd3 : (step (Toy.toy ap) d2 .restart).2 = d3 at k3 a3
  have s3 : step (Toy.toy ap) d2 .restart = (.started, d3) := Prod.ext e3 hd3
  obtain ⟨b2, d4, s4, -, -, -, g2⟩ := demo_registers L m1 k3 a3 (hap _ _ _ _)
  have t4 := s4
  rw [step_own cfg1 _ rfl] at t4
  obtain ⟨cert1, _, e1, -, -, -, ch1⟩ := certificate_chains L m1.1 m1.2.1 k1 s2 rfl
  obtain ⟨cert2, _, e2, -, -, -, ch2⟩ := certificate_chains L m1.1 m1.2.1 k3 t4 g2
  have ch1 := ch1 5 (Nat.zero_le _) (by decide : 5 ≤ 10) (Nat.zero_le _) (by decide : 5 ≤ 10)
  have ch2 := ch2 5 (Nat.zero_le _) (by decide : 5 ≤ 10) (Nat.zero_le _) (by decide : 5 ≤ 10)
  exact ⟨Toy.toy ap, neverStarted, d1, d2, d3, d4, _, _, b1, b2, cert1, cert2, cfg1.cert, L, h0, s1, s2',
    by rw [hst]; exact fun e => (nomatch e), s3, s4, g2, e1, e2, ch1, ch2⟩

end VF.Props
