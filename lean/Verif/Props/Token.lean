import Verif.Proofs.StatusHistory
import Verif.Props.MakeCredential
import Verif.Props.Secrecy
import Verif.Props.OverlapPin

/-!
# C117: how long a PIN token is good
-/

namespace VF.Props

open VF.Fido VF.Fido.Device VF.Spec.Ctap VF.Spec.Client VF.Spec.History VF.Spec.Pin VF.Spec.Secrecy

variable {E : Env} {cfg : Client.Config}

theorem session_step (d : Device) {op : Op} (h : op ≠ .restart) :
    session (step E cfg d op).2.world.client = session d.world.client := by
  have hr : isRestart op = false := by
    cases op with
    | restart => exact absurd rfl h
    | _ => rfl
  cases ha : d.alive with
  | false => rw [step_dead hr ha]
  | true =>
    rw [step_live hr ha]
    have := perform_session E op d.world
    cases (perform E op d.world).1 <;> exact this

theorem session_after (ops : List Op) (h : .restart ∉ ops) (d : Device) :
    session (after E cfg d ops).world.client = session d.world.client := by
  induction ops generalizing d with
  | nil => rfl
  | cons op ops ih =>
    rw [after_cons, ih (fun hm => h (List.mem_cons_of_mem _ hm)),
      session_step d (fun e => h (by rw [e]; exact List.mem_cons_self ..))]

theorem dead_after (ops : List Op) (h : .restart ∉ ops) {d : Device} (ha : d.alive = false) :
    after E cfg d ops = d := by
  induction ops with
  | nil => rfl
  | cons op ops ih =>
    have hr : isRestart op = false := by
      cases op with
      | restart => exact absurd (List.mem_cons_self ..) h
      | _ => rfl
    rw [after_cons, step_dead hr ha]
    exact ih fun hm => h (List.mem_cons_of_mem _ hm)

/-- C117: the PIN token a platform got after the history `ops0` authorizes a creation after any `ops` in
which the process is not started anew, in particular if the PIN was changed meanwhile: the user being
willing, the request succeeds and its answer says that the user was verified. -/
theorem C117_token_stays_good (L : Laws E) (hu : Usable E cfg) (hat : CanAttest E (boot E cfg).world.client)
    (ops0 ops : List Op) (hr : .restart ∉ ops)
    (ha : (after E cfg (boot E cfg) (ops0 ++ ops)).alive = true)
    (hon : (after E cfg (boot E cfg) (ops0 ++ ops)).world.client.pinEnabled = true)
    {data : Bytes} {args : MakeCredArgs} {rp : RPEntity} {user : UserEntity}
    (hd : E.decodeMakeCred data = some args) (hrp : args.rp = some rp) (hus : args.user = some user)
    (hp : ∃ p ∈ args.params, p.alg = -7 ∧ p.type = ascii "public-key")
    (hproto : args.pinProtocol = 1)
    (hauth : args.pinAuth = some (auth E (after E cfg (boot E cfg) ops0).world.client.pinToken args.clientDataHash))
    (hyes : E.approve (after E cfg (boot E cfg) (ops0 ++ ops)).world.asks .makeCredential rp.name [] = true) :
    ∃ answer d' authData sig cert ad,
      step E cfg (after E cfg (boot E cfg) (ops0 ++ ops)) (.ctap (0x01 :: data)) = (.answer answer, d') ∧
      IsCreation answer authData sig cert ∧ parseAuthData authData = some ad ∧ ad.userVerified = true := by
  obtain ⟨hh, hc⟩ := attests_reachable L hu hat _ ha
  have ht : (after E cfg (boot E cfg) (ops0 ++ ops)).world.client.pinToken =
      (after E cfg (boot E cfg) ops0).world.client.pinToken := by
    rw [after_append]
    exact congrArg Prod.fst (session_after (E := E) (cfg := cfg) ops hr _)
  rw [← ht] at hauth
  have hok : PinAuthOk E (after E cfg (boot E cfg) (ops0 ++ ops)).world.client args.clientDataHash args.pinAuth
      args.pinProtocol := ⟨hproto, hauth⟩
  obtain ⟨body, w', hw⟩ := C76_valid_creation_succeeds L hh hc hd hrp hus hp (.inr (.inl hok)) hyes
  obtain ⟨args', rp', authData, sig, cert, ad, s, h1, -, h3, h4, -, -, h7, -⟩ := C45_creation_authenticator_data L hw
  rw [hd] at h1
  obtain rfl := Option.some.inj h1
  refine ⟨0 :: body, ⟨w', true⟩, authData, sig, cert, ad, ?_, h3, h4, h7.2 ⟨hon, hok⟩⟩
  rw [step_live rfl ha, perform_ctap', hw]
  rfl

/-- C117: no request but a start gives the device another token or another key to agree on a secret
with. -/
theorem C117_token_lasts (ops : List Op) (hr : .restart ∉ ops) (d : Device) :
    (after E cfg d ops).world.client.pinToken = d.world.client.pinToken ∧
    (after E cfg d ops).world.client.keyAgreement = d.world.client.keyAgreement :=
  ⟨congrArg Prod.fst (session_after (E := E) (cfg := cfg) ops hr d),
    congrArg Prod.snd (session_after (E := E) (cfg := cfg) ops hr d)⟩

theorem last_restart (ops : List Op) (h : .restart ∈ ops) :
    ∃ a b, ops = a ++ .restart :: b ∧ .restart ∉ b := by
  induction ops with
  | nil => cases h
  | cons op ops ih =>
    by_cases hm : .restart ∈ ops
    · obtain ⟨a, b, rfl, hb⟩ := ih hm
      exact ⟨op :: a, b, rfl, hb⟩
    · rcases List.mem_cons.1 h with rfl | h
      · exact ⟨[], ops, rfl, hm⟩
      · exact absurd h hm

/-- C117: a start ends the token's life: if random draws do not repeat, a process started later has
another token. -/
theorem C117_token_ends_with_process (L : Laws E) (ops0 ops : List Op) (hr : .restart ∈ ops)
    (h0 : (after E cfg (boot E cfg) ops0).alive = true)
    (h1 : (after E cfg (boot E cfg) (ops0 ++ ops)).alive = true)
    (hd : DistinctDraws E (after E cfg (boot E cfg) (ops0 ++ ops)).world.rnd) :
    (after E cfg (boot E cfg) (ops0 ++ ops)).world.client.pinToken ≠
      (after E cfg (boot E cfg) ops0).world.client.pinToken := by
  obtain ⟨a, b, rfl, hb⟩ := last_restart ops hr
  obtain ⟨k, hk, hle⟩ := sessionOk_after (cfg := cfg) L ops0 sessionOk_boot h0
  rw [after_append] at h1 hd ⊢
  generalize after E cfg (boot E cfg) ops0 = d at *
  have e : after E cfg d (a ++ .restart :: b) =
      after E cfg (step E cfg (after E cfg d a) .restart).2 b := by
    rw [after_append, after_cons]
  rw [e] at h1 hd ⊢
  have hm := after_rnd (cfg := cfg) L d a
  generalize after E cfg d a = d' at *
  have hs : ∃ c, Client.start E cfg d'.world.store d'.world.rnd = .ok c ∧
      (step E cfg d' .restart).2 = ⟨{ d'.world with client := c, rnd := d'.world.rnd + 2 }, true⟩ := by
    cases hst : Client.start E cfg d'.world.store d'.world.rnd with
    | ok c => exact ⟨c, rfl, by simp only [step, hst]⟩
    | panic q =>
      have : (step E cfg d' .restart).2.alive = false := by simp only [step, hst]
      rw [dead_after b hb this, this] at h1
      cases h1
  obtain ⟨c, hst, e2⟩ := hs
  have hse := session_after (E := E) (cfg := cfg) b hb (step E cfg d' .restart).2
  have hrn := after_rnd (cfg := cfg) L (step E cfg d' .restart).2 b
  have hc : session c = (E.rand d'.world.rnd 16, E.genECDH (d'.world.rnd + 1)) := start_session hst
  have hw : (step E cfg d' .restart).2.world.rnd = d'.world.rnd + 2 ∧
      (step E cfg d' .restart).2.world.client = c := by rw [e2]; exact ⟨rfl, rfl⟩
  rw [hw.2, hc] at hse
  rw [hw.1] at hrn
  intro h
  have t1 : (after E cfg (step E cfg d' .restart).2 b).world.client.pinToken = E.rand d'.world.rnd 16 :=
    congrArg Prod.fst hse
  have t3 : d.world.client.pinToken = E.rand k 16 := congrArg Prod.fst hk
  have := hd d'.world.rnd k (by omega) (by omega) (by rw [← t1, ← t3, h])
  omega

/-! ### Concrete cases -/

/-- Setting a PIN on a running healthy device. -/
theorem set_live (L : Laws E) {d : Device} (ha : d.alive = true) (hh : Healthy E d.world.client) (p : Bytes) :
    ∃ w, step E cfg d (.setPIN p) = (.done, ⟨w, true⟩) ∧
      w.client = { d.world.client with pinHash := some (hash E p) } ∧ w.asks = d.world.asks ∧
      w.rnd = d.world.rnd + 4 := by
  have hp : Healthy E { d.world.client with pinHash := some (hash E p) } :=
    Ctap.healthy_pin L hh d.world.client.pinRetries p
  obtain ⟨blob, hs⟩ := healthy_saves L hp d.world.rnd
  have e : perform E (.setPIN p) d.world = (do Client.saveData E; pure .done : Go World Reply)
      { d.world with client := { d.world.client with pinHash := some (hash E p) } } := rfl
  have hv : Client.saveData E { d.world with client := { d.world.client with pinHash := some (hash E p) } } =
      (.ok (), { d.world with
        client := { d.world.client with pinHash := some (hash E p) }
        store := some blob
        rnd := d.world.rnd + 4 }) := by
    obtain ⟨st, h1, h2⟩ := hs
    unfold Client.saveData
    dsimp only
    rw [h1]
    dsimp only
    rw [h2]
  rw [step_live rfl ha, e, Go.run_bind_ok hv]
  exact ⟨_, rfl, rfl, rfl, rfl⟩

/-- The PIN token outlives its PIN: on a toy device with the PIN 1234 a token is got, the PIN is then
changed to 56789, and the old token still authorizes a creation as verified. -/
theorem C117_revoked_by_new_pin_refuted :
    ∃ (E : Env) (cfg : Client.Config) (data : Bytes) (answer authData sig cert : Bytes) (ad : AuthData) (d' : Device)
      (args : MakeCredArgs),
      Laws E ∧ Usable E cfg ∧
      hash E (ascii "56789") ≠ hash E (ascii "1234") ∧
      (run E cfg (boot E cfg) [.setPIN (ascii "1234"), .setPIN (ascii "56789")]).1 = [.done, .done] ∧
      (after E cfg (boot E cfg) [.setPIN (ascii "1234"), .setPIN (ascii "56789")]).world.client.pinHash =
        some (hash E (ascii "56789")) ∧
      E.decodeMakeCred data = some args ∧
      args.pinAuth = some (auth E (after E cfg (boot E cfg) [.setPIN (ascii "1234")]).world.client.pinToken
        args.clientDataHash) ∧
      step E cfg (after E cfg (boot E cfg) [.setPIN (ascii "1234"), .setPIN (ascii "56789")])
        (.ctap (0x01 :: data)) = (.answer answer, d') ∧
      IsCreation answer authData sig cert ∧ parseAuthData authData = some ad ∧ ad.userVerified = true := by
  let ap : List Ask → Action → Bytes → Bytes → Bool := fun _ _ _ _ => true
  have L := Toy.toy_laws ap
  have hu := Toy.config_usable ap true
  have hat := Toy.boot_attests ap true
  have hh := Toy.boot_healthy ap true
  have hne : hash (Toy.toy ap) (ascii "56789") ≠ hash (Toy.toy ap) (ascii "1234") := by decide +kernel
  have hen : (boot (Toy.toy ap) (Toy.config true)).world.client.pinEnabled = true := rfl
  have hal : (boot (Toy.toy ap) (Toy.config true)).alive = true := rfl
  have happ : ∀ l a b c, (Toy.toy ap).approve l a b c = true := fun _ _ _ _ => rfl
  have hmf : ∀ b : Bytes, b.length = 16 → Spec.Platform.MakeCredFits (Toy.makeArgs [] (some b)) := fun b hb =>
    Toy.make_fits [] (some b) (.inl rfl) (by intro x hx; cases hx; exact hb)
  generalize Toy.toy ap = E at *
  generalize Toy.config true = cfg at *
  obtain ⟨w1, s1, c1, -⟩ := set_live (cfg := cfg) L hal hh (ascii "1234")
  have hh1 : Healthy E w1.client := by
    rw [c1]; exact Ctap.healthy_pin L hh (boot E cfg).world.client.pinRetries _
  obtain ⟨w2, s2, c2, -⟩ := set_live (cfg := cfg) L (d := ⟨w1, true⟩) rfl hh1 (ascii "56789")
  have ea : after E cfg (boot E cfg) [.setPIN (ascii "1234"), .setPIN (ascii "56789")] = ⟨w2, true⟩ := by
    rw [after_cons, s1, after_cons, s2]; rfl
  have er : (run E cfg (boot E cfg) [.setPIN (ascii "1234"), .setPIN (ascii "56789")]).1 = [.done, .done] := by
    rw [run_cons, s1, run_cons, s2]; rfl
  let token := (after E cfg (boot E cfg) [.setPIN (ascii "1234")]).world.client.pinToken
  have hdec := L.decode_makeCred _ (hmf (auth E token (List.replicate 32 1)) (auth_length L _ _))
  obtain ⟨answer, d', authData, sig, cert, ad, h1, h2, h3, h4⟩ :=
    C117_token_stays_good L hu hat [.setPIN (ascii "1234")] [.setPIN (ascii "56789")] (by simp)
      (by rw [show [Op.setPIN (ascii "1234")] ++ [.setPIN (ascii "56789")] =
          [.setPIN (ascii "1234"), .setPIN (ascii "56789")] from rfl, ea])
      (by rw [show [Op.setPIN (ascii "1234")] ++ [.setPIN (ascii "56789")] =
          [.setPIN (ascii "1234"), .setPIN (ascii "56789")] from rfl, ea, c2]
          dsimp only
          rw [c1]
          exact hen)
      hdec rfl rfl ⟨_, .head _, rfl, rfl⟩ rfl rfl (happ _ _ _ _)
  refine ⟨E, cfg, _, answer, authData, sig, cert, ad, d', _, L, hu, hne, er, ?_, hdec, rfl, h1, h2, h3, h4⟩
  rw [ea, c2]

/-- Two toy devices with different PINs and two wrong guesses (C115), whereas a right guess tells. -/
example : ∃ (E : Env) (cfg : Client.Config) (key : EC2Key) (secret : Bytes), Laws E ∧ Usable E cfg ∧
    hash E (ascii "1234") ≠ hash E (ascii "56789") ∧
    let guess : Bytes → Op := fun pin => .ctap (request (getPINToken E key secret pin))
    (∀ before op rest, [guess (ascii "0000"), .enablePIN, guess (ascii "1111")] = before ++ op :: rest → ∀ h,
      Presents E (after E cfg (boot E cfg) ([] ++ .setPIN (ascii "1234") :: before)).world.client op h →
      h ≠ hash E (ascii "1234") ∧ h ≠ hash E (ascii "56789")) ∧
    (run E cfg (boot E cfg) [.setPIN (ascii "1234"), guess (ascii "1234")]).1 ≠
      (run E cfg (boot E cfg) [.setPIN (ascii "56789"), guess (ascii "1234")]).1 := by
  have L := Toy.toy_laws Toy.agree
  obtain ⟨platform, key, secret, hag⟩ :=
    toy_agreement (c := (boot (Toy.toy Toy.agree) (Toy.config true)).world.client) rfl
  have hu := Toy.config_usable Toy.agree true
  have hh := Toy.boot_healthy Toy.agree true
  have h1 : hash (Toy.toy Toy.agree) (ascii "1234") ≠ hash (Toy.toy Toy.agree) (ascii "56789") := by decide +kernel
  have h2 : ∀ x ∈ [ascii "0000", ascii "1111"], hash (Toy.toy Toy.agree) x ≠ hash (Toy.toy Toy.agree) (ascii "1234") ∧
      hash (Toy.toy Toy.agree) x ≠ hash (Toy.toy Toy.agree) (ascii "56789") := by decide +kernel
  have hen : (boot (Toy.toy Toy.agree) (Toy.config true)).world.client.pinEnabled = true := rfl
  have hal : (boot (Toy.toy Toy.agree) (Toy.config true)).alive = true := rfl
  have htl : (boot (Toy.toy Toy.agree) (Toy.config true)).world.client.pinToken.length = 16 := rfl
  have hre : (boot (Toy.toy Toy.agree) (Toy.config true)).world.client.pinRetries = 8 := rfl
  generalize Toy.toy Toy.agree = E at *
  generalize Toy.config true = cfg at *
  have agree : ∀ ops : List Op, .restart ∉ ops →
      Agreement E (after E cfg (boot E cfg) ops).world.client platform key secret := by
    intro ops ho
    have := (C117_token_lasts (E := E) (cfg := cfg) ops ho (boot E cfg)).2
    obtain ⟨a1, a2, a3, a4, a5⟩ := hag
    exact ⟨by rw [this]; exact a1, a2, a3, by rw [this]; exact a4, by rw [this]; exact a5⟩
  refine ⟨E, cfg, key, secret, L, hu, h1, ?_, ?_⟩
  · intro before op rest e h hp
    have hp' : ∀ pin ∈ [ascii "0000", ascii "1111"], .restart ∉ before →
        op = .ctap (request (getPINToken E key secret pin)) → h ≠ hash E (ascii "1234") ∧ h ≠ hash E (ascii "56789") := by
      intro pin hm hb eo
      rw [eo] at hp
      rw [presents_token L (agree _ (by simpa using hb)) hp]
      exact h2 pin hm
    rcases before with _ | ⟨x, _ | ⟨y, _ | ⟨z, before⟩⟩⟩
    · injection e with e _
      exact hp' (ascii "0000") (by simp) (by simp) e.symm
    · injection e with _ e
      injection e with e _
      subst e
      obtain ⟨_, _, _, _, e, -⟩ := hp
      cases e
    · injection e with ex e
      injection e with ey e
      injection e with e _
      exact hp' (ascii "1111") (by simp) (by subst ex ey; simp) e.symm
    · injection e with _ e
      injection e with _ e
      injection e with _ e
      cases before <;> cases e
  · obtain ⟨w1, s1, c1, -⟩ := set_live (cfg := cfg) L hal hh (ascii "1234")
    obtain ⟨w2, s2, c2, -⟩ := set_live (cfg := cfg) L hal hh (ascii "56789")
    have g1 : Agreement E w1.client platform key secret := by
      obtain ⟨a1, a2, a3, a4, a5⟩ := hag
      rw [c1]
      exact ⟨a1, a2, a3, a4, a5⟩
    have g2 : Agreement E w2.client platform key secret := by
      obtain ⟨a1, a2, a3, a4, a5⟩ := hag
      rw [c2]
      exact ⟨a1, a2, a3, a4, a5⟩
    obtain ⟨answer, enc, r1, su, -⟩ := C59_get_token L (w := w1) (pin := ascii "1234")
      (by rw [c1]; exact hen) (by rw [c1]; dsimp only; rw [hre]; decide) (by rw [c1]; exact htl) (by rw [c1]) g1
    obtain ⟨body, rfl, -⟩ := su
    intro heq
    rw [run_cons, s1, run_cons, run_cons, s2, run_cons] at heq
    dsimp only at heq
    injection heq with _ heq
    injection heq with heq _
    rw [step_live rfl rfl, step_live rfl rfl, perform_ctap', perform_ctap', r1] at heq
    dsimp only [outcome] at heq
    cases hm : Ctap.handleMessage E (request (getPINToken E key secret (ascii "1234"))) w2 with
    | mk r w' =>
      rw [hm] at heq
      cases r with
      | panic c => cases heq
      | ok b =>
        dsimp only at heq
        injection heq with heq
        subst heq
        have hd := L.decode_clientPIN _ (getPINToken_fits L (pin := ascii "1234") g2)
        obtain ⟨key', secret', enc', k1, k2, k3, k4, -⟩ := C55_token_needs_pin L hm hd rfl
          (by rw [c2]; exact htl)
        have hp : Presents E w2.client (.ctap (request (getPINToken E key secret (ascii "1234"))))
            (hash E (ascii "56789")) :=
          ⟨_, _, key', secret', rfl, hd, .inr rfl, k1, k2, by rw [k3]; rw [c2] at k4; exact k4⟩
        exact h1 (presents_token L g2 hp).symm

end VF.Props
