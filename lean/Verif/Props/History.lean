import Verif.Proofs.Retries
import Verif.Proofs.ToyHistory
import Verif.Proofs.PinProgress
import Verif.Props.U2f

/-!
# Histories of requests, API calls and restarts (C40, C41, C50, C56, C67)
-/

namespace VF.Props

open VF.Fido VF.Fido.Device VF.Spec.Ctap VF.Spec.Client VF.Spec.Vault VF.Spec.U2f VF.Spec.History

variable {E : Env} {cfg : Client.Config}

/-! ## C40 -/

/-- After any history, while a process is running, a restart would give the same device: the same
credentials with ids, types, keys and counters, PIN hash, PIN switch, sealing key, attestation
certificate and key. -/
theorem C40_saved_reflects_memory (L : Laws E) (hu : Usable E cfg) (ops : List Op)
    (ha : (after E cfg (boot E cfg) ops).alive = true) :
    Holds E cfg (after E cfg (boot E cfg) ops).world.store
      (after E cfg (boot E cfg) ops).world.client := by
  obtain ⟨c, -, h2, -, h4⟩ := inv_reachable L hu ops
  obtain rfl := h4 ha
  exact h2.holds

/-- After any history, also one that ended in a panic, the program can be started again. -/
theorem C40_restart_succeeds (L : Laws E) (hu : Usable E cfg) (ops : List Op) :
    (step E cfg (after E cfg (boot E cfg) ops) .restart).1 = .started ∧
      (step E cfg (after E cfg (boot E cfg) ops) .restart).2.alive = true := by
  obtain ⟨c, -, h2, -, -⟩ := inv_reachable L hu ops
  obtain ⟨c', h, -⟩ := h2 (after E cfg (boot E cfg) ops).world.rnd
  simp only [step, h, and_self]

/-! ## C41 -/

/-- In every state, whatever the operation and whether it panics or not, the saved data are the
ones before, or ones from which a start gives what the process has in memory afterwards. -/
theorem C41_saved_data_before_or_after (L : Laws E) (op : Op) (w : World)
    (hh : Healthy E w.client) :
    (perform E op w).2.store = w.store ∨
      Holds E cfg (perform E op w).2.store (perform E op w).2.client := by
  obtain ⟨-, o⟩ := perform_out L op w
  cases o with
  | kept hs hc => exact .inl hs
  | saved blob m n hs hv h _ => rw [hs]; exact .inr (saves_holds L (h hh) hv cfg)
  | lost c hr hs => exact .inl hs

/-- An operation that was answered has been saved, if it changed anything that is saved. -/
theorem C41_answered_is_saved (L : Laws E) (op : Op) (w : World) (hh : Healthy E w.client)
    (hs : Holds E cfg w.store w.client) {r : Reply} (hr : (perform E op w).1 = .ok r) :
    Holds E cfg (perform E op w).2.store (perform E op w).2.client := by
  obtain ⟨-, o⟩ := perform_out L op w
  cases o with
  | kept hs' hc =>
    rw [hs']
    intro rnd
    obtain ⟨c', h1, h2⟩ := hs rnd
    exact ⟨c', h1, SameDevice.trans (SameDevice.symm hc.same) h2⟩
  | saved blob m n hs hv h _ => rw [hs]; exact saves_holds L (h hh) hv cfg
  | lost c hr' hs => rw [hr] at hr'; cases hr'

/-- After any history: if the process ends during the next operation, a start gives the device
before or after the operation. -/
theorem C41_crash (L : Laws E) (hu : Usable E cfg) (ops : List Op) (op : Op) (rnd : Nat)
    (ha : (after E cfg (boot E cfg) ops).alive = true) :
    ∃ c', Client.start E cfg (step E cfg (after E cfg (boot E cfg) ops) op).2.world.store rnd
        = .ok c' ∧
      (SameDevice (after E cfg (boot E cfg) ops).world.client c' ∨
        SameDevice (step E cfg (after E cfg (boot E cfg) ops) op).2.world.client c') := by
  obtain ⟨c, h1, h2, -, h4⟩ := inv_reachable L hu ops
  obtain rfl := h4 ha
  generalize after E cfg (boot E cfg) ops = d at *
  cases hr : isRestart op with
  | true =>
    cases op with
    | restart =>
      obtain ⟨c', s1, s2, -⟩ := h2 rnd
      refine ⟨c', ?_, .inl s2⟩
      simp only [step]
      cases Client.start E cfg d.world.store d.world.rnd <;> exact s1
    | _ => cases hr
  | false =>
    have ew : (step E cfg d op).2.world = (perform E op d.world).2 := by
      rw [step_live hr ha]
      cases (perform E op d.world).1 <;> rfl
    rw [ew]
    rcases C41_saved_data_before_or_after (cfg := cfg) L op d.world h1 with h | h
    · rw [h]
      obtain ⟨c', s1, s2, -⟩ := h2 rnd
      exact ⟨c', s1, .inl s2⟩
    · obtain ⟨c', s1, s2⟩ := h rnd
      exact ⟨c', s1, .inr s2⟩

/-! ## C50 -/

/-- Of two successful assertions of one credential the later one reports the larger counter,
whatever happens before and in between (including restarts), for fewer than 2^32 GetAssertion
requests.  Random draws are assumed not to repeat (ids of credentials are drawn). -/
theorem C50_counters_increase (L : Laws E) (hu : Usable E cfg) {pre mid : List Op}
    {data1 data2 body1 body2 id authData1 authData2 sig1 sig2 : Bytes} {ad1 ad2 : AuthData}
    {d1 d2 d3 d4 : Device}
    (h1 : after E cfg (boot E cfg) pre = d1)
    (h2 : step E cfg d1 (.ctap (0x02 :: data1)) = (.answer (0 :: body1), d2))
    (h3 : after E cfg d2 mid = d3)
    (h4 : step E cfg d3 (.ctap (0x02 :: data2)) = (.answer (0 :: body2), d4))
    (ha1 : IsAssertion (0 :: body1) id authData1 sig1)
    (hp1 : parseAuthData authData1 = some ad1)
    (ha2 : IsAssertion (0 :: body2) id authData2 sig2)
    (hp2 : parseAuthData authData2 = some ad2)
    (hdraws : DistinctDraws E d4.world.rnd)
    (huses : pre.countP isGetAssertion + mid.countP isGetAssertion + 2 < 2 ^ 32) :
    ad1.counter < ad2.counter := by
  have r12 := step_rnd (cfg := cfg) L d1 (.ctap (0x02 :: data1))
  rw [h2] at r12
  have r23 := after_rnd (cfg := cfg) L d2 mid
  rw [h3] at r23
  have r34 := step_rnd (cfg := cfg) L d3 (.ctap (0x02 :: data2))
  rw [h4] at r34
  dsimp only at r12 r34
  have i0 : Inv E cfg (Tracked E id 0 0) (boot E cfg) :=
    inv_boot hu ⟨List.nodup_nil, .inl rfl, fun s hs => by cases hs⟩
  have i1 := tracked_after (N := d4.world.rnd) (ops := pre) L hdraws (by omega)
    (by rw [h1]; omega) i0
  rw [h1, Nat.zero_add] at i1
  obtain ⟨-, i2⟩ := tracked_assertion (data := data1) (body := body1) (N := d4.world.rnd) L hdraws
    (by omega) (by rw [h2]; dsimp only; omega) (by rw [h2]) ha1 hp1 i1
  rw [h2] at i2
  have i3 := tracked_after (N := d4.world.rnd) (ops := mid) L hdraws (by omega)
    (by rw [h3]; omega) i2
  rw [h3] at i3
  exact (tracked_assertion (data := data2) (body := body2) (N := d4.world.rnd) L hdraws
    (by omega) (by rw [h4]; exact Nat.le_refl _) (by rw [h4]) ha2 hp2 i3).1 rfl

/-- The hypotheses can be met, with a restart between the assertions. -/
example : ∃ (E : Env) (cfg : Client.Config) (make get : Bytes)
    (d1 d2 d3 d4 : Device) (body1 body2 id authData1 authData2 sig1 sig2 : Bytes)
    (ad1 ad2 : AuthData), Laws E ∧ Usable E cfg ∧ CanAttest E (boot E cfg).world.client ∧
    after E cfg (boot E cfg) [.ctap make] = d1 ∧
    step E cfg d1 (.ctap (0x02 :: get)) = (.answer (0 :: body1), d2) ∧
    after E cfg d2 [.restart] = d3 ∧
    step E cfg d3 (.ctap (0x02 :: get)) = (.answer (0 :: body2), d4) ∧
    IsAssertion (0 :: body1) id authData1 sig1 ∧ parseAuthData authData1 = some ad1 ∧
    IsAssertion (0 :: body2) id authData2 sig2 ∧ parseAuthData authData2 = some ad2 ∧
    DistinctDraws E d4.world.rnd ∧
    List.countP isGetAssertion [.ctap make] + List.countP isGetAssertion [.restart] + 2 < 2 ^ 32 :=
  Toy.login_restart_login

/-! ## C56 -/

/-- In any history in one process, without a successful PIN operation, at most 8 wrong PINs are
answered. -/
theorem C56_at_most_eight (pre ops : List Op) (hone : ∀ op ∈ ops, isRestart op = false)
    (hright : ∀ e ∈ events E cfg (after E cfg (boot E cfg) pre) ops, isRightPIN E e = false) :
    (events E cfg (after E cfg (boot E cfg) pre) ops).countP isWrongPIN ≤ 8 := by
  have h := retriesOk_after (E := E) (cfg := cfg) pre (retriesOk_boot (E := E) (cfg := cfg))
  have h1 := left_after ops hone h hright
  have h2 := left_le h
  omega

/-- After 8 wrong PINs, a further attempt changes nothing and is answered neither with success
nor with PIN_INVALID (it is not evaluated). -/
theorem C56_then_blocked (pre ops : List Op) (op : Op) (hone : ∀ op ∈ ops, isRestart op = false)
    (hright : ∀ e ∈ events E cfg (after E cfg (boot E cfg) pre) ops, isRightPIN E e = false)
    (h8 : (events E cfg (after E cfg (boot E cfg) pre) ops).countP isWrongPIN = 8)
    (hop : isPINAttempt E op = true) :
    (step E cfg (after E cfg (after E cfg (boot E cfg) pre) ops) op).2.world =
        (after E cfg (after E cfg (boot E cfg) pre) ops).world ∧
      ∀ b, (step E cfg (after E cfg (after E cfg (boot E cfg) pre) ops) op).1 = .answer b →
        (∀ body, b ≠ 0 :: body) ∧ b ≠ [0x31] := by
  have h := retriesOk_after (E := E) (cfg := cfg) pre (retriesOk_boot (E := E) (cfg := cfg))
  have h1 := left_after ops hone h hright
  have h2 := left_le h
  exact blocked (retriesOk_after ops h) (by omega) hop

/-- On a toy device, 8 wrong PINs. -/
theorem eight_wrong : ∃ (E : Env) (cfg : Client.Config) (op : Op), Laws E ∧ Usable E cfg ∧ isPINAttempt E op = true ∧
    events E cfg (boot E cfg) (List.replicate 8 op) = List.replicate 8 (op, .answer [0x31]) ∧ ∃ data, op = .ctap (6 :: data) := by
  let ap : List Ask → Action → Bytes → Bytes → Bool := fun _ _ _ _ => true
  have L := Toy.toy_laws ap
  let key : EC2Key := ⟨2, -25, 1, some [1], some [1], []⟩
  let c0 : Client := (boot (Toy.toy ap) (Toy.config true)).world.client
  obtain ⟨secret, hss, hsl⟩ : ∃ secret, Ctap.sharedSecret (Toy.toy ap) c0 key = .ok secret ∧
      secret.length = 32 := ⟨_, rfl, L.sha256_length _⟩
  let args := Spec.Pin.getPINToken (Toy.toy ap) key secret [1, 2, 3, 4]
  have hel : ((Toy.toy ap).cbcEncrypt secret (Spec.Pin.hash (Toy.toy ap) [1, 2, 3, 4])).length
      = 16 := by
    rw [L.cbc_length _ _ hsl (by simp [Spec.Pin.hash, L.sha256_length])]
    simp [Spec.Pin.hash, L.sha256_length]
  have hfits : Spec.Platform.ClientPINFits args := by
    refine ⟨?_, by simp [args, Spec.Pin.getPINToken], by simp [args, Spec.Pin.getPINToken], ?_⟩
    · intro k hk; obtain rfl : k = key := by simpa [args, Spec.Pin.getPINToken] using hk.symm
      refine ⟨by simp [key, Int8Range], by simp [key, Int8Range], by simp [key, Int8Range], ?_, ?_,
        by simp [key, Short]⟩ <;>
      · intro x hx
        obtain rfl : x = _ := by simpa [key] using hx.symm
        simp [Short]
    · intro b hb
      obtain rfl : b = _ := by simpa [args, Spec.Pin.getPINToken] using hb.symm
      unfold Short; omega
  have hd := L.decode_clientPIN _ hfits
  let op : Op := .ctap (Spec.Pin.request args)
  have hwrong : ∀ (n : Nat) (d : Device), n ≤ 8 → d.alive = true → d.world.client.pinRetries = n →
      d.world.client = { c0 with pinRetries := n } →
      events (Toy.toy ap) (Toy.config true) d (List.replicate n op) =
        List.replicate n (op, .answer [0x31]) := by
    intro n
    induction n with
    | zero => intro d _ _ _ _; rfl
    | succ n ih =>
      intro d hn ha hr hc
      have hstep := Ctap.getToken_wrong (E := Toy.toy ap) (w := d.world) (args := args) (key := key)
        (secret := secret) (by rw [hc]; rfl) (by omega) hd rfl rfl rfl (by simp [key]) rfl
        (by rw [hc]; exact hss) hsl (by omega) (by
          rw [hc]
          show (Toy.toy ap).cbcDecrypt _ _ ≠ []
          rw [L.cbc_decrypt _ _ hsl (by simp [Spec.Pin.hash, L.sha256_length])]
          intro h
          have := congrArg List.length h
          simp [Spec.Pin.hash, L.sha256_length] at this)
      have hs : step (Toy.toy ap) (Toy.config true) d op = _ := step_ctap ha hstep
      rw [List.replicate_succ, events_cons, hs, List.replicate_succ]
      congr 1
      apply ih
      · omega
      · rfl
      · show d.world.client.pinRetries - 1 = _
        omega
      · show ({ d.world.client with pinRetries := d.world.client.pinRetries - 1 } : Client) = _
        rw [hr, hc]
        simp
  have hev := hwrong 8 (boot (Toy.toy ap) (Toy.config true)) (Nat.le_refl _) rfl rfl rfl
  refine ⟨Toy.toy ap, Toy.config true, op, L, Toy.config_usable ap true, ?_, hev, _, rfl⟩
  simp only [op, Spec.Pin.request, isPINAttempt, hd]
  rfl

/-- The hypotheses can be met: on a toy device, 8 wrong PINs and a further attempt. -/
example : ∃ (E : Env) (cfg : Client.Config) (op : Op), Laws E ∧ Usable E cfg ∧
    (∀ o ∈ List.replicate 8 op, isRestart o = false) ∧
    (∀ e ∈ events E cfg (after E cfg (boot E cfg) []) (List.replicate 8 op),
      isRightPIN E e = false) ∧
    (events E cfg (after E cfg (boot E cfg) []) (List.replicate 8 op)).countP isWrongPIN = 8 ∧
    isPINAttempt E op = true := by
  obtain ⟨E, cfg, op, L, hu, hat, hev, data, rfl⟩ := eight_wrong
  refine ⟨E, cfg, _, L, hu, ?_, ?_, ?_, hat⟩
  · intro o ho
    obtain rfl := List.eq_of_mem_replicate ho
    rfl
  · rw [after_nil, hev]
    intro e he
    rw [List.eq_of_mem_replicate he]
    rfl
  · rw [after_nil, hev]
    rfl

/-! ## C67 -/

/-- A concrete history: register, authenticate, then authenticate again (to `d3`), or restart (to
`d4`) and authenticate. -/
theorem u2f_history_args : ∃ (E : Env) (cfg : Client.Config) (rest answer0 answer answer' answer'' handle : Bytes)
    (auth auth' auth'' : Authentication) (d1 d2 d3 d4 d5 : Device), Laws E ∧ Usable E cfg ∧
    CanAttest E (boot E cfg).world.client ∧ (∀ asks a x y, E.approve asks a x y = true) ∧
    (∀ i n, E.rand i n = List.replicate n (UInt8.ofNat i)) ∧
    step E cfg (boot E cfg) (.u2f (apdu 0 1 0 0
      (registerData (List.replicate 32 1) (List.replicate 32 2)) none)) = (.answer answer0, d1) ∧
    (∃ reg, parseRegistration answer0 = some reg ∧ reg.keyHandle = handle) ∧
    0 :: 0x02 :: rest = apdu 0 2 3 0
      (authenticateData (List.replicate 32 3) (List.replicate 32 2) handle) none ∧
    d1.world.rnd ≤ 256 ∧ d1.alive = true ∧
    step E cfg d1 (.u2f (0 :: 0x02 :: rest)) = (.answer answer, d2) ∧
    step E cfg d2 (.u2f (0 :: 0x02 :: rest)) = (.answer answer', d3) ∧
    (step E cfg d2 .restart = (.started, d4) ∧
      step E cfg d4 (.u2f (0 :: 0x02 :: rest)) = (.answer answer'', d5)) ∧
    parseAuthentication answer = some auth ∧ parseAuthentication answer' = some auth' ∧
    parseAuthentication answer'' = some auth'' ∧
    auth.counter = 1 ∧ auth'.counter = 2 ∧ auth''.counter = 1 := by
  let ap : List Ask → Action → Bytes → Bytes → Bool := fun _ _ _ _ => true
  have L := Toy.toy_laws ap
  let b : Device := boot (Toy.toy ap) (Toy.config false)
  obtain ⟨answer0, w1, h1, hi⟩ := C62_registration_succeeds L 0 0 0
    (List.replicate 32 1) (List.replicate 32 2) none b.world (by simp) (by simp)
    (by dsimp only [b, boot, Client.fresh, Toy.config]; decide) (Toy.boot_healthy ap false)
    (Toy.boot_attests ap false)
  have hs := hi.2 rfl
  obtain ⟨reg, hreg⟩ := Option.isSome_iff_exists.1 hs
  have hr := C62_registration L (cla := 0) (p1 := 0) (p2 := 0) h1
  obtain ⟨hc, hst, hr⟩ := hr
  rcases hr with ⟨-, -, hn⟩ | ⟨-, _, _, reg', x, y, _, _, -, -, -, hp, -, -, hq, -⟩
  · rw [hreg] at hn; cases hn
  have R : Registered (Toy.toy ap) b.world (List.replicate 32 2) reg' x y :=
    ⟨by simp, ⟨0, 0, 0, none, List.replicate 32 1, answer0, w1, by simp, h1, hp⟩, hq⟩
  have own := fun (v : World) (hv : v.client.deviceKey = b.world.client.deviceKey) =>
    C63_own_application L R hv 0 3 0 none (List.replicate 32 3) (by simp) (.inl ⟨rfl, rfl⟩)
  obtain ⟨answer1, w2, auth1, g1, q1, c1, -⟩ := own w1 (by rw [hc])
  have hn : w1.rnd ≤ 256 := by
    have e := h1
    rw [U2f.handleMessage_register (Toy.toy ap) 0 0 0 _ none b.world (by simp [registerData])
      (by simp [registerData])] at e
    obtain ⟨-, -, ⟨-, -, e⟩ | ⟨-, e, -⟩⟩ := U2f.register_spec L e
    · rw [e]; show (2 + 2 : Nat) ≤ 256; omega
    · rw [e]; show (2 + 4 : Nat) ≤ 256; omega
  have s1 := step_u2f (E := Toy.toy ap) (cfg := Toy.config false) (d := b) rfl h1
  have s2 := step_u2f (E := Toy.toy ap) (cfg := Toy.config false) (d := ⟨w1, true⟩) rfl g1
  obtain ⟨-, u2⟩ := u2f_step (cla := 0) (d := ⟨w1, true⟩) rfl s2 q1
  have k2 : w2.client.deviceKey = b.world.client.deviceKey ∧ w2.store = none := by
    rcases U2f.handleMessage_cases_authenticate (Toy.toy ap) 0 3 0 _ w1 with ⟨c, e⟩ | ⟨data, n, -, e⟩
    · rw [show apdu 0 2 3 0 _ none = 0 :: 2 :: 3 :: 0 :: _ from rfl, e] at g1
      cases g1
    · rw [show apdu 0 2 3 0 _ none = 0 :: 2 :: 3 :: 0 :: _ from rfl, e] at g1
      obtain ⟨_, _, _, _, _, _, -, -, -, hw, -, -⟩ := U2f.authenticate_spec g1 q1
      rw [hw]
      exact ⟨by show w1.client.deviceKey = _; rw [hc], by show w1.store = _; rw [hst]; rfl⟩
  obtain ⟨answer2, w3, auth2, g2, q2, c2, -⟩ := own w2 k2.1
  have s3 := step_u2f (E := Toy.toy ap) (cfg := Toy.config false) (d := ⟨w2, true⟩) rfl g2
  let d4 : Device := ⟨{ w2 with
    client := Client.fresh (Toy.toy ap) (Toy.config false) w2.rnd, store := none,
    rnd := w2.rnd + 2 }, true⟩
  have s4 : step (Toy.toy ap) (Toy.config false) ⟨w2, true⟩ .restart = (.started, d4) := by
    simp only [step, k2.2, Client.start]
    rfl
  obtain ⟨answer3, w5, auth3, g3, q3, c3, -⟩ := own d4.world rfl
  have s5 := step_u2f (E := Toy.toy ap) (cfg := Toy.config false) (d := d4) rfl g3
  refine ⟨Toy.toy ap, Toy.config false, _, answer0, answer1, answer2, answer3, reg'.keyHandle, auth1, auth2, auth3,
    ⟨w1, true⟩, ⟨w2, true⟩, ⟨w3, true⟩, d4, ⟨w5, true⟩, L, Toy.config_usable ap false, Toy.boot_attests ap false,
    fun _ _ _ _ => rfl, fun _ _ => rfl, s1, ⟨reg', hp, rfl⟩, rfl, hn, rfl, s2, s3, ⟨s4, s5⟩, q1, q2, q3, ?_, ?_, ?_⟩
  · rw [c1, hc]; rfl
  · rw [c2]
    have u2 : w2.client.authCounter = w1.client.authCounter + 1 := u2
    rw [u2, hc]; rfl
  · rw [c3]; rfl

/-- The same, without what was sent. -/
theorem u2f_history : ∃ (E : Env) (cfg : Client.Config) (register rest answer answer' answer'' : Bytes)
    (auth auth' auth'' : Authentication) (d1 d2 d3 d4 d5 : Device), Laws E ∧ Usable E cfg ∧
    after E cfg (boot E cfg) [.u2f register] = d1 ∧
    step E cfg d1 (.u2f (0 :: 0x02 :: rest)) = (.answer answer, d2) ∧
    step E cfg d2 (.u2f (0 :: 0x02 :: rest)) = (.answer answer', d3) ∧
    (after E cfg d2 [.restart] = d4 ∧
      step E cfg d4 (.u2f (0 :: 0x02 :: rest)) = (.answer answer'', d5)) ∧
    isU2fAuthenticate (.u2f register) = false ∧
    parseAuthentication answer = some auth ∧ parseAuthentication answer' = some auth' ∧
    parseAuthentication answer'' = some auth'' ∧
    auth.counter = 1 ∧ auth'.counter = 2 ∧ auth''.counter = 1 := by
  obtain ⟨E, cfg, rest, answer0, answer, answer', answer'', handle, auth, auth', auth'', d1, d2, d3, d4, d5,
    L, hu, -, -, -, h1, -, -, -, -, h2, h3, ⟨h4, h5⟩, p1, p2, p3, c1, c2, c3⟩ := u2f_history_args
  refine ⟨E, cfg, apdu 0 1 0 0 (registerData (List.replicate 32 1) (List.replicate 32 2)) none, rest, answer,
    answer', answer'', auth, auth', auth'', d1, d2, d3, d4, d5, L, hu, ?_, h2, h3, ⟨?_, h5⟩, rfl, p1, p2, p3, c1, c2, c3⟩
  · rw [after_cons, h1]; rfl
  · rw [after_cons, h4]; rfl

/-- Of two successful U2F authentications in one process the later one reports the larger
counter, for fewer than 2^32 authentication requests since the first start. -/
theorem C67_counters_increase (L : Laws E) (hu : Usable E cfg) {pre mid : List Op}
    {cla1 cla2 : UInt8} {rest1 rest2 answer1 answer2 : Bytes} {auth1 auth2 : Authentication}
    {d1 d2 d3 d4 : Device}
    (h1 : after E cfg (boot E cfg) pre = d1)
    (h2 : step E cfg d1 (.u2f (cla1 :: 0x02 :: rest1)) = (.answer answer1, d2))
    (h3 : after E cfg d2 mid = d3)
    (h4 : step E cfg d3 (.u2f (cla2 :: 0x02 :: rest2)) = (.answer answer2, d4))
    (hp1 : parseAuthentication answer1 = some auth1)
    (hp2 : parseAuthentication answer2 = some auth2)
    (hone : ∀ op ∈ mid, isRestart op = false)
    (huses : pre.countP isU2fAuthenticate + mid.countP isU2fAuthenticate + 2 < 2 ^ 32) :
    auth1.counter < auth2.counter := by
  have b1 := authBound_after (E := E) (cfg := cfg) L pre (inv_boot hu trivial)
    (authBound_boot 0)
  rw [h1, Nat.zero_add] at b1
  have a1 : d1.alive = true := by
    cases hal : d1.alive with
    | true => rfl
    | false => rw [step_dead rfl hal] at h2; cases h2
  have a3 : d3.alive = true := by
    cases hal : d3.alive with
    | true => rfl
    | false => rw [step_dead rfl hal] at h4; cases h4
  obtain ⟨c1, e1⟩ := u2f_step a1 h2 hp1
  obtain ⟨c3, -⟩ := u2f_step a3 h4 hp2
  have hb := b1.1 a1
  have hs := counter_succ (c := d1.world.client.authCounter) (by omega)
  have := auth_floor (E := E) (cfg := cfg) L mid (k := pre.countP isU2fAuthenticate + 1)
    (lo := auth1.counter + 1) (d := d2) hone (by omega) (by rw [e1]; omega) (by rw [e1]; omega)
    (by rw [h3]; exact a3)
  rw [h3] at this
  omega

/-- The hypotheses can be met. -/
example : ∃ (E : Env) (cfg : Client.Config) (register rest answer1 answer2 : Bytes)
    (auth1 auth2 : Authentication) (d1 d2 d3 : Device), Laws E ∧ Usable E cfg ∧
    after E cfg (boot E cfg) [.u2f register] = d1 ∧
    step E cfg d1 (.u2f (0 :: 0x02 :: rest)) = (.answer answer1, d2) ∧
    after E cfg d2 [] = d2 ∧
    step E cfg d2 (.u2f (0 :: 0x02 :: rest)) = (.answer answer2, d3) ∧
    parseAuthentication answer1 = some auth1 ∧ parseAuthentication answer2 = some auth2 ∧
    List.countP isU2fAuthenticate [.u2f register] + List.countP isU2fAuthenticate [] + 2 < 2 ^ 32 := by
  obtain ⟨E, cfg, register, rest, answer, answer', answer'', auth, auth', auth'', d1, d2, d3, d4, d5,
    L, hu, h1, h2, h3, -, hn, p1, p2, -⟩ := u2f_history
  exact ⟨E, cfg, register, rest, answer, answer', auth, auth', d1, d2, d3, L, hu, h1, h2, rfl, h3, p1,
    p2, by rw [List.countP_cons, hn]; decide⟩

/-- Across restarts the counter starts again: register, authenticate, restart, authenticate; both
authentications report 1. -/
theorem C67_across_restarts_refuted : ∃ (E : Env) (cfg : Client.Config) (register : Bytes)
    (cla1 cla2 : UInt8) (rest1 rest2 answer1 answer2 : Bytes) (auth1 auth2 : Authentication)
    (d1 d2 d3 d4 : Device), Laws E ∧ Usable E cfg ∧
    after E cfg (boot E cfg) [.u2f register] = d1 ∧
    step E cfg d1 (.u2f (cla1 :: 0x02 :: rest1)) = (.answer answer1, d2) ∧
    after E cfg d2 [.restart] = d3 ∧
    step E cfg d3 (.u2f (cla2 :: 0x02 :: rest2)) = (.answer answer2, d4) ∧
    parseAuthentication answer1 = some auth1 ∧ parseAuthentication answer2 = some auth2 ∧
    auth1.counter = 1 ∧ auth2.counter = 1 := by
  obtain ⟨E, cfg, register, rest, answer, answer', answer'', auth, auth', auth'', d1, d2, d3, d4, d5,
    L, hu, h1, h2, h3, h4, -, p1, -, p3, a1, -, a3⟩ := u2f_history
  exact ⟨E, cfg, register, 0, 0, rest, rest, answer, answer'', auth, auth'', d1, d2, d4, d5, L, hu,
    h1, h2, h4.1, h4.2, p1, p3, a1, a3⟩

end VF.Props
