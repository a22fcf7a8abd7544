import Verif.Props.HostLogin
import Verif.Props.PinHistory
import Verif.Spec.HostPin

/-!
# C135: who knows the PIN is verified, from a host
-/

namespace VF.Props

open VF.Fido VF.Hid VF.Spec.History VF.Spec.Ctaphid VF.Spec.Live VF.Spec.Calls VF.Spec.Service VF.Spec.Conversation
open VF.Spec.Client VF.Spec.UsbIp VF.Spec.HostPin VF.Spec.PinHistory VF.Spec.Ctap
open VF.Spec.Pin (getKeyAgreement getPINToken PlatformKey PlatformSecret hash auth)
open VF.Spec.Stack (onChannel)
open VF.Spec.Overlap (busy OneAtATime operations sequential isResult)
open VF.Fido.Device (after step boot)
open scoped List

variable {E : Env} {cfg : Client.Config} {grow : Nat → Nat → Nat}

theorem success_inj {a : Bytes} {x y : VF.Cbor} (h1 : Success a x) (h2 : Success a y) : x = y := by
  obtain ⟨b, rfl, h1⟩ := h1
  obtain ⟨b', h, h2⟩ := h2
  cases h
  rw [h1] at h2
  exact Option.some.inj h2

/-- PIN support is on at a device that answers a PIN request with success. -/
theorem success_enabled {w w' : World} {data a : Bytes} {x : VF.Cbor} (h : Ctap.handleMessage E (6 :: data) w = (.ok a, w'))
    (hs : Success a x) : w.client.pinEnabled = true := by
  cases hon : w.client.pinEnabled with
  | true => rfl
  | false =>
    rw [Ctap.handleMessage_pin] at h
    unfold Ctap.handleClientPIN at h
    rw [Go.get_bind_run, if_pos hon] at h
    cases h
    obtain ⟨b, hb, -⟩ := hs
    cases hb

/-- Where in a process something was answered. -/
theorem told_at {d0 : Device} {ops : List Op} (hr : .restart ∉ ops) {m a : Bytes} (h : (.ctap m, .answer a) ∈ events E cfg d0 ops) :
    ∃ d w', d.alive = true ∧ Ctap.handleMessage E m d.world = (.ok a, w') ∧
      (∃ xs, d = after E cfg d0 xs) ∧
      (after E cfg d0 ops).world.client.pinToken = d.world.client.pinToken ∧
      (after E cfg d0 ops).world.client.keyAgreement = d.world.client.keyAgreement := by
  obtain ⟨before, later, h⟩ := List.append_of_mem h
  obtain ⟨xs, ys, d', rfl, -, h1, h2⟩ := events_split h
  obtain ⟨q1, -, q3⟩ := Device.ctap_answered h1
  have e : after E cfg d0 (xs ++ .ctap m :: ys) = after E cfg (after E cfg d0 xs) (.ctap m :: ys) := by
    rw [Device.after_append]
  rw [e]
  have := C117_token_lasts (E := E) (cfg := cfg) (.ctap m :: ys) (fun hm => hr (List.mem_append_right _ hm)) (after E cfg d0 xs)
  exact ⟨_, _, q1, q3, ⟨xs, rfl⟩, this⟩

theorem device_key_valid (L : Laws E) {ops : List Op} (ha : (after E cfg (boot E cfg) ops).alive = true) :
    ECDHValid E (after E cfg (boot E cfg) ops).world.client.keyAgreement ∧
    (after E cfg (boot E cfg) ops).world.client.pinToken.length = 16 := by
  obtain ⟨rnd, hs, -⟩ := Device.sessionOk_after L ops (Device.sessionOk_boot (E := E) (cfg := cfg)) ha
  have e : (after E cfg (boot E cfg) ops).world.client.keyAgreement = E.genECDH (rnd + 1) := congrArg Prod.snd hs
  have e2 : (after E cfg (boot E cfg) ops).world.client.pinToken = E.rand rnd 16 := congrArg Prod.fst hs
  rw [e, e2]
  exact ⟨L.genECDH_valid _, L.rand_length _ _⟩

/-- What a platform has computed from what it was told is what the device computes, until the process ends. -/
theorem secret_agrees (L : Laws E) {pre ops : List Op} (hr : .restart ∉ ops) {platform : ECDHKey} {key : EC2Key} {secret : Bytes}
    (h : HasSecret E (events E cfg (after E cfg (boot E cfg) pre) ops) platform key secret) :
    Agreement E (after E cfg (boot E cfg) (pre ++ ops)).world.client platform key secret := by
  obtain ⟨a, xb, yb, h1, h2, h3, h4, h5, h6⟩ := h
  obtain ⟨d, w', q1, q2, ⟨xs, rfl⟩, -, q5⟩ := told_at hr h1
  rw [← Device.after_append] at q5
  rw [← Device.after_append] at q1 q2 q5
  have hv := (device_key_valid L q1).1
  have hon := success_enabled q2 h2
  obtain ⟨a', xb', yb', g1, g2, g3, g4⟩ := C59_key_agreement L hon hv
  rw [q2] at g1
  cases g1
  have := success_inj h2 g2
  simp only [VF.Cbor.map.injEq, List.cons.injEq, Prod.mk.injEq, VF.Cbor.bytes.injEq, true_and, and_true] at this
  obtain ⟨rfl, rfl⟩ := this
  rw [g3, g4] at h5 h6
  refine ⟨?_, h3, h4, ?_, ?_⟩
  · rw [q5]; exact hv
  · rw [q5]; exact h5
  · rw [q5]; exact h6

/-- A token that was decrypted is the device's, and PIN support was on. -/
theorem token_known (L : Laws E) {pre ops : List Op} (hr : .restart ∉ ops) {token : Bytes}
    (h : HasToken E (events E cfg (after E cfg (boot E cfg) pre) ops) token) :
    token = (after E cfg (boot E cfg) (pre ++ ops)).world.client.pinToken ∧
    ∃ xs ys, ops = xs ++ ys ∧ (after E cfg (boot E cfg) (pre ++ xs)).alive = true ∧
      (after E cfg (boot E cfg) (pre ++ xs)).world.client.pinEnabled = true := by
  obtain ⟨platform, key, secret, pin, a, enc, h1, h2, h3, rfl⟩ := h
  have hag := secret_agrees L hr h1
  obtain ⟨before, later, hb⟩ := List.append_of_mem h2
  obtain ⟨xs, ys, d', rfl, -, g1, -⟩ := events_split hb
  obtain ⟨q1, -, q3⟩ := Device.ctap_answered g1
  have hses := C117_token_lasts (E := E) (cfg := cfg) (.ctap (Spec.Pin.request (getPINToken E key secret pin)) :: ys)
    (fun hm => hr (List.mem_append_right _ hm)) (after E cfg (after E cfg (boot E cfg) pre) xs)
  rw [← Device.after_append, ← Device.after_append, ← Device.after_append] at hses
  rw [← Device.after_append] at q1 q3
  have hag' : Agreement E (after E cfg (boot E cfg) (pre ++ xs)).world.client platform key secret := by
    refine ⟨?_, hag.2, hag.3, ?_, ?_⟩
    · rw [← hses.2]; exact hag.1
    · rw [← hses.2]; exact hag.4
    · rw [← hses.2]; exact hag.5
  obtain ⟨hss, hsl, -, -⟩ := agreement_secret L hag'
  obtain ⟨body, ha, -⟩ := id h3
  subst ha
  have htl := (device_key_valid L q1).2
  obtain ⟨key', secret', enc', k1, k2, k3, -, k5⟩ := C55_token_needs_pin L q3
    (L.decode_clientPIN _ (getPINToken_fits (pin := pin) L hag')) rfl htl
  obtain rfl : key = key' := by simpa [getPINToken] using k1
  obtain rfl : secret' = secret := Device.secret_unique L k2 (Ctap.sharedSecret_ok hss)
  have := success_inj h3 k5
  simp only [VF.Cbor.map.injEq, List.cons.injEq, Prod.mk.injEq, VF.Cbor.bytes.injEq, true_and, and_true] at this
  subst this
  refine ⟨?_, xs, _, rfl, q1, success_enabled q3 h3⟩
  rw [L.cbc_decrypt _ _ hsl (by omega), hses.1]

theorem requested_ops {qs : List Request} {op : Op} (h : op ∈ requested qs) : (∃ m, op = .ctap m) ∨ ∃ m, op = .u2f m := by
  obtain ⟨x, -, rfl⟩ := List.mem_map.1 h
  unfold opFor
  split
  · exact .inl ⟨_, rfl⟩
  · exact .inr ⟨_, rfl⟩

theorem pinOn_requests {ops : List Op} (h : ∀ op ∈ ops, (∃ m, op = .ctap m) ∨ ∃ m, op = .u2f m) : ∀ (on : Bool) (d : Device),
    pinOn on (events E cfg d ops) = on := by
  induction ops with
  | nil => exact fun on d => rfl
  | cons op ops ih =>
    intro on d
    rw [Device.events_cons, Device.pinOn_cons, ih (fun o ho => h o (List.mem_cons_of_mem _ ho))]
    rcases h op (List.mem_cons_self ..) with ⟨m, rfl⟩ | ⟨m, rfl⟩ <;> rfl

/-- PIN support stays on while there are only requests. -/
theorem stays_on (L : Laws E) (hu : Usable E cfg) {pre xs ys : List Op}
    (h : ∀ op ∈ ys, (∃ m, op = .ctap m) ∨ ∃ m, op = .u2f m) (ha : (after E cfg (boot E cfg) (pre ++ xs)).alive = true)
    (hon : (after E cfg (boot E cfg) (pre ++ xs)).world.client.pinEnabled = true)
    (ha' : (after E cfg (boot E cfg) (pre ++ (xs ++ ys))).alive = true) :
    (after E cfg (boot E cfg) (pre ++ (xs ++ ys))).world.client.pinEnabled = true := by
  obtain ⟨h1, p1⟩ := Device.pinIs_after (cfg := cfg) L (pre ++ xs) (Device.pinIs_boot hu)
  obtain ⟨h2, p2⟩ := Device.pinIs_after (cfg := cfg) L (pre ++ (xs ++ ys)) (Device.pinIs_boot hu)
  have k1 := (known_of L ha p1).enabled
  have k2 := (known_of L ha' p2).enabled
  rw [← List.append_assoc, events_two, pinOn, List.foldl_append] at k2
  rw [← List.append_assoc]
  rw [k2]
  rw [hon] at k1
  have := pinOn_requests (E := E) (cfg := cfg) h (pinOn cfg.enablePIN (events E cfg (boot E cfg) (pre ++ xs)))
    (after E cfg (boot E cfg) (pre ++ xs))
  unfold pinOn at this
  rw [this]
  exact k1.symm

/-- What is assumed of the last request of a host, a registration with a proof by the PIN token. -/
structure AsksVerified (E : Env) (cfg : Client.Config) (p : Spec.RelyingParty.Party) (ops : List Op) (token : Bytes)
    (q : Request) (data : Bytes) (args : MakeCredArgs) : Prop where
  command : q.command = 0x90
  payload : q.payload = 1 :: data
  decoded : E.decodeMakeCred data = some args
  party : ∃ rp, args.rp = some rp ∧ rp.id = p.id ∧
    E.approve (after E cfg (boot E cfg) ops).world.asks .makeCredential rp.name [] = true
  user : args.user ≠ none
  params : ∃ a ∈ args.params, a.alg = -7 ∧ a.type = ascii "public-key"
  protocol : args.pinProtocol = 1
  proof : args.pinAuth = some (auth E token args.clientDataHash)
  draws : DistinctDraws E (after E cfg (boot E cfg) (ops ++ [.ctap (1 :: data)])).world.rnd
  few : ops.length < 2 ^ 32

theorem requested_lasts {qs : List Request} : .restart ∉ requested qs := by
  intro h
  rcases requested_ops h with ⟨m, h⟩ | ⟨m, h⟩ <;> cases h

/-- What a host that has a token knows when it asks for something else. -/
theorem host_token (L : Laws E) (hu : Usable E cfg) {pre : List Op} {res : List (Op × Reply)} {qs : List Request} {q : Request}
    {cid : UInt32} {read : List Bytes} (hres : res = (events E cfg (boot E cfg) pre).filter isResult)
    (ht : talk (qs ++ [q]) cid read = events E cfg (after E cfg (boot E cfg) pre) (requested (qs ++ [q])))
    (hf : forAuthenticator q.command = true) {token : Bytes} (htok : HasToken E (talk (qs ++ [q]) cid read).dropLast token) :
    (after E cfg (boot E cfg) (pre ++ requested qs)).alive = true ∧
    token = (after E cfg (boot E cfg) (pre ++ requested qs)).world.client.pinToken ∧
    (after E cfg (boot E cfg) (pre ++ requested qs)).world.client.pinEnabled = true := by
  obtain ⟨a, d', h1, -, -⟩ := last_told hres ht hf
  have ha := answered_alive h1
  rw [ht, requested_snoc hf, events_two] at htok
  have hl : events E cfg (after E cfg (after E cfg (boot E cfg) pre) (requested qs)) [opFor q.command q.payload] =
      [(opFor q.command q.payload, (step E cfg (after E cfg (after E cfg (boot E cfg) pre) (requested qs))
        (opFor q.command q.payload)).1)] := rfl
  rw [hl, List.dropLast_concat] at htok
  obtain ⟨k1, xs, ys, k2, k3, k4⟩ := token_known L requested_lasts htok
  refine ⟨ha, k1, ?_⟩
  rw [k2] at ha ⊢
  exact stays_on L hu (fun op ho => requested_ops (qs := qs) (by rw [k2]; exact List.mem_append_right _ ho)) k3 k4 ha

theorem host_registers (L : Laws E) (hu : Usable E cfg) (hat : CanAttest E (boot E cfg).world.client)
    {pre : List Op} {res : List (Op × Reply)} {qs : List Request} {q : Request}
    {cid : UInt32} {read : List Bytes} (hres : res = (events E cfg (boot E cfg) pre).filter isResult)
    (ht : talk (qs ++ [q]) cid read = events E cfg (after E cfg (boot E cfg) pre) (requested (qs ++ [q])))
    {p : Spec.RelyingParty.Party} (hanchor : Cose.publicOf cfg.certKey = .ok p.anchor) {token data : Bytes} {args : MakeCredArgs}
    (htok : HasToken E (talk (qs ++ [q]) cid read).dropLast token)
    (hask : AsksVerified E cfg p (pre ++ requested qs) token q data args) :
    ∃ body r, (talk (qs ++ [q]) cid read).getLast? = some (.ctap (1 :: data), .answer (0 :: body)) ∧
      Spec.RelyingParty.register E p (Spec.RelyingParty.records E p (res ++ (talk (qs ++ [q]) cid read).dropLast)) args
        (0 :: body) = some r := by
  have hf : forAuthenticator q.command = true := by rw [hask.command]; decide
  obtain ⟨ha, htk, hon⟩ := host_token L hu hres ht hf htok
  obtain ⟨a, d', h1, h2, h3⟩ := last_told hres ht hf
  rw [h3, records_filter]
  have hop : opFor q.command q.payload = .ctap (1 :: data) := by rw [hask.command, hask.payload]; rfl
  rw [hop] at h1 h2
  obtain ⟨hh, hc⟩ := Device.attests_reachable L hu hat _ ha
  obtain ⟨rp, hrp, hid, hyes⟩ := hask.party
  cases hus : args.user with
  | none => exact absurd hus hask.user
  | some user =>
    have hok : PinAuthOk E (after E cfg (boot E cfg) (pre ++ requested qs)).world.client args.clientDataHash args.pinAuth
        args.pinProtocol := ⟨hask.protocol, by rw [hask.proof, htk]; rfl⟩
    obtain ⟨body, w', hw⟩ := C76_valid_creation_succeeds L hh hc hask.decoded hrp hus hask.params (.inr (.inl hok)) hyes
    obtain ⟨-, hd', hm⟩ := Device.ctap_answered h1
    rw [hw] at hm
    cases hm
    have hdr := hask.draws
    rw [Device.after_append, Device.after_cons, h1] at hdr
    obtain ⟨r, hr⟩ := C119_registration_accepted L hu hat p hanchor (pre ++ requested qs) rfl h1 hask.decoded hrp hid
      (fun _ => ⟨hon, by rw [hask.proof]; simp⟩) hdr (Nat.lt_of_le_of_lt List.countP_le_length hask.few)
    exact ⟨body, r, by rw [h2]; simp, hr⟩

/-- What is assumed of the last request of a host, a login with a proof by the PIN token. -/
structure AsksVerifiedLogin (E : Env) (cfg : Client.Config) (p : Spec.RelyingParty.Party) (r : Spec.RelyingParty.Record)
    (ops : List Op) (token : Bytes) (q : Request) (data : Bytes) (args : GetAssertionArgs) : Prop where
  command : q.command = 0x90
  payload : q.payload = 2 :: data
  decoded : E.decodeGetAssertion data = some args
  party : args.rpId = p.id
  allow : ∃ desc : Descriptor, args.allowList = some [desc] ∧ desc.id = r.id
  protocol : args.pinProtocol = 1
  proof : args.pinAuth = some (auth E token args.clientDataHash)
  presence : args.up ≠ some false
  agrees : ∀ rp user, E.approve (after E cfg (boot E cfg) ops).world.asks .getAssertion rp user = true
  draws : DistinctDraws E (after E cfg (boot E cfg) ops).world.rnd
  kept : ∀ op ∈ ops, op ≠ .restart ∧ op ≠ .deleteIdentity r.id
  few : ops.length + 1 < 2 ^ 32

theorem host_verified_login (L : Laws E) (hu : Usable E cfg) {pre : List Op} {res : List (Op × Reply)} {qs : List Request}
    {q : Request} {cid : UInt32} {read : List Bytes} (hres : res = (events E cfg (boot E cfg) pre).filter isResult)
    (ht : talk (qs ++ [q]) cid read = events E cfg (after E cfg (boot E cfg) pre) (requested (qs ++ [q])))
    {p : Spec.RelyingParty.Party} {r : Spec.RelyingParty.Record} {token data : Bytes} {args : GetAssertionArgs}
    (htok : HasToken E (talk (qs ++ [q]) cid read).dropLast token)
    (hreg : HasRegistered E p (res ++ (talk (qs ++ [q]) cid read).dropLast) r)
    (hask : AsksVerifiedLogin E cfg p r (pre ++ requested qs) token q data args) :
    ∃ body r', (talk (qs ++ [q]) cid read).getLast? = some (.ctap (2 :: data), .answer (0 :: body)) ∧
      Spec.RelyingParty.login E p (Spec.RelyingParty.records E p (res ++ (talk (qs ++ [q]) cid read).dropLast)) args
        (0 :: body) = some r' ∧ r'.id = r.id := by
  have hf : forAuthenticator q.command = true := by rw [hask.command]; decide
  obtain ⟨ha, htk, hon⟩ := host_token L hu hres ht hf htok
  refine host_login L hu hres ht hreg ⟨hask.command, hask.payload, hask.decoded, hask.party, hask.allow, ?_,
    fun _ => ⟨hon, by rw [hask.proof]; simp⟩, hask.presence, hask.agrees, hask.draws, hask.kept, hask.few⟩
  exact .inr (.inr ⟨hask.protocol, by rw [hask.proof, htk]; rfl⟩)

/-- **The PIN last set**, in a history of which everything is known, while PIN support is on and tries are left. -/
structure PinNow (E : Env) (cfg : Client.Config) (ops : List Op) (pin : Bytes) : Prop where
  set : ∃ xs op ys, ops = xs ++ op :: ys ∧
    SetTo E (after E cfg (boot E cfg) xs).world.client (op, (step E cfg (after E cfg (boot E cfg) xs) op).1) pin ∧
    ∀ e ∈ events E cfg (step E cfg (after E cfg (boot E cfg) xs) op).2 ys, setsPIN E e = false
  on : pinOn cfg.enablePIN (events E cfg (boot E cfg) ops) = true
  tries : 0 < tries E (events E cfg (boot E cfg) ops)

theorem host_gets_token (L : Laws E) (hu : Usable E cfg) {pre : List Op} {res : List (Op × Reply)} {qs : List Request}
    {q : Request} {cid : UInt32} {read : List Bytes} (hres : res = (events E cfg (boot E cfg) pre).filter isResult)
    (ht : talk (qs ++ [q]) cid read = events E cfg (after E cfg (boot E cfg) pre) (requested (qs ++ [q])))
    {platform : ECDHKey} {key : EC2Key} {secret pin guess : Bytes} (hpin : PinNow E cfg (pre ++ requested qs) pin)
    (hsec : HasSecret E (talk (qs ++ [q]) cid read).dropLast platform key secret)
    (hcmd : q.command = 0x90) (hpay : q.payload = Spec.Pin.request (getPINToken E key secret guess)) :
    (hash E guess = hash E pin → ∃ token, HasToken E (talk (qs ++ [q]) cid read) token) ∧
    (hash E guess ≠ hash E pin → (talk (qs ++ [q]) cid read).getLast? =
      some (.ctap (Spec.Pin.request (getPINToken E key secret guess)), .answer [0x31])) := by
  have hf : forAuthenticator q.command = true := by rw [hcmd]; decide
  obtain ⟨a, d', h1, h2, -⟩ := last_told hres ht hf
  have hop : opFor q.command q.payload = .ctap (Spec.Pin.request (getPINToken E key secret guess)) := by rw [hcmd, hpay]; rfl
  have ha := answered_alive h1
  have hsec' := hsec
  rw [ht, requested_snoc hf, events_two] at hsec'
  have hl : events E cfg (after E cfg (after E cfg (boot E cfg) pre) (requested qs)) [opFor q.command q.payload] =
      [(opFor q.command q.payload, (step E cfg (after E cfg (after E cfg (boot E cfg) pre) (requested qs))
        (opFor q.command q.payload)).1)] := rfl
  rw [hl, List.dropLast_concat] at hsec'
  have hag := secret_agrees L requested_lasts hsec'
  obtain ⟨xs, op, ys, he, hs1, hs2⟩ := hpin.set
  have hon := hpin.on
  have htr := hpin.tries
  rw [hop] at h1 h2
  rw [he] at hag h1 ha hon htr
  obtain ⟨g1, g2, -⟩ := C134_last_set L hu hs1 hs2 rfl ha hon htr hag guess (ascii "0000") (by decide) (by decide) (by decide)
  refine ⟨fun hg => ?_, fun hg => ?_⟩
  · obtain ⟨⟨answer, enc, d2, k1, k2, -⟩, -⟩ := g1 hg
    rw [h1] at k1
    cases k1
    refine ⟨_, platform, key, secret, guess, _, enc, ?_, by rw [h2]; simp, k2, rfl⟩
    obtain ⟨a1, xb, yb, m1, m2⟩ := hsec
    exact ⟨a1, xb, yb, (List.dropLast_sublist _).subset m1, m2⟩
  · have := (g2 hg).1
    rw [h1] at this
    cases this
    rw [h2]
    simp

/-! ### On macOS and over USB/IP -/

/-- **Who knows the PIN gets the token**, on macOS, and nobody else does: a lone host that was told the device's key and asks
for the token with the PIN last set reads it from the device's reports; with another PIN it reads PIN_INVALID. -/
theorem C135_mac_token (L : Laws E) (hu : Usable E cfg) {pre : List Overlap.Event} (hpre : OneAtATime E cfg (Overlap.boot E cfg) pre)
    (hfree : ∀ t ∈ ((Overlap.boot E cfg).run E cfg pre).threads, busy t = false) {evs1 evs2 : List Mac.Event} {s1 s : Mac.State}
    {cid : UInt32} {qs : List Request} {q : Request} (h : OnMac E cfg grow pre evs1 evs2 s1 s cid (qs ++ [q]))
    {platform : ECDHKey} {key : EC2Key} {secret pin guess : Bytes} (hpin : PinNow E cfg (operations pre ++ requested qs) pin)
    (hsec : HasSecret E (talk (qs ++ [q]) cid s.input).dropLast platform key secret)
    (hcmd : q.command = 0x90) (hpay : q.payload = Spec.Pin.request (getPINToken E key secret guess)) :
    (hash E guess = hash E pin → ∃ token, HasToken E (talk (qs ++ [q]) cid s.input) token) ∧
    (hash E guess ≠ hash E pin → (talk (qs ++ [q]) cid s.input).getLast? =
      some (.ctap (Spec.Pin.request (getPINToken E key secret guess)), .answer [0x31])) :=
  host_gets_token L hu (C93_sequential pre hpre hfree).2.2 (mac_host hpre hfree h).1 hpin hsec hcmd hpay

/-- ... and over USB/IP. -/
theorem C135_usbip_token (L : Laws E) (hu : Usable E cfg) {pre : List Overlap.Event}
    (hpre : OneAtATime E cfg (Overlap.boot E cfg) pre)
    (hfree : ∀ t ∈ ((Overlap.boot E cfg).run E cfg pre).threads, busy t = false) {net : UsbIp.Net} {cmds : List Cmd}
    {acts1 acts2 : List Server.Act} {c1 c : Server.Conn} {cid : UInt32} {qs : List Request} {q : Request}
    (h : OverUsbIp E cfg grow pre net cmds acts1 acts2 c1 c cid (qs ++ [q]))
    {platform : ECDHKey} {key : EC2Key} {secret pin guess : Bytes} (hpin : PinNow E cfg (operations pre ++ requested qs) pin)
    (hsec : HasSecret E (talk (qs ++ [q]) cid (Spec.Server.seen cmds c)).dropLast platform key secret)
    (hcmd : q.command = 0x90) (hpay : q.payload = Spec.Pin.request (getPINToken E key secret guess)) :
    (hash E guess = hash E pin → ∃ token, HasToken E (talk (qs ++ [q]) cid (Spec.Server.seen cmds c)) token) ∧
    (hash E guess ≠ hash E pin → (talk (qs ++ [q]) cid (Spec.Server.seen cmds c)).getLast? =
      some (.ctap (Spec.Pin.request (getPINToken E key secret guess)), .answer [0x31])) :=
  host_gets_token L hu (C93_sequential pre hpre hfree).2.2 (usbip_host hpre hfree h).1 hpin hsec hcmd hpay

/-- **With the token the user is verified**, on macOS: a lone host that was told a token, and asks for a registration with a
proof by this token, reads an answer that a relying party accepts, also one that demands user verification. -/
theorem C135_mac_registration (L : Laws E) (hu : Usable E cfg) (hat : CanAttest E (boot E cfg).world.client)
    {pre : List Overlap.Event} (hpre : OneAtATime E cfg (Overlap.boot E cfg) pre)
    (hfree : ∀ t ∈ ((Overlap.boot E cfg).run E cfg pre).threads, busy t = false) {evs1 evs2 : List Mac.Event} {s1 s : Mac.State}
    {cid : UInt32} {qs : List Request} {q : Request} (h : OnMac E cfg grow pre evs1 evs2 s1 s cid (qs ++ [q]))
    {p : Spec.RelyingParty.Party} (hanchor : Cose.publicOf cfg.certKey = .ok p.anchor) {token data : Bytes} {args : MakeCredArgs}
    (htok : HasToken E (talk (qs ++ [q]) cid s.input).dropLast token)
    (hask : AsksVerified E cfg p (operations pre ++ requested qs) token q data args) :
    ∃ body r, (talk (qs ++ [q]) cid s.input).getLast? = some (.ctap (1 :: data), .answer (0 :: body)) ∧
      Spec.RelyingParty.register E p (Spec.RelyingParty.records E p (Spec.Overlap.results ((Overlap.boot E cfg).run E cfg pre) ++
        (talk (qs ++ [q]) cid s.input).dropLast)) args (0 :: body) = some r :=
  host_registers L hu hat (C93_sequential pre hpre hfree).2.2 (mac_host hpre hfree h).1 hanchor htok hask

/-- ... and over USB/IP. -/
theorem C135_usbip_registration (L : Laws E) (hu : Usable E cfg) (hat : CanAttest E (boot E cfg).world.client)
    {pre : List Overlap.Event} (hpre : OneAtATime E cfg (Overlap.boot E cfg) pre)
    (hfree : ∀ t ∈ ((Overlap.boot E cfg).run E cfg pre).threads, busy t = false) {net : UsbIp.Net} {cmds : List Cmd}
    {acts1 acts2 : List Server.Act} {c1 c : Server.Conn} {cid : UInt32} {qs : List Request} {q : Request}
    (h : OverUsbIp E cfg grow pre net cmds acts1 acts2 c1 c cid (qs ++ [q]))
    {p : Spec.RelyingParty.Party} (hanchor : Cose.publicOf cfg.certKey = .ok p.anchor) {token data : Bytes} {args : MakeCredArgs}
    (htok : HasToken E (talk (qs ++ [q]) cid (Spec.Server.seen cmds c)).dropLast token)
    (hask : AsksVerified E cfg p (operations pre ++ requested qs) token q data args) :
    ∃ body r, (talk (qs ++ [q]) cid (Spec.Server.seen cmds c)).getLast? = some (.ctap (1 :: data), .answer (0 :: body)) ∧
      Spec.RelyingParty.register E p (Spec.RelyingParty.records E p (Spec.Overlap.results ((Overlap.boot E cfg).run E cfg pre) ++
        (talk (qs ++ [q]) cid (Spec.Server.seen cmds c)).dropLast)) args (0 :: body) = some r :=
  host_registers L hu hat (C93_sequential pre hpre hfree).2.2 (usbip_host hpre hfree h).1 hanchor htok hask

/-- **Logins** with a proof by the token likewise, on macOS. -/
theorem C135_mac_login (L : Laws E) (hu : Usable E cfg) {pre : List Overlap.Event} (hpre : OneAtATime E cfg (Overlap.boot E cfg) pre)
    (hfree : ∀ t ∈ ((Overlap.boot E cfg).run E cfg pre).threads, busy t = false) {evs1 evs2 : List Mac.Event} {s1 s : Mac.State}
    {cid : UInt32} {qs : List Request} {q : Request} (h : OnMac E cfg grow pre evs1 evs2 s1 s cid (qs ++ [q]))
    {p : Spec.RelyingParty.Party} {r : Spec.RelyingParty.Record} {token data : Bytes} {args : GetAssertionArgs}
    (htok : HasToken E (talk (qs ++ [q]) cid s.input).dropLast token)
    (hreg : HasRegistered E p (Spec.Overlap.results ((Overlap.boot E cfg).run E cfg pre) ++
      (talk (qs ++ [q]) cid s.input).dropLast) r)
    (hask : AsksVerifiedLogin E cfg p r (operations pre ++ requested qs) token q data args) :
    ∃ body r', (talk (qs ++ [q]) cid s.input).getLast? = some (.ctap (2 :: data), .answer (0 :: body)) ∧
      Spec.RelyingParty.login E p (Spec.RelyingParty.records E p (Spec.Overlap.results ((Overlap.boot E cfg).run E cfg pre) ++
        (talk (qs ++ [q]) cid s.input).dropLast)) args (0 :: body) = some r' ∧ r'.id = r.id :=
  host_verified_login L hu (C93_sequential pre hpre hfree).2.2 (mac_host hpre hfree h).1 htok hreg hask

/-- ... and over USB/IP. -/
theorem C135_usbip_login (L : Laws E) (hu : Usable E cfg) {pre : List Overlap.Event}
    (hpre : OneAtATime E cfg (Overlap.boot E cfg) pre)
    (hfree : ∀ t ∈ ((Overlap.boot E cfg).run E cfg pre).threads, busy t = false) {net : UsbIp.Net} {cmds : List Cmd}
    {acts1 acts2 : List Server.Act} {c1 c : Server.Conn} {cid : UInt32} {qs : List Request} {q : Request}
    (h : OverUsbIp E cfg grow pre net cmds acts1 acts2 c1 c cid (qs ++ [q]))
    {p : Spec.RelyingParty.Party} {r : Spec.RelyingParty.Record} {token data : Bytes} {args : GetAssertionArgs}
    (htok : HasToken E (talk (qs ++ [q]) cid (Spec.Server.seen cmds c)).dropLast token)
    (hreg : HasRegistered E p (Spec.Overlap.results ((Overlap.boot E cfg).run E cfg pre) ++
      (talk (qs ++ [q]) cid (Spec.Server.seen cmds c)).dropLast) r)
    (hask : AsksVerifiedLogin E cfg p r (operations pre ++ requested qs) token q data args) :
    ∃ body r', (talk (qs ++ [q]) cid (Spec.Server.seen cmds c)).getLast? = some (.ctap (2 :: data), .answer (0 :: body)) ∧
      Spec.RelyingParty.login E p (Spec.RelyingParty.records E p (Spec.Overlap.results ((Overlap.boot E cfg).run E cfg pre) ++
        (talk (qs ++ [q]) cid (Spec.Server.seen cmds c)).dropLast)) args (0 :: body) = some r' ∧ r'.id = r.id :=
  host_verified_login L hu (C93_sequential pre hpre hfree).2.2 (usbip_host hpre hfree h).1 htok hreg hask

end VF.Props
