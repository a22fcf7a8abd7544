import Verif.Props.Hosts
import Verif.Props.HostPin

/-!
# C137: who registered through one program can log in through another
-/

namespace VF.Props

open VF.Fido VF.Hid VF.Spec.History VF.Spec.Ctaphid VF.Spec.Live VF.Spec.Calls VF.Spec.Service VF.Spec.Conversation VF.Spec.Hosts
open VF.Spec.Client VF.Spec.U2f VF.Spec.UsbIp VF.Spec.HostPin VF.Spec.PinHistory
open VF.Spec.Pin (getKeyAgreement getPINToken hash auth)
open VF.Spec.Overlap (busy OneAtATime operations sequential isResult)
open VF.Fido.Device (after step boot)
open scoped List

variable {E : Env} {cfg : Client.Config} {grow : Nat → Nat → Nat}

/-- **Logins**: a relying party accepted a registration, in whatever was done `before` (with the results `res`) or in what
came earlier in the order, from whichever program.  A login request for this credential is answered with success, and the
relying party accepts the answer. -/
def LogsIn (E : Env) (cfg : Client.Config) (before : List Op) (res : List (Op × Reply)) (order : List Served) : Prop :=
  ∀ o1 x o2, order = o1 ++ x :: o2 → ∀ (p : Spec.RelyingParty.Party) (r : Spec.RelyingParty.Record) (q : Request) (data : Bytes)
    (args : GetAssertionArgs), x.op = opFor q.command q.payload → HasRegistered E p (res ++ o1.map (·.event)) r →
    AsksLogin E cfg p r (before ++ o1.map (·.op)) q data args →
    ∃ body r', x.reply = .answer (0 :: body) ∧
      Spec.RelyingParty.login E p (Spec.RelyingParty.records E p (res ++ o1.map (·.event))) args (0 :: body) = some r' ∧
      r'.id = r.id

/-- **U2F logins.** -/
def LogsInU2f (E : Env) (cfg : Client.Config) (before : List Op) (res : List (Op × Reply)) (order : List Served) : Prop :=
  ∀ o1 x o2, order = o1 ++ x :: o2 → ∀ (p : Spec.U2fParty.Party) (k : Spec.U2fParty.Key) (q : Request) (challenge : Bytes),
    x.op = opFor q.command q.payload → k ∈ Spec.U2fParty.keys E p (res ++ o1.map (·.event)) →
    AsksU2fLogin E cfg p k (before ++ o1.map (·.op)) q challenge →
    ∃ b k', x.reply = .answer b ∧
      Spec.U2fParty.login E p (Spec.U2fParty.keys E p (res ++ o1.map (·.event))) challenge k.handle b = some k'

/-- **The PIN** last set, by whichever program, gets the token, and no other does. -/
def PinOpens (E : Env) (cfg : Client.Config) (before : List Op) (order : List Served) : Prop :=
  ∀ o1 x o2, order = o1 ++ x :: o2 → ∀ (platform : ECDHKey) (key : EC2Key) (secret pin guess : Bytes),
    x.op = .ctap (Spec.Pin.request (getPINToken E key secret guess)) → PinNow E cfg (before ++ o1.map (·.op)) pin →
    HasSecret E ((of x.channel o1).map (·.event)) platform key secret →
    (hash E guess = hash E pin → ∃ token, HasToken E ((of x.channel (o1 ++ [x])).map (·.event)) token) ∧
    (hash E guess ≠ hash E pin → x.reply = .answer [0x31])

/-- **Registrations with a token** that the program was told are accepted, also by a party that demands user verification. -/
def RegistersVerified (E : Env) (cfg : Client.Config) (before : List Op) (res : List (Op × Reply)) (order : List Served) : Prop :=
  ∀ o1 x o2, order = o1 ++ x :: o2 → ∀ (p : Spec.RelyingParty.Party) (q : Request) (token data : Bytes) (args : MakeCredArgs),
    Cose.publicOf cfg.certKey = .ok p.anchor → x.op = opFor q.command q.payload →
    HasToken E ((of x.channel o1).map (·.event)) token →
    AsksVerified E cfg p (before ++ o1.map (·.op)) token q data args →
    ∃ body r, x.reply = .answer (0 :: body) ∧
      Spec.RelyingParty.register E p (Spec.RelyingParty.records E p (res ++ o1.map (·.event))) args (0 :: body) = some r

/-- **Logins with a token** likewise. -/
def LogsInVerified (E : Env) (cfg : Client.Config) (before : List Op) (res : List (Op × Reply)) (order : List Served) : Prop :=
  ∀ o1 x o2, order = o1 ++ x :: o2 → ∀ (p : Spec.RelyingParty.Party) (r : Spec.RelyingParty.Record) (q : Request)
    (token data : Bytes) (args : GetAssertionArgs), x.op = opFor q.command q.payload →
    HasToken E ((of x.channel o1).map (·.event)) token → HasRegistered E p (res ++ o1.map (·.event)) r →
    AsksVerifiedLogin E cfg p r (before ++ o1.map (·.op)) token q data args →
    ∃ body r', x.reply = .answer (0 :: body) ∧
      Spec.RelyingParty.login E p (Spec.RelyingParty.records E p (res ++ o1.map (·.event))) args (0 :: body) = some r' ∧
      r'.id = r.id

/-- Where in the order a request was answered. -/
theorem order_told {pre : List Op} {res : List (Op × Reply)} {order o1 o2 : List Served} {x : Served}
    (hres : res = (events E cfg (boot E cfg) pre).filter isResult)
    (ha : order.map (·.event) = events E cfg (after E cfg (boot E cfg) pre) (order.map (·.op)))
    (hq : ∀ x ∈ order, IsRequest x) (he : order = o1 ++ x :: o2) :
    ∃ a d', step E cfg (after E cfg (boot E cfg) (pre ++ o1.map (·.op))) x.op = (.answer a, d') ∧ x.reply = .answer a ∧
      o1.map (·.event) = events E cfg (after E cfg (boot E cfg) pre) (o1.map (·.op)) ∧
      res ++ o1.map (·.event) = (events E cfg (boot E cfg) (pre ++ o1.map (·.op))).filter isResult := by
  subst he
  rw [List.map_append, List.map_append, events_two] at ha
  have hlen : (o1.map (·.event)).length = (events E cfg (after E cfg (boot E cfg) pre) (o1.map (·.op))).length := by
    rw [events_count, List.length_map, List.length_map]
  obtain ⟨h1, h2⟩ := List.append_inj ha hlen
  rw [List.map_cons, List.map_cons, Device.events_cons] at h2
  have h3 := (List.cons.inj h2).1
  obtain ⟨a, hx⟩ := (hq x (List.mem_append_right _ (List.mem_cons_self ..))).2
  have h4 : x.reply = (step E cfg (after E cfg (after E cfg (boot E cfg) pre) (o1.map (·.op))) x.op).1 := congrArg Prod.snd h3
  rw [Device.after_append]
  refine ⟨a, _, Prod.ext (h4.symm.trans hx) rfl, hx, h1, ?_⟩
  rw [events_two, List.filter_append, ← hres, ← h1]
  congr 1
  refine (List.filter_eq_self.2 fun e he => ?_).symm
  obtain ⟨y, hy, rfl⟩ := List.mem_map.1 he
  obtain ⟨b, hb⟩ := (hq y (List.mem_append_left _ hy)).2
  show isResult (y.op, y.reply) = true
  rw [hb]
  rfl

theorem of_events {cid : UInt32} {o : List Served} : (of cid o).map (·.event) ⊆ o.map (·.event) :=
  (List.filter_sublist.map _).subset

theorem HasSecret.mono {told more : List (Op × Reply)} (h : told ⊆ more) {platform : ECDHKey} {key : EC2Key} {secret : Bytes}
    (hs : HasSecret E told platform key secret) : HasSecret E more platform key secret := by
  obtain ⟨a, xb, yb, h1, h2⟩ := hs
  exact ⟨a, xb, yb, h h1, h2⟩

theorem HasToken.mono {told more : List (Op × Reply)} (h : told ⊆ more) {token : Bytes}
    (hs : HasToken E told token) : HasToken E more token := by
  obtain ⟨platform, key, secret, pin, a, enc, h1, h2, h3⟩ := hs
  exact ⟨platform, key, secret, pin, a, enc, HasSecret.mono h h1, h h2, h3⟩

theorem order_requests {order o1 o2 : List Served} (hq : ∀ x ∈ order, IsRequest x) (he : order = o1 ++ o2) :
    ∀ op ∈ o1.map (·.op), (∃ m, op = .ctap m) ∨ ∃ m, op = .u2f m := by
  intro op ho
  obtain ⟨y, hy, rfl⟩ := List.mem_map.1 ho
  exact (hq y (by rw [he]; exact List.mem_append_left _ hy)).1

theorem requests_last {ops : List Op} (h : ∀ op ∈ ops, (∃ m, op = .ctap m) ∨ ∃ m, op = .u2f m) : .restart ∉ ops := by
  intro hm
  rcases h _ hm with ⟨m, h⟩ | ⟨m, h⟩ <;> cases h

section

variable {pre : List Op} {res : List (Op × Reply)} {order : List Served}
  (hres : res = (events E cfg (boot E cfg) pre).filter isResult)
  (ha : order.map (·.event) = events E cfg (after E cfg (boot E cfg) pre) (order.map (·.op)))
  (hq : ∀ x ∈ order, IsRequest x)

include hres ha hq

theorem order_token (L : Laws E) (hu : Usable E cfg) {o1 o2 : List Served} {x : Served} (he : order = o1 ++ x :: o2)
    {token : Bytes} (htok : HasToken E ((of x.channel o1).map (·.event)) token) :
    token = (after E cfg (boot E cfg) (pre ++ o1.map (·.op))).world.client.pinToken ∧
    (after E cfg (boot E cfg) (pre ++ o1.map (·.op))).world.client.pinEnabled = true := by
  obtain ⟨a, d', h1, -, h3, -⟩ := order_told hres ha hq he
  have halive := answered_alive h1
  have hreqs := order_requests hq he
  have htok' := HasToken.mono of_events htok
  rw [h3] at htok'
  obtain ⟨k1, xs, ys, k2, k3, k4⟩ := token_known L (requests_last hreqs) htok'
  refine ⟨k1, ?_⟩
  rw [k2] at halive hreqs ⊢
  exact stays_on L hu (fun op ho => hreqs op (List.mem_append_right _ ho)) k3 k4 halive

theorem logsIn (L : Laws E) (hu : Usable E cfg) : LogsIn E cfg pre res order := by
  intro o1 x o2 he p r q data args hx hreg hask
  obtain ⟨a, d', h1, h2, -, h4⟩ := order_told hres ha hq he
  rw [h4] at hreg ⊢
  have hop : x.op = .ctap (2 :: data) := by rw [hx, hask.command, hask.payload]; rfl
  obtain ⟨body, d, r', g1, g2, g3⟩ := login_history L hu hreg hask (answered_alive h1)
  rw [hop, g1] at h1
  cases h1
  exact ⟨body, r', h2, g2, g3⟩

theorem logsInU2f (L : Laws E) (hu : Usable E cfg) : LogsInU2f E cfg pre res order := by
  intro o1 x o2 he p k q challenge hx hreg hask
  obtain ⟨a, d', h1, h2, -, h4⟩ := order_told hres ha hq he
  rw [h4, keys_filter] at hreg ⊢
  have hop : x.op = .u2f q.payload := by rw [hx, hask.command]; rfl
  obtain ⟨cla, control, p2, le, hp, hag⟩ := hask.payload
  have hc : (pre ++ o1.map (·.op)).countP isU2fAuthenticate ≤ _ := List.countP_le_length
  have hfew := hask.few
  obtain ⟨b, d, k', g1, g2⟩ := C120_registered_can_login L hu p (pre ++ o1.map (·.op)) rfl (answered_alive h1) hreg cla control p2 le
    challenge hask.challenge hag (fun hc => ⟨hask.kept hc, by omega⟩)
  rw [hop] at h1
  rw [← hp, h1] at g1
  cases g1
  exact ⟨_, k', h2, g2⟩

theorem pinOpens (L : Laws E) (hu : Usable E cfg) : PinOpens E cfg pre order := by
  intro o1 x o2 he platform key secret pin guess hop hpin hsec
  obtain ⟨a, d', h1, h2, h3, -⟩ := order_told hres ha hq he
  have halive := answered_alive h1
  have hsec' := HasSecret.mono of_events hsec
  rw [h3] at hsec'
  have hag := secret_agrees L (requests_last (order_requests hq he)) hsec'
  obtain ⟨xs, op, ys, hops, hs1, hs2⟩ := hpin.set
  have hon := hpin.on
  have htr := hpin.tries
  rw [hop] at h1
  rw [hops] at hag h1 halive hon htr
  obtain ⟨g1, g2, -⟩ := C134_last_set L hu hs1 hs2 rfl halive hon htr hag guess (ascii "0000") (by decide) (by decide) (by decide)
  have hof : of x.channel (o1 ++ [x]) = of x.channel o1 ++ [x] := by
    unfold of
    rw [List.filter_append]
    congr 1
    simp
  refine ⟨fun hg => ?_, fun hg => ?_⟩
  · obtain ⟨⟨answer, enc, d2, k1, k2, -⟩, -⟩ := g1 hg
    rw [h1] at k1
    cases k1
    refine ⟨_, platform, key, secret, guess, _, enc, ?_, ?_, k2, rfl⟩
    · refine HasSecret.mono ?_ hsec
      rw [hof, List.map_append]
      exact List.subset_append_left ..
    · rw [hof, List.map_append]
      refine List.mem_append_right _ (List.mem_singleton.2 ?_)
      show _ = (x.op, x.reply)
      rw [hop, h2]
  · have := (g2 hg).1
    rw [h1] at this
    cases this
    exact h2

theorem registersVerified (L : Laws E) (hu : Usable E cfg) (hat : CanAttest E (boot E cfg).world.client) :
    RegistersVerified E cfg pre res order := by
  intro o1 x o2 he p q token data args hanchor hx htok hask
  obtain ⟨htk, hon⟩ := order_token hres ha hq L hu he htok
  obtain ⟨a, d', h1, h2, -, h4⟩ := order_told hres ha hq he
  have halive := answered_alive h1
  rw [h4, records_filter]
  have hop : x.op = .ctap (1 :: data) := by rw [hx, hask.command, hask.payload]; rfl
  rw [hop] at h1
  obtain ⟨hh, hc⟩ := Device.attests_reachable L hu hat _ halive
  obtain ⟨rp, hrp, hid, hyes⟩ := hask.party
  cases hus : args.user with
  | none => exact absurd hus hask.user
  | some user =>
    have hok : PinAuthOk E (after E cfg (boot E cfg) (pre ++ o1.map (·.op))).world.client args.clientDataHash args.pinAuth
        args.pinProtocol := ⟨hask.protocol, by rw [hask.proof, htk]; rfl⟩
    obtain ⟨body, w', hw⟩ := C76_valid_creation_succeeds L hh hc hask.decoded hrp hus hask.params (.inr (.inl hok)) hyes
    obtain ⟨-, hd', hm⟩ := Device.ctap_answered h1
    rw [hw] at hm
    cases hm
    have hdr := hask.draws
    rw [Device.after_append, Device.after_cons, h1] at hdr
    obtain ⟨r, hr⟩ := C119_registration_accepted L hu hat p hanchor (pre ++ o1.map (·.op)) rfl h1 hask.decoded hrp hid
      (fun _ => ⟨hon, by rw [hask.proof]; simp⟩) hdr (Nat.lt_of_le_of_lt List.countP_le_length hask.few)
    exact ⟨body, r, h2, hr⟩

theorem logsInVerified (L : Laws E) (hu : Usable E cfg) : LogsInVerified E cfg pre res order := by
  intro o1 x o2 he p r q token data args hx htok hreg hask
  obtain ⟨htk, hon⟩ := order_token hres ha hq L hu he htok
  refine logsIn hres ha hq L hu o1 x o2 he p r q data args hx hreg ⟨hask.command, hask.payload, hask.decoded, hask.party,
    hask.allow, ?_, fun _ => ⟨hon, by rw [hask.proof]; simp⟩, hask.presence, hask.agrees, hask.draws, hask.kept, hask.few⟩
  exact .inr (.inr ⟨hask.protocol, by rw [hask.proof, htk]; rfl⟩)

end

/-- **On macOS**, any number of programs using the device at once (C136): in the order in which they were served, whoever
registered before can log in, through whichever program; who knows the PIN gets the token; with a token the user is
verified. -/
theorem C137_mac (L : Laws E) (hu : Usable E cfg) (hat : CanAttest E (boot E cfg).world.client)
    {pre : List Overlap.Event} (hpre : OneAtATime E cfg (Overlap.boot E cfg) pre)
    (hfree : ∀ t ∈ ((Overlap.boot E cfg).run E cfg pre).threads, busy t = false) {evs : List Mac.Event} {s : Mac.State}
    (h : UsedOnMac E cfg grow pre evs s) :
    ∃ order : List Served,
      OneOrder E cfg (operations pre) (sequential s.live.proc.mem) (Spec.Mac.sent evs) order ∧
      Spec.Overlap.results s.live.proc = Spec.Overlap.results ((Overlap.boot E cfg).run E cfg pre) ++ order.map (·.event) ∧
      (∀ cid qs, HostOnMac E cfg grow pre evs cid qs →
        talk qs cid s.input = (of cid order).map (·.event) ∧ requested qs = (of cid order).map (·.op)) ∧
      LogsIn E cfg (operations pre) (Spec.Overlap.results ((Overlap.boot E cfg).run E cfg pre)) order ∧
      LogsInU2f E cfg (operations pre) (Spec.Overlap.results ((Overlap.boot E cfg).run E cfg pre)) order ∧
      PinOpens E cfg (operations pre) order ∧
      RegistersVerified E cfg (operations pre) (Spec.Overlap.results ((Overlap.boot E cfg).run E cfg pre)) order ∧
      LogsInVerified E cfg (operations pre) (Spec.Overlap.results ((Overlap.boot E cfg).run E cfg pre)) order := by
  obtain ⟨order, h1, h0, -, h3, h4⟩ := mac_hosts hpre hfree h
  have hres := (C93_sequential pre hpre hfree).2.2
  exact ⟨order, h1, h0, h4, logsIn hres h1.answered h3 L hu, logsInU2f hres h1.answered h3 L hu, pinOpens hres h1.answered h3 L hu,
    registersVerified hres h1.answered h3 L hu hat, logsInVerified hres h1.answered h3 L hu⟩

/-- **Over USB/IP** likewise. -/
theorem C137_usbip (L : Laws E) (hu : Usable E cfg) (hat : CanAttest E (boot E cfg).world.client)
    {pre : List Overlap.Event} (hpre : OneAtATime E cfg (Overlap.boot E cfg) pre)
    (hfree : ∀ t ∈ ((Overlap.boot E cfg).run E cfg pre).threads, busy t = false) {net : UsbIp.Net} {cmds : List Cmd}
    {acts : List Server.Act} {c : Server.Conn} (h : UsedOverUsbIp E cfg grow pre net cmds acts c) :
    ∃ order : List Served,
      OneOrder E cfg (operations pre) (sequential c.dev.hid.proc.mem) (Spec.Server.given c) order ∧
      Spec.Overlap.results c.dev.hid.proc = Spec.Overlap.results ((Overlap.boot E cfg).run E cfg pre) ++ order.map (·.event) ∧
      (∀ cid qs, HostOverUsbIp E cfg grow pre net cmds acts c cid qs →
        talk qs cid (Spec.Server.seen cmds c) = (of cid order).map (·.event) ∧ requested qs = (of cid order).map (·.op)) ∧
      LogsIn E cfg (operations pre) (Spec.Overlap.results ((Overlap.boot E cfg).run E cfg pre)) order ∧
      LogsInU2f E cfg (operations pre) (Spec.Overlap.results ((Overlap.boot E cfg).run E cfg pre)) order ∧
      PinOpens E cfg (operations pre) order ∧
      RegistersVerified E cfg (operations pre) (Spec.Overlap.results ((Overlap.boot E cfg).run E cfg pre)) order ∧
      LogsInVerified E cfg (operations pre) (Spec.Overlap.results ((Overlap.boot E cfg).run E cfg pre)) order := by
  obtain ⟨⟨order, h1, h0, -, h3, h4⟩, -⟩ := usbip_hosts hpre hfree h
  have hres := (C93_sequential pre hpre hfree).2.2
  exact ⟨order, h1, h0, h4, logsIn hres h1.answered h3 L hu, logsInU2f hres h1.answered h3 L hu, pinOpens hres h1.answered h3 L hu,
    registersVerified hres h1.answered h3 L hu hat, logsInVerified hres h1.answered h3 L hu⟩

end VF.Props
