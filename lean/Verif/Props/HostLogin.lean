import Verif.Props.Conversation
import Verif.Props.ConversationCases

/-!
# C132: who registered can log in, from any host
-/

namespace VF.Props

open VF.Fido VF.Hid VF.Spec.History VF.Spec.Ctaphid VF.Spec.Live VF.Spec.Calls VF.Spec.Service VF.Spec.Conversation
open VF.Spec.Client VF.Spec.U2f VF.Spec.UsbIp
open VF.Spec.Stack (onChannel)
open VF.Spec.Overlap (busy OneAtATime operations sequential isResult)
open scoped List

variable {E : Env} {cfg : Client.Config} {grow : Nat → Nat → Nat}

/-- What is assumed of the last request of a host, a login with WebAuthn: it is for a credential that was registered, meets
the PIN rules, and asks for a presence that the user will confirm. -/
structure AsksLogin (E : Env) (cfg : Client.Config) (p : Spec.RelyingParty.Party) (r : Spec.RelyingParty.Record) (ops : List Op)
    (q : Request) (data : Bytes) (args : GetAssertionArgs) : Prop where
  command : q.command = 0x90
  payload : q.payload = 2 :: data
  decoded : E.decodeGetAssertion data = some args
  party : args.rpId = p.id
  allow : ∃ desc : Descriptor, args.allowList = some [desc] ∧ desc.id = r.id
  pin : AssertionPinOk E (Device.after E cfg (Device.boot E cfg) ops).world.client args
  verified : p.demandsUV = true →
    (Device.after E cfg (Device.boot E cfg) ops).world.client.pinEnabled = true ∧ args.pinAuth ≠ none
  presence : args.up ≠ some false
  agrees : ∀ rp user, E.approve (Device.after E cfg (Device.boot E cfg) ops).world.asks .getAssertion rp user = true
  draws : DistinctDraws E (Device.after E cfg (Device.boot E cfg) ops).world.rnd
  kept : ∀ op ∈ ops, op ≠ .restart ∧ op ≠ .deleteIdentity r.id
  few : ops.length + 1 < 2 ^ 32

theorem login_history (L : Laws E) (hu : Usable E cfg) {p : Spec.RelyingParty.Party} {r : Spec.RelyingParty.Record} {ops : List Op}
    (hreg : HasRegistered E p ((events E cfg (Device.boot E cfg) ops).filter isResult) r)
    {q : Request} {data : Bytes} {args : GetAssertionArgs} (h : AsksLogin E cfg p r ops q data args)
    (halive : (Device.after E cfg (Device.boot E cfg) ops).alive = true) :
    ∃ body d r', Device.step E cfg (Device.after E cfg (Device.boot E cfg) ops) (.ctap (2 :: data)) = (.answer (0 :: body), d) ∧
      Spec.RelyingParty.login E p (Spec.RelyingParty.records E p ((events E cfg (Device.boot E cfg) ops).filter isResult)) args
        (0 :: body) = some r' ∧ r'.id = r.id := by
  obtain ⟨before, later, data1, b1, args1, heq, h1, h2, h3⟩ := hreg
  obtain ⟨b, c, h4, rfl⟩ := filter_at heq
  obtain ⟨xs, ys, d', rfl, rfl, h5, h6⟩ := events_split h4
  obtain ⟨desc, ha1, ha2⟩ := h.allow
  rw [records_filter] at h3 ⊢
  have hcount : xs.countP isGetAssertion + ys.countP isGetAssertion + 1 < 2 ^ 32 := by
    have := h.few
    have c1 : xs.countP isGetAssertion ≤ _ := List.countP_le_length
    have c2 : ys.countP isGetAssertion ≤ _ := List.countP_le_length
    rw [List.length_append, List.length_cons] at this
    omega
  exact C119_registered_can_login L hu p xs ys rfl h5 h1 h2 h3 h6.symm
    (fun op ho => h.kept op (List.mem_append_right _ (List.mem_cons_of_mem _ ho))) halive h.decoded h.party ha1 ha2 h.pin h.verified
    h.presence h.agrees h.draws hcount

theorem requested_snoc {qs : List Request} {q : Request} (h : forAuthenticator q.command = true) :
    requested (qs ++ [q]) = requested qs ++ [opFor q.command q.payload] := by
  unfold requested wanted
  rw [List.map_append, List.filter_append, List.map_append]
  simp [h]

theorem talk_answers {qs : List Request} {cid : UInt32} {read : List Bytes} : ∀ e ∈ talk qs cid read, ∃ a, e.2 = .answer a := by
  intro e he
  obtain ⟨x, -, rfl⟩ := List.mem_map.1 he
  exact ⟨_, rfl⟩

/-- What a host whose last request is for the authenticator is told, last and before. -/
theorem last_told {pre : List Op} {res : List (Op × Reply)} {qs : List Request} {q : Request} {cid : UInt32} {read : List Bytes}
    (hres : res = (events E cfg (Device.boot E cfg) pre).filter isResult)
    (ht : talk (qs ++ [q]) cid read = events E cfg (Device.after E cfg (Device.boot E cfg) pre) (requested (qs ++ [q])))
    (hf : forAuthenticator q.command = true) :
    ∃ a d', Device.step E cfg (Device.after E cfg (Device.boot E cfg) (pre ++ requested qs)) (opFor q.command q.payload) =
        (.answer a, d') ∧
      talk (qs ++ [q]) cid read = (talk (qs ++ [q]) cid read).dropLast ++ [(opFor q.command q.payload, .answer a)] ∧
      res ++ (talk (qs ++ [q]) cid read).dropLast = (events E cfg (Device.boot E cfg) (pre ++ requested qs)).filter isResult := by
  rw [requested_snoc hf, events_two] at ht
  have hall := talk_answers (qs := qs ++ [q]) (cid := cid) (read := read)
  rw [ht] at hall ⊢
  rw [Device.after_append]
  generalize hd : Device.after E cfg (Device.boot E cfg) pre = d0 at *
  have hl : events E cfg (Device.after E cfg d0 (requested qs)) [opFor q.command q.payload] =
      [(opFor q.command q.payload, (Device.step E cfg (Device.after E cfg d0 (requested qs)) (opFor q.command q.payload)).1)] := rfl
  rw [hl] at hall ⊢
  obtain ⟨a, ha⟩ := hall _ (List.mem_append_right _ (List.mem_singleton.2 rfl))
  dsimp only at ha
  rw [List.dropLast_concat]
  refine ⟨a, _, Prod.ext ha rfl, by rw [ha], ?_⟩
  rw [events_two, List.filter_append, ← hres, hd]
  congr 1
  refine (List.filter_eq_self.2 fun e he => ?_).symm
  obtain ⟨a', ha'⟩ := hall e (List.mem_append_left _ he)
  obtain ⟨op, reply⟩ := e
  obtain rfl : reply = .answer a' := ha'
  rfl

theorem answered_alive {d d' : Device} {op : Op} {a : Bytes} (h : Device.step E cfg d op = (.answer a, d')) : d.alive = true := by
  cases hd : d.alive with
  | true => rfl
  | false =>
    cases op <;> simp [Device.step, hd] at h
    split at h <;> cases h

/-- What is assumed of the last request of a host, a login with U2F: it is for a key that was registered, and the user
will agree or need not be asked. -/
structure AsksU2fLogin (E : Env) (cfg : Client.Config) (p : Spec.U2fParty.Party) (k : Spec.U2fParty.Key) (ops : List Op)
    (q : Request) (challenge : Bytes) : Prop where
  command : q.command = 0x83
  payload : ∃ cla control p2 le, q.payload = apdu cla 2 control p2 (authenticateData challenge p.application k.handle) le ∧
    ((control = 3 ∧ E.approve (Device.after E cfg (Device.boot E cfg) ops).world.asks .u2fAuthenticate [] [] = true) ∨ control = 8)
  challenge : challenge.length = 32
  /-- it has been restarted, if the party checks counters, only when something was saved after the last authentication -/
  kept : p.checksCounter = true → Spec.U2fParty.Settled false (events E cfg (Device.boot E cfg) ops)
  few : ops.length + 2 < 2 ^ 32

theorem host_login (L : Laws E) (hu : Usable E cfg) {pre : List Op} {res : List (Op × Reply)} {qs : List Request} {q : Request}
    {cid : UInt32} {read : List Bytes} (hres : res = (events E cfg (Device.boot E cfg) pre).filter isResult)
    (ht : talk (qs ++ [q]) cid read = events E cfg (Device.after E cfg (Device.boot E cfg) pre) (requested (qs ++ [q])))
    {p : Spec.RelyingParty.Party} {r : Spec.RelyingParty.Record} {data : Bytes} {args : GetAssertionArgs}
    (hreg : HasRegistered E p (res ++ (talk (qs ++ [q]) cid read).dropLast) r)
    (hask : AsksLogin E cfg p r (pre ++ requested qs) q data args) :
    ∃ body r', (talk (qs ++ [q]) cid read).getLast? = some (.ctap (2 :: data), .answer (0 :: body)) ∧
      Spec.RelyingParty.login E p (Spec.RelyingParty.records E p (res ++ (talk (qs ++ [q]) cid read).dropLast)) args
        (0 :: body) = some r' ∧ r'.id = r.id := by
  obtain ⟨a, d', h1, h2, h3⟩ := last_told hres ht (by rw [hask.command]; decide)
  rw [h3] at hreg ⊢
  have hop : opFor q.command q.payload = .ctap (2 :: data) := by rw [hask.command, hask.payload]; rfl
  obtain ⟨body, d, r', g1, g2, g3⟩ := login_history L hu hreg hask (answered_alive h1)
  rw [hop, g1] at h1
  cases h1
  rw [hop] at h2
  exact ⟨body, r', by rw [h2]; simp, g2, g3⟩

theorem host_u2f_login (L : Laws E) (hu : Usable E cfg) {pre : List Op} {res : List (Op × Reply)} {qs : List Request} {q : Request}
    {cid : UInt32} {read : List Bytes} (hres : res = (events E cfg (Device.boot E cfg) pre).filter isResult)
    (ht : talk (qs ++ [q]) cid read = events E cfg (Device.after E cfg (Device.boot E cfg) pre) (requested (qs ++ [q])))
    {p : Spec.U2fParty.Party} {k : Spec.U2fParty.Key} {challenge : Bytes}
    (hreg : k ∈ Spec.U2fParty.keys E p (res ++ (talk (qs ++ [q]) cid read).dropLast))
    (hask : AsksU2fLogin E cfg p k (pre ++ requested qs) q challenge) :
    ∃ b k', (talk (qs ++ [q]) cid read).getLast? = some (.u2f q.payload, .answer b) ∧
      Spec.U2fParty.login E p (Spec.U2fParty.keys E p (res ++ (talk (qs ++ [q]) cid read).dropLast)) challenge k.handle b =
        some k' := by
  obtain ⟨a, d', h1, h2, h3⟩ := last_told hres ht (by rw [hask.command]; decide)
  rw [h3, keys_filter] at hreg ⊢
  have hop : opFor q.command q.payload = .u2f q.payload := by rw [hask.command]; rfl
  obtain ⟨cla, control, p2, le, hp, hag⟩ := hask.payload
  have hc : (pre ++ requested qs).countP isU2fAuthenticate ≤ _ := List.countP_le_length
  have hfew := hask.few
  obtain ⟨b, d, k', g1, g2⟩ := C120_registered_can_login L hu p (pre ++ requested qs) rfl (answered_alive h1) hreg cla control p2 le
    challenge hask.challenge hag (fun hc => ⟨hask.kept hc, by omega⟩)
  rw [hop] at h1 h2
  rw [← hp, h1] at g1
  cases g1
  exact ⟨_, k', by rw [h2]; simp, g2⟩

/-- **On macOS**: somebody registered with a relying party, from this host or before.  Then a login request for this credential,
sent by this host, is answered with success, and the relying party accepts the answer. -/
theorem C132_mac (L : Laws E) (hu : Usable E cfg) {pre : List Overlap.Event} (hpre : OneAtATime E cfg (Overlap.boot E cfg) pre)
    (hfree : ∀ t ∈ ((Overlap.boot E cfg).run E cfg pre).threads, busy t = false) {evs1 evs2 : List Mac.Event} {s1 s : Mac.State}
    {cid : UInt32} {qs : List Request} {q : Request} (h : OnMac E cfg grow pre evs1 evs2 s1 s cid (qs ++ [q]))
    {p : Spec.RelyingParty.Party} {r : Spec.RelyingParty.Record} {data : Bytes} {args : GetAssertionArgs}
    (hreg : HasRegistered E p (Spec.Overlap.results ((Overlap.boot E cfg).run E cfg pre) ++
      (talk (qs ++ [q]) cid s.input).dropLast) r)
    (hask : AsksLogin E cfg p r (operations pre ++ requested qs) q data args) :
    ∃ body r', (talk (qs ++ [q]) cid s.input).getLast? = some (.ctap (2 :: data), .answer (0 :: body)) ∧
      Spec.RelyingParty.login E p (Spec.RelyingParty.records E p (Spec.Overlap.results ((Overlap.boot E cfg).run E cfg pre) ++
        (talk (qs ++ [q]) cid s.input).dropLast)) args (0 :: body) = some r' ∧ r'.id = r.id :=
  host_login L hu (C93_sequential pre hpre hfree).2.2 (mac_host hpre hfree h).1 hreg hask

/-- **Over USB/IP** likewise. -/
theorem C132_usbip (L : Laws E) (hu : Usable E cfg) {pre : List Overlap.Event} (hpre : OneAtATime E cfg (Overlap.boot E cfg) pre)
    (hfree : ∀ t ∈ ((Overlap.boot E cfg).run E cfg pre).threads, busy t = false) {net : UsbIp.Net} {cmds : List Cmd}
    {acts1 acts2 : List Server.Act} {c1 c : Server.Conn} {cid : UInt32} {qs : List Request} {q : Request}
    (h : OverUsbIp E cfg grow pre net cmds acts1 acts2 c1 c cid (qs ++ [q]))
    {p : Spec.RelyingParty.Party} {r : Spec.RelyingParty.Record} {data : Bytes} {args : GetAssertionArgs}
    (hreg : HasRegistered E p (Spec.Overlap.results ((Overlap.boot E cfg).run E cfg pre) ++
      (talk (qs ++ [q]) cid (Spec.Server.seen cmds c)).dropLast) r)
    (hask : AsksLogin E cfg p r (operations pre ++ requested qs) q data args) :
    ∃ body r', (talk (qs ++ [q]) cid (Spec.Server.seen cmds c)).getLast? = some (.ctap (2 :: data), .answer (0 :: body)) ∧
      Spec.RelyingParty.login E p (Spec.RelyingParty.records E p (Spec.Overlap.results ((Overlap.boot E cfg).run E cfg pre) ++
        (talk (qs ++ [q]) cid (Spec.Server.seen cmds c)).dropLast)) args (0 :: body) = some r' ∧ r'.id = r.id :=
  host_login L hu (C93_sequential pre hpre hfree).2.2 (usbip_host hpre hfree h).1 hreg hask

/-- **U2F on macOS.** -/
theorem C132_mac_u2f (L : Laws E) (hu : Usable E cfg) {pre : List Overlap.Event} (hpre : OneAtATime E cfg (Overlap.boot E cfg) pre)
    (hfree : ∀ t ∈ ((Overlap.boot E cfg).run E cfg pre).threads, busy t = false) {evs1 evs2 : List Mac.Event} {s1 s : Mac.State}
    {cid : UInt32} {qs : List Request} {q : Request} (h : OnMac E cfg grow pre evs1 evs2 s1 s cid (qs ++ [q]))
    {p : Spec.U2fParty.Party} {k : Spec.U2fParty.Key} {challenge : Bytes}
    (hreg : k ∈ Spec.U2fParty.keys E p (Spec.Overlap.results ((Overlap.boot E cfg).run E cfg pre) ++
      (talk (qs ++ [q]) cid s.input).dropLast))
    (hask : AsksU2fLogin E cfg p k (operations pre ++ requested qs) q challenge) :
    ∃ b k', (talk (qs ++ [q]) cid s.input).getLast? = some (.u2f q.payload, .answer b) ∧
      Spec.U2fParty.login E p (Spec.U2fParty.keys E p (Spec.Overlap.results ((Overlap.boot E cfg).run E cfg pre) ++
        (talk (qs ++ [q]) cid s.input).dropLast)) challenge k.handle b = some k' :=
  host_u2f_login L hu (C93_sequential pre hpre hfree).2.2 (mac_host hpre hfree h).1 hreg hask

/-- **U2F over USB/IP.** -/
theorem C132_usbip_u2f (L : Laws E) (hu : Usable E cfg) {pre : List Overlap.Event}
    (hpre : OneAtATime E cfg (Overlap.boot E cfg) pre)
    (hfree : ∀ t ∈ ((Overlap.boot E cfg).run E cfg pre).threads, busy t = false) {net : UsbIp.Net} {cmds : List Cmd}
    {acts1 acts2 : List Server.Act} {c1 c : Server.Conn} {cid : UInt32} {qs : List Request} {q : Request}
    (h : OverUsbIp E cfg grow pre net cmds acts1 acts2 c1 c cid (qs ++ [q]))
    {p : Spec.U2fParty.Party} {k : Spec.U2fParty.Key} {challenge : Bytes}
    (hreg : k ∈ Spec.U2fParty.keys E p (Spec.Overlap.results ((Overlap.boot E cfg).run E cfg pre) ++
      (talk (qs ++ [q]) cid (Spec.Server.seen cmds c)).dropLast))
    (hask : AsksU2fLogin E cfg p k (operations pre ++ requested qs) q challenge) :
    ∃ b k', (talk (qs ++ [q]) cid (Spec.Server.seen cmds c)).getLast? = some (.u2f q.payload, .answer b) ∧
      Spec.U2fParty.login E p (Spec.U2fParty.keys E p (Spec.Overlap.results ((Overlap.boot E cfg).run E cfg pre) ++
        (talk (qs ++ [q]) cid (Spec.Server.seen cmds c)).dropLast)) challenge k.handle b = some k' :=
  host_u2f_login L hu (C93_sequential pre hpre hfree).2.2 (usbip_host hpre hfree h).1 hreg hask

/-! ### A host that registers and logs in -/

namespace Conversation

open Toy

def makeRequest : Request := ⟨0x90, makePayload, makePackets⟩
def getRequest : Request := ⟨0x90, getPayload, getPackets⟩

noncomputable def party : Spec.RelyingParty.Party :=
  { id := ascii "example.org", anchor := { ecdsa := some ((toy agree).genEC 0).pub }, demandsUV := false }

theorem example_registered {seen : List (Op × Reply)} {a b : Bytes}
    (ht : seen = events (toy agree) (config false) (Device.boot (toy agree) (config false)) (requested requests))
    (he : seen = [(.ctap makePayload, .answer (0 :: a)), (.ctap getPayload, .answer (0 :: b))])
    (hacc : Accepts (toy agree) party seen) :
    ∃ r, HasRegistered (toy agree) party seen.dropLast r ∧
      AsksLogin (toy agree) (config false) party r (requested [makeRequest]) getRequest (getData (some [made]) none none)
        (getArgs (some [made]) none none) := by
  have hd : (toy agree).decodeMakeCred (makeData [] none) = some (makeArgs [] none) :=
    make_decodes agree [] none (.inl rfl) (by simp)
  rw [he] at hacc
  obtain ⟨r, hr⟩ := hacc.1 [] _ _ _ _ rfl hd (by decide +kernel)
  have hrid : r.id = List.replicate 16 2 := by
    have hq : requested requests = [.ctap makePayload, .ctap getPayload] := rfl
    rw [hq, Device.events_cons, he] at ht
    have h1 := (Prod.mk.inj (List.cons.inj ht).1).2
    obtain ⟨-, -, hm⟩ := Device.ctap_answered (d' := (Device.step (toy agree) (config false) (Device.boot (toy agree) (config false))
      (.ctap makePayload)).2) (Prod.ext h1.symm rfl)
    obtain ⟨args', rp, key, cert, ad, flags, q1, q2, q3, q4, q5, q6, q7, q8, q9, -, -, q12⟩ := Device.register_eq (toy_laws agree) hm
    rw [hd] at q1
    cases q1
    rw [q12] at hr
    split at hr
    · rw [← Option.some.inj hr]
      rfl
    · cases hr
  have hw : (fun d : Device => (d.world.client.pinEnabled, decide (d.world.rnd ≤ 256)))
      (Device.after (quick agree) (config false) (Device.boot (quick agree) (config false)) (requested [makeRequest])) =
      (false, true) := by decide +kernel
  rw [quick_eq, Prod.mk.injEq, decide_eq_true_eq] at hw
  refine ⟨r, ⟨[], [], _, _, _, by rw [he]; rfl, hd, by decide +kernel, hr⟩, ?_⟩
  constructor
  case command => rfl
  case payload => rfl
  case decoded => exact made_decodes agree
  case party => rfl
  case allow => exact ⟨made, rfl, hrid.symm⟩
  case pin => exact .inl hw.1
  case verified => exact fun h => nomatch h
  case presence => exact fun h => nomatch h
  case agrees => exact fun _ _ => rfl
  case draws => exact toy_draws agree hw.2
  case kept =>
    intro op ho
    have : requested [makeRequest] = [.ctap makePayload] := rfl
    rw [this, List.mem_singleton] at ho
    subst ho
    exact ⟨(fun h => nomatch h), (fun h => nomatch h)⟩
  case few => decide +kernel

end Conversation

open Conversation Toy

/-- The host of C131's example, on macOS: what it asks last is a login with what it registered before. -/
theorem C132_mac_case : ∃ (E : Env) (cfg : Client.Config) (grow : Nat → Nat → Nat) (evs1 evs2 : List Mac.Event)
    (s1 s : Mac.State) (qs : List Request) (q : Request) (p : Spec.RelyingParty.Party) (r : Spec.RelyingParty.Record) (data : Bytes)
    (args : GetAssertionArgs), Laws E ∧ Usable E cfg ∧ OnMac E cfg grow [] evs1 evs2 s1 s 1 (qs ++ [q]) ∧
    HasRegistered E p (Spec.Overlap.results ((Overlap.boot E cfg).run E cfg []) ++ (talk (qs ++ [q]) 1 s.input).dropLast) r ∧
    AsksLogin E cfg p r (operations [] ++ requested qs) q data args := by
  obtain ⟨s1, s, a, b, h1, h2, h3⟩ := mac_example
  have hfree : ∀ t ∈ ((Overlap.boot (toy agree) (config false)).run (toy agree) (config false) []).threads, busy t = false :=
    fun t ht => nomatch ht
  have hacc := C131_mac_accepted (toy_laws agree) (config_usable agree false) (boot_attests agree false) (pre := []) trivial hfree
    (fun op ho => nomatch ho) h1 (by decide +kernel) party rfl rfl (toy_draws agree h2)
  obtain ⟨r, k1, k2⟩ := example_registered (C131_mac (pre := []) trivial hfree h1).1 h3 hacc
  exact ⟨toy agree, config false, _, _, _, s1, s, [makeRequest], getRequest, party, r, _, _, toy_laws agree, config_usable _ _, h1,
    k1, k2⟩

/-- ... and over USB/IP. -/
theorem C132_usbip_case : ∃ (E : Env) (cfg : Client.Config) (grow : Nat → Nat → Nat) (net : UsbIp.Net) (cmds : List Cmd)
    (acts1 acts2 : List Server.Act) (c1 c : Server.Conn) (qs : List Request) (q : Request) (p : Spec.RelyingParty.Party)
    (r : Spec.RelyingParty.Record) (data : Bytes) (args : GetAssertionArgs), Laws E ∧ Usable E cfg ∧
    OverUsbIp E cfg grow [] net cmds acts1 acts2 c1 c 1 (qs ++ [q]) ∧
    HasRegistered E p (Spec.Overlap.results ((Overlap.boot E cfg).run E cfg []) ++
      (talk (qs ++ [q]) 1 (Spec.Server.seen cmds c)).dropLast) r ∧
    AsksLogin E cfg p r (operations [] ++ requested qs) q data args := by
  obtain ⟨c1, c, a, b, h1, h2, h3⟩ := usbip_example
  have hfree : ∀ t ∈ ((Overlap.boot (toy agree) (config false)).run (toy agree) (config false) []).threads, busy t = false :=
    fun t ht => nomatch ht
  have hacc := C131_usbip_accepted (toy_laws agree) (config_usable agree false) (boot_attests agree false) (pre := []) trivial hfree
    (fun op ho => nomatch ho) h1 (by decide +kernel) party rfl rfl (toy_draws agree h2)
  obtain ⟨r, k1, k2⟩ := example_registered (C131_usbip (pre := []) trivial hfree h1).1 h3 hacc
  exact ⟨toy agree, config false, _, _, _, _, _, c1, c, [makeRequest], getRequest, party, r, _, _, toy_laws agree,
    config_usable _ _, h1, k1, k2⟩

end VF.Props
