import Verif.Props.HostLogin

/-!
# A host that registers and logs in with U2F, by reports
-/

namespace VF.Props

open Fido Hid Spec.Client Spec.Platform Spec.History Spec.Service Spec.Live Spec.Conversation Spec.Ctaphid Spec.U2f Toy
open Spec.Stack (onChannel)
open Spec.Overlap (busy operations)
open Live.Example (grow0 initReport ended)

namespace Conversation

def regPayload : Bytes := apdu 0 1 0 0 (List.replicate 32 4 ++ application) none
noncomputable def authPayload : Bytes := apdu 0 2 3 0 (authenticateData (List.replicate 32 6) application handle) none
def regPackets : List Bytes := hostPackets 1 0x83 regPayload (List.replicate (116 - regPayload.length) 0)
noncomputable def authPackets : List Bytes := hostPackets 1 0x83 authPayload (List.replicate (293 - authPayload.length) 0)
def regRequest : Request := ⟨0x83, regPayload, regPackets⟩
noncomputable def authRequest : Request := ⟨0x83, authPayload, authPackets⟩
noncomputable def u2fRequests : List Request := [regRequest, authRequest]

theorem u2fRequests_wellSent : ∀ q ∈ u2fRequests, q.WellSent 1 := by
  intro q hq
  simp only [u2fRequests, List.mem_cons, List.not_mem_nil, or_false] at hq
  rcases hq with rfl | rfl
  · exact ⟨by unfold Begins; decide, regPayload.take 57, [regPayload.drop 57 ++ List.replicate (116 - regPayload.length) 0],
      by decide +kernel, by decide +kernel, by decide +kernel, by decide +kernel, by decide +kernel, by decide +kernel⟩
  · exact ⟨by unfold Begins; decide, authPayload.take 57, [(authPayload.drop 57).take 59, (authPayload.drop 116).take 59,
      (authPayload.drop 175).take 59, authPayload.drop 234 ++ List.replicate (293 - authPayload.length) 0],
      by decide +kernel, by decide +kernel, by decide +kernel, by decide +kernel, by decide +kernel, by decide +kernel⟩

noncomputable def u2fWork : List Mac.Event :=
  (regPackets ++ authPackets).map .setReport ++ [.notice] ++ steps 1 3 ++ [.notice] ++ steps 2 3 ++
  List.replicate 8 (.inside (.work 0)) ++ [.inside (.return 2)] ++ steps 2 8 ++
  [.notice] ++ steps 3 3 ++ [.notice] ++ steps 4 3 ++ [.notice] ++ steps 5 3 ++ [.notice] ++ steps 6 3 ++ [.notice] ++ steps 7 3 ++
  List.replicate 6 (.inside (.work 1)) ++ [.inside (.return 7)] ++ steps 7 3

def toldU2f (seen : List (Op × Reply)) : List (Op × Bool) :=
  seen.map fun x => (x.1, match x.2 with | .answer a => (succeeded a).isSome | _ => false)

theorem toldU2f_spec {seen : List (Op × Reply)} {op1 op2 : Op} (h : toldU2f seen = [(op1, true), (op2, true)]) :
    ∃ a b, seen = [(op1, .answer a), (op2, .answer b)] ∧ succeeded a ≠ none ∧ succeeded b ≠ none := by
  have key : ∀ r : Reply, (match r with | .answer a => (succeeded a).isSome | _ => false) = true →
      ∃ a, r = .answer a ∧ succeeded a ≠ none := by
    intro r hr
    cases r with
    | answer a => exact ⟨a, rfl, fun e => by dsimp only at hr; rw [e] at hr; cases hr⟩
    | _ => cases hr
  rcases seen with _ | ⟨x, _ | ⟨y, _ | ⟨z, l⟩⟩⟩
  · cases h
  · simp [toldU2f] at h
  · simp only [toldU2f, List.map_cons, List.map_nil, List.cons.injEq, Prod.mk.injEq, and_true] at h
    obtain ⟨⟨rfl, h2⟩, rfl, h4⟩ := h
    obtain ⟨a, ha, ha'⟩ := key _ h2
    obtain ⟨b, hb, hb'⟩ := key _ h4
    exact ⟨a, b, by rw [← ha, ← hb], ha', hb'⟩
  · simp [toldU2f] at h

noncomputable def macU2fCheck (s : Mac.State) : Bool :=
  ended s.live && !s.live.hid.crashed && s.live.proc.alive && (s.live.proc.threads.all fun t => !Spec.Overlap.busy t) &&
    s.notices == 0 && fits (Spec.Overlap.results s.live.proc) &&
    (toldU2f (talk u2fRequests 1 s.input) == [(.u2f regPayload, true), (.u2f authPayload, true)]) &&
    decide ((Spec.Overlap.sequential s.live.proc.mem).rnd ≤ 256)

theorem mac_u2f_summary : (macAt (quick agree) (Mac.Example.hello ++ u2fWork)).any macU2fCheck = true := by decide +kernel

open Stack.Demo (give ask)

noncomputable def u2fSession : List Spec.UsbIp.Cmd :=
  [give 1 initReport, ask 2] ++ (regPackets.zip [3, 4]).map (fun x => give x.2 x.1) ++
  [ask 5, ask 6, ask 7, ask 8, ask 9, ask 10] ++ (authPackets.zip [11, 12, 13, 14, 15]).map (fun x => give x.2 x.1) ++ [ask 16]

def usbU2fWork : List Server.Act :=
  [.command] ++ acts 1 3 ++ [.command] ++ acts 2 3 ++ List.replicate 8 (.inside (.work 0)) ++
  [.inside (.return 2)] ++ acts 2 2 ++ fetch 2 ++ fetch 2 ++ fetch 2 ++ fetch 2 ++ fetch 2 ++ fetch 2 ++
  [.command] ++ acts 3 3 ++ [.command] ++ acts 4 3 ++ [.command] ++ acts 5 3 ++ [.command] ++ acts 6 3 ++ [.command] ++ acts 7 3 ++
  List.replicate 6 (.inside (.work 1)) ++ [.inside (.return 7)] ++ acts 7 2 ++ fetch 7

noncomputable def usbU2fAt (E : Env) (l : List Server.Act) : Option Server.Conn :=
  Server.exec Stack.Demo.net E (config false) grow0 l (Spec.Server.start u2fSession (Overlap.boot E (config false)))

noncomputable def usbU2fCheck (c : Server.Conn) : Bool :=
  !c.dev.crashed && ended c.dev.hid && (c.dev.hid.proc.threads.all fun t => !Spec.Overlap.busy t) &&
    (Spec.Server.held c).isEmpty && c.dev.outbox.isEmpty && fits (Spec.Overlap.results c.dev.hid.proc) &&
    (onChannel 1 (Spec.Server.given c) == u2fRequests.flatMap (·.packets)) &&
    ((Spec.Server.given c).all fun m => channelOf m == some 1 || channelOf m == some 0xFFFFFFFF) &&
    (toldU2f (talk u2fRequests 1 (Spec.Server.seen u2fSession c)) == [(.u2f regPayload, true), (.u2f authPayload, true)]) &&
    decide ((Spec.Overlap.sequential c.dev.hid.proc.mem).rnd ≤ 256)

theorem usb_u2f_summary : (usbU2fAt (quick agree) (Server.Example.hello ++ usbU2fWork)).any usbU2fCheck = true := by
  decide +kernel

theorem u2fSession_driver : Server.Driver Stack.Demo.net u2fSession where
  full := Stack.Demo.net_full
  session := by
    have hlen : ∀ p ∈ regPackets ++ authPackets, p.length < 2 ^ 32 := by decide +kernel
    refine ⟨?_, by decide +kernel⟩
    intro cmd h
    simp only [u2fSession, List.mem_append, List.mem_cons, List.not_mem_nil, or_false, List.mem_map] at h
    rcases h with ((((h | h) | ⟨⟨p, n⟩, hp, h⟩) | h | h | h | h | h | h) | ⟨⟨p, n⟩, hp, h⟩) | h <;> subst h
    case inl.inl.inl.inl.inl => exact Stack.Demo.give_usual _ _ (by decide)
    case inl.inl.inl.inr =>
      exact Stack.Demo.give_usual _ _ (hlen p (List.mem_append_left _ (List.of_mem_zip hp).1))
    case inl.inr =>
      exact Stack.Demo.give_usual _ _ (hlen p (List.mem_append_right _ (List.of_mem_zip hp).1))
    all_goals exact Stack.Demo.ask_usual _
  short := by decide +kernel
  few := by decide +kernel

theorem mac_u2f_example : ∃ (s1 s : Mac.State) (a b : Bytes),
    OnMac (toy agree) (config false) grow0 [] Mac.Example.hello u2fWork s1 s 1 u2fRequests ∧
    (Spec.Overlap.sequential s.live.proc.mem).rnd ≤ 256 ∧
    talk u2fRequests 1 s.input = [(.u2f regPayload, .answer a), (.u2f authPayload, .answer b)] ∧ succeeded a ≠ none ∧ succeeded b ≠ none := by
  have h1 : (Mac.Example.at' Mac.Example.hello).map (fun s => s.input.elem (initAnswer [1, 2, 3, 4, 5, 6, 7, 8] 1)) =
      some true := by decide +kernel
  obtain ⟨s1, hs1, h1⟩ := Option.map_eq_some_iff.mp h1
  have h := mac_u2f_summary
  rw [quick_eq, Option.any_eq_true] at h
  obtain ⟨s, hs, h⟩ := h
  simp only [macU2fCheck, Bool.and_eq_true, Bool.not_eq_true', beq_iff_eq, decide_eq_true_eq] at h
  obtain ⟨⟨⟨⟨⟨⟨⟨g1, g2⟩, g3⟩, g4⟩, g5⟩, g6⟩, g7⟩, g8⟩ := h
  obtain ⟨a, b, hab, ha, hb⟩ := toldU2f_spec g7
  refine ⟨s1, s, a, b, ?_, g8, hab, ha, hb⟩
  constructor
  case run1 => exact hs1
  case run =>
    have e : macAt (toy agree) (Mac.Example.hello ++ u2fWork) = (Mac.Example.at' Mac.Example.hello).bind fun s' =>
        s'.run (toy agree) (config false) grow0 u2fWork := Mac.run_append Mac.Example.hello u2fWork Mac.Example.boot
    rw [hs1, Option.bind_some] at e
    rw [← e]
    exact hs
  case api =>
    intro op h
    have : ∀ e ∈ Mac.Example.hello ++ u2fWork, (match e with | .inside (.api _) => false | _ => true) = true := by
      decide +kernel
    have := this _ h
    cases this
  case calm => exact ⟨g2, g3⟩
  case short => decide +kernel
  case few => decide +kernel
  case paced => exact Mac.Example.paced_of_few (by decide +kernel)
  case rest =>
    refine Mac.C107_rest (Live.Example.ended_idle g1) ?_ g5
    intro t ht
    have := List.all_eq_true.mp g4 t ht
    simpa using this
  case channel => exact ⟨by decide, [1, 2, 3, 4, 5, 6, 7, 8], rfl, List.elem_iff.mp h1⟩
  case new => decide +kernel
  case alone => decide +kernel
  case wellSent => exact u2fRequests_wellSent
  case sent => decide +kernel
  case sizes => exact fits_spec g6

theorem usbip_u2f_example : ∃ (c1 c : Server.Conn) (a b : Bytes),
    OverUsbIp (toy agree) (config false) grow0 [] Stack.Demo.net u2fSession Server.Example.hello usbU2fWork c1 c 1 u2fRequests ∧
    (Spec.Overlap.sequential c.dev.hid.proc.mem).rnd ≤ 256 ∧
    talk u2fRequests 1 (Spec.Server.seen u2fSession c) =
      [(.u2f regPayload, .answer a), (.u2f authPayload, .answer b)] ∧ succeeded a ≠ none ∧ succeeded b ≠ none := by
  have h1 : (usbU2fAt (toy agree) Server.Example.hello).map (fun c =>
      ((Spec.Server.received u2fSession c).elem (initAnswer [1, 2, 3, 4, 5, 6, 7, 8] 1),
        onChannel 1 (Spec.Server.given c))) = some (true, []) := by decide +kernel
  obtain ⟨c1, hc1, h1⟩ := Option.map_eq_some_iff.mp h1
  simp only [Prod.mk.injEq] at h1
  have h := usb_u2f_summary
  rw [quick_eq, Option.any_eq_true] at h
  obtain ⟨c, hc, h⟩ := h
  simp only [usbU2fCheck, Bool.and_eq_true, Bool.not_eq_true', beq_iff_eq, decide_eq_true_eq, List.isEmpty_iff] at h
  obtain ⟨⟨⟨⟨⟨⟨⟨⟨⟨g1, g2⟩, g3⟩, g4⟩, g5⟩, g6⟩, g7⟩, g8⟩, g9⟩, g10⟩ := h
  obtain ⟨a, b, hab, ha, hb⟩ := toldU2f_spec g9
  refine ⟨c1, c, a, b, ?_, g10, hab, ha, hb⟩
  constructor
  case driver => exact u2fSession_driver
  case run1 => exact hc1
  case run => exact hc
  case api =>
    intro op h
    have : ∀ e ∈ Server.Example.hello ++ usbU2fWork, (match e with | .inside (.api _) => false | _ => true) = true := by
      decide +kernel
    have := this _ h
    cases this
  case calm => exact g1
  case waits =>
    have : waitsCheck Stack.Demo.net (quick agree) (config false) grow0 (Server.Example.hello ++ usbU2fWork)
        (Spec.Server.start u2fSession (Overlap.boot (quick agree) (config false))) = true := by decide +kernel
    rw [quick_eq] at this
    exact waitsCheck_waits _ _ this
  case rest =>
    refine Server.C112_rest (Live.Example.ended_idle g2) ?_ g5
    intro t ht
    have := List.all_eq_true.mp g3 t ht
    simpa using this
  case fetched => exact g4
  case channel => exact ⟨by decide, by decide, [1, 2, 3, 4, 5, 6, 7, 8], rfl, List.elem_iff.mp h1.1⟩
  case new => exact h1.2
  case alone =>
    intro m hm
    have := List.all_eq_true.mp g8 m hm
    simpa using this
  case wellSent => exact u2fRequests_wellSent
  case sent => exact g7
  case sizes => exact fits_spec g6

noncomputable def u2fParty : Spec.U2fParty.Party :=
  { application := application, anchor := { ecdsa := some ((toy agree).genEC 0).pub }, checksCounter := true }

theorem toy_nonces {n : Nat} (h : n ≤ 256) : Spec.U2fParty.DistinctNonces (toy agree) n := by
  intro i j hi hj e
  have e : List.replicate 12 (UInt8.ofNat i) = List.replicate 12 (UInt8.ofNat j) := e
  have := congrArg List.head? e
  simp only [List.head?_replicate] at this
  have := congrArg UInt8.toNat (Option.some.inj this)
  rw [UInt8.toNat_ofNat', UInt8.toNat_ofNat'] at this
  omega

theorem step_pair {E : Env} {cfg : Client.Config} {d : Device} {op : Op} {r : Reply} (h : (Device.step E cfg d op).1 = r) :
    Device.step E cfg d op = (r, (Device.step E cfg d op).2) := Prod.ext h rfl

theorem asks_alone {E : Env} {cfg : Client.Config} {p : Spec.U2fParty.Party} {k : Spec.U2fParty.Key} {qs : List Request}
    {q : Request} {challenge : Bytes} (h1 : q.command = 0x83)
    (h2 : ∃ cla control p2 le, q.payload = apdu cla 2 control p2 (authenticateData challenge p.application k.handle) le ∧
      ((control = 3 ∧ E.approve (Device.after E cfg (Device.boot E cfg) (requested qs)).world.asks .u2fAuthenticate [] [] = true) ∨
        control = 8))
    (h3 : challenge.length = 32) (h4 : (requested qs).length + 2 < 2 ^ 32) : AsksU2fLogin E cfg p k (requested qs) q challenge :=
  ⟨h1, h2, h3, fun _ => settled_requested (ops := []) trivial, h4⟩

/-- The key that the first registration with this application makes. -/
theorem example_u2f {read : List Bytes} {a b : Bytes}
    (ht : talk u2fRequests 1 read =
      events (toy agree) (config false) (Device.boot (toy agree) (config false)) (requested u2fRequests))
    (he : talk u2fRequests 1 read = [(.u2f regPayload, .answer a), (.u2f authPayload, .answer b)])
    (ha : succeeded a ≠ none) (hacc : U2fAccepts (toy agree) u2fParty (talk u2fRequests 1 read)) :
    ∃ k, k ∈ Spec.U2fParty.keys (toy agree) u2fParty (talk u2fRequests 1 read).dropLast ∧
      AsksU2fLogin (toy agree) (config false) u2fParty k (requested [regRequest]) authRequest (List.replicate 32 6) := by
  have hreq : Spec.U2fParty.request regPayload = some (1, List.replicate 32 4 ++ application) := by decide +kernel
  have hf : Spec.U2fParty.registerFields (List.replicate 32 4 ++ application) = some (List.replicate 32 4, application) := by
    decide +kernel
  rw [he] at hacc
  obtain ⟨k, hk⟩ := hacc.1 [] _ _ _ _ _ rfl ha hreq hf
  have hkh : k.handle = handle := by
    have hq : requested u2fRequests = [.u2f regPayload, .u2f authPayload] := rfl
    rw [hq, Device.events_cons, he] at ht
    obtain ⟨-, -, hm⟩ := Device.u2f_answered (step_pair (Prod.mk.inj (List.cons.inj ht).1).2.symm)
    obtain ⟨cert, -, -, -, -, -, q⟩ := Device.u2f_register_eq (toy_laws agree) hm hreq hf ha
    rw [q u2fParty _ rfl] at hk
    split at hk
    · rw [← Option.some.inj hk]
      rfl
    · cases hk
  refine ⟨k, ?_, ?_⟩
  · rw [he]
    have hs : Spec.U2fParty.keys (toy agree) u2fParty [(.u2f regPayload, .answer a)] = [k] := by
      simp only [Spec.U2fParty.keys, List.foldl_cons, List.foldl_nil, Spec.U2fParty.see, hreq, hf]
      rw [if_pos (show application = u2fParty.application from rfl)]
      have hk : Spec.U2fParty.register (toy agree) u2fParty [] (List.replicate 32 4) a = some k := hk
      rw [hk]
      rfl
    show k ∈ Spec.U2fParty.keys (toy agree) u2fParty [(.u2f regPayload, .answer a)]
    rw [hs]
    exact List.mem_singleton.2 rfl
  · exact asks_alone rfl ⟨0, 3, 0, none, by rw [hkh]; rfl, .inl ⟨rfl, rfl⟩⟩ rfl (by decide +kernel)

end Conversation

open Conversation

/-- A host on macOS registers with U2F and logs in: the hypotheses of C131 and C132. -/
theorem C132_mac_u2f_case : ∃ (E : Env) (cfg : Client.Config) (grow : Nat → Nat → Nat) (evs1 evs2 : List Mac.Event)
    (s1 s : Mac.State) (qs : List Request) (q : Request) (p : Spec.U2fParty.Party) (k : Spec.U2fParty.Key) (challenge : Bytes),
    Laws E ∧ Usable E cfg ∧ CanAttest E (Device.boot E cfg).world.client ∧ OnMac E cfg grow [] evs1 evs2 s1 s 1 (qs ++ [q]) ∧
    Cose.publicOf cfg.certKey = .ok p.anchor ∧ Spec.U2fParty.DistinctNonces E (Spec.Overlap.sequential s.live.proc.mem).rnd ∧
    p.checksCounter = true ∧
    k ∈ Spec.U2fParty.keys E p (Spec.Overlap.results ((Overlap.boot E cfg).run E cfg []) ++ (talk (qs ++ [q]) 1 s.input).dropLast) ∧
    AsksU2fLogin E cfg p k (operations [] ++ requested qs) q challenge := by
  obtain ⟨s1, s, a, b, h1, h2, h3, ha, hb⟩ := mac_u2f_example
  have hfree : ∀ t ∈ ((Overlap.boot (toy agree) (config false)).run (toy agree) (config false) []).threads, busy t = false :=
    fun t ht => nomatch ht
  have hacc := C131_mac_u2f_accepted (toy_laws agree) (config_usable agree false) (boot_attests agree false) (pre := []) trivial hfree
    h1 (by decide +kernel) u2fParty rfl (fun _ => trivial) (toy_nonces h2)
  obtain ⟨k, k1, k2⟩ := example_u2f (C131_mac (pre := []) trivial hfree h1).1 h3 ha hacc
  exact ⟨toy agree, config false, _, _, _, s1, s, [regRequest], authRequest, u2fParty, k, _, toy_laws agree, config_usable _ _,
    boot_attests _ _, h1, rfl, toy_nonces h2, rfl, k1, k2⟩

/-- ... and over USB/IP. -/
theorem C132_usbip_u2f_case : ∃ (E : Env) (cfg : Client.Config) (grow : Nat → Nat → Nat) (net : UsbIp.Net)
    (cmds : List Spec.UsbIp.Cmd) (acts1 acts2 : List Server.Act) (c1 c : Server.Conn) (qs : List Request) (q : Request)
    (p : Spec.U2fParty.Party) (k : Spec.U2fParty.Key) (challenge : Bytes), Laws E ∧ Usable E cfg ∧
    CanAttest E (Device.boot E cfg).world.client ∧ OverUsbIp E cfg grow [] net cmds acts1 acts2 c1 c 1 (qs ++ [q]) ∧
    Cose.publicOf cfg.certKey = .ok p.anchor ∧ Spec.U2fParty.DistinctNonces E (Spec.Overlap.sequential c.dev.hid.proc.mem).rnd ∧
    p.checksCounter = true ∧
    k ∈ Spec.U2fParty.keys E p (Spec.Overlap.results ((Overlap.boot E cfg).run E cfg []) ++
      (talk (qs ++ [q]) 1 (Spec.Server.seen cmds c)).dropLast) ∧
    AsksU2fLogin E cfg p k (operations [] ++ requested qs) q challenge := by
  obtain ⟨c1, c, a, b, h1, h2, h3, ha, hb⟩ := usbip_u2f_example
  have hfree : ∀ t ∈ ((Overlap.boot (toy agree) (config false)).run (toy agree) (config false) []).threads, busy t = false :=
    fun t ht => nomatch ht
  have hacc := C131_usbip_u2f_accepted (toy_laws agree) (config_usable agree false) (boot_attests agree false) (pre := []) trivial hfree
    h1 (by decide +kernel) u2fParty rfl (fun _ => trivial) (toy_nonces h2)
  obtain ⟨k, k1, k2⟩ := example_u2f (C131_usbip (pre := []) trivial hfree h1).1 h3 ha hacc
  exact ⟨toy agree, config false, _, _, _, _, _, c1, c, [regRequest], authRequest, u2fParty, k, _, toy_laws agree,
    config_usable _ _, boot_attests _ _, h1, rfl, toy_nonces h2, rfl, k1, k2⟩

end VF.Props
