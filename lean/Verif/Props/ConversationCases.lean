import Verif.Proofs.ToyQuick
import Verif.Props.Conversation
import Verif.Props.AnsweredHosts

/-!
# A host that registers a credential and logs in, by reports

The hypotheses of C131 hold of a host that creates a credential (three reports) and logs in with it (two), on macOS and over
USB/IP; both requests succeed.
-/

namespace VF.Props

open Fido Hid Spec.Client Spec.Platform Spec.History Spec.Service Spec.Live Spec.Conversation Spec.Ctaphid Toy
open Spec.Stack (onChannel)
open Live.Example (grow0 initReport ended)

namespace Conversation

def makePayload : Bytes := 1 :: makeData [] none
def getPayload : Bytes := 2 :: getData (some [made]) none none
def makePackets : List Bytes := hostPackets 1 0x90 makePayload (List.replicate (175 - makePayload.length) 0)
def getPackets : List Bytes := hostPackets 1 0x90 getPayload (List.replicate (116 - getPayload.length) 0)
def requests : List Request := [⟨0x90, makePayload, makePackets⟩, ⟨0x90, getPayload, getPackets⟩]

theorem requests_wellSent : ∀ q ∈ requests, q.WellSent 1 := by
  intro q hq
  simp only [requests, List.mem_cons, List.not_mem_nil, or_false] at hq
  rcases hq with rfl | rfl
  · exact ⟨by unfold Begins; decide, makePayload.take 57,
      [(makePayload.drop 57).take 59, makePayload.drop 116 ++ List.replicate (175 - makePayload.length) 0],
      by decide +kernel, by decide +kernel, by decide +kernel, by decide +kernel, by decide +kernel, by decide +kernel⟩
  · exact ⟨by unfold Begins; decide, getPayload.take 57, [getPayload.drop 57 ++ List.replicate (116 - getPayload.length) 0],
      by decide +kernel, by decide +kernel, by decide +kernel, by decide +kernel, by decide +kernel, by decide +kernel⟩

/-! ### On macOS -/

def steps (i n : Nat) : List Mac.Event := List.replicate n (.inside (.step i))
def macWork : List Mac.Event :=
  (makePackets ++ getPackets).map .setReport ++
  [.notice] ++ steps 1 3 ++ [.notice] ++ steps 2 3 ++ [.notice] ++ steps 3 3 ++ [.inside (.keepalive 3)] ++
  List.replicate 22 (.inside (.work 0)) ++ [.inside (.return 3)] ++ steps 3 6 ++
  [.notice] ++ steps 4 3 ++ [.notice] ++ steps 5 3 ++ List.replicate 19 (.inside (.work 1)) ++ [.inside (.return 5)] ++ steps 5 4

noncomputable def macAt (E : Env) (evs : List Mac.Event) : Option Mac.State :=
  (Mac.State.start (Overlap.boot E (config false))).run E (config false) grow0 evs

/-- What the host was told succeeded. -/
def told (seen : List (Op × Reply)) : List (Op × Bool) :=
  seen.map fun x => (x.1, match x.2 with | .answer (0 :: _) => true | _ => false)

def fits (l : List (Op × Reply)) : Bool :=
  l.all fun x => match x.2 with | .answer a => !a.isEmpty && decide (a.length ≤ 7609) | _ => true

theorem fits_spec {l : List (Op × Reply)} (h : fits l = true) : ∀ op a, (op, .answer a) ∈ l → a ≠ [] ∧ a.length ≤ 7609 := by
  intro op a hm
  have := List.all_eq_true.mp h _ hm
  simp only [Bool.and_eq_true, Bool.not_eq_true', List.isEmpty_eq_false_iff, decide_eq_true_eq] at this
  exact this

def macCheck (s : Mac.State) : Bool :=
  ended s.live && !s.live.hid.crashed && s.live.proc.alive && (s.live.proc.threads.all fun t => !Spec.Overlap.busy t) &&
    s.notices == 0 && fits (Spec.Overlap.results s.live.proc) &&
    (told (talk requests 1 s.input) == [(.ctap makePayload, true), (.ctap getPayload, true)]) &&
    decide ((Spec.Overlap.sequential s.live.proc.mem).rnd ≤ 256)

theorem mac_summary : (macAt (quick agree) (Mac.Example.hello ++ macWork)).any macCheck = true := by decide +kernel

/-! ### Over USB/IP -/

open Stack.Demo (give ask)

def session : List Spec.UsbIp.Cmd :=
  [give 1 initReport, ask 2] ++ (makePackets.zip [3, 4, 5]).map (fun x => give x.2 x.1) ++ [ask 6, ask 7, ask 8, ask 9] ++
  (getPackets.zip [10, 11]).map (fun x => give x.2 x.1) ++ [ask 12, ask 13]

def acts (i n : Nat) : List Server.Act := List.replicate n (.inside (.step i))

def fetch (i : Nat) : List Server.Act := [.command, .send 0] ++ acts i 1

def usbWork : List Server.Act :=
  [.command] ++ acts 1 3 ++ [.command] ++ acts 2 3 ++ [.command] ++ acts 3 3 ++ List.replicate 22 (.inside (.work 0)) ++
  [.inside (.return 3)] ++ acts 3 2 ++ fetch 3 ++ fetch 3 ++ fetch 3 ++ fetch 3 ++
  [.command] ++ acts 4 3 ++ [.command] ++ acts 5 3 ++ List.replicate 19 (.inside (.work 1)) ++ [.inside (.return 5)] ++
  acts 5 2 ++ fetch 5 ++ fetch 5

noncomputable def usbAt (E : Env) (l : List Server.Act) : Option Server.Conn :=
  Server.exec Stack.Demo.net E (config false) grow0 l (Spec.Server.start session (Overlap.boot E (config false)))

def usbCheck (c : Server.Conn) : Bool :=
  !c.dev.crashed && ended c.dev.hid && (c.dev.hid.proc.threads.all fun t => !Spec.Overlap.busy t) &&
    (Spec.Server.held c).isEmpty && c.dev.outbox.isEmpty && fits (Spec.Overlap.results c.dev.hid.proc) &&
    (onChannel 1 (Spec.Server.given c) == requests.flatMap (·.packets)) &&
    ((Spec.Server.given c).all fun m => channelOf m == some 1 || channelOf m == some 0xFFFFFFFF) &&
    (told (talk requests 1 (Spec.Server.seen session c)) == [(.ctap makePayload, true), (.ctap getPayload, true)]) &&
    decide ((Spec.Overlap.sequential c.dev.hid.proc.mem).rnd ≤ 256)

theorem usb_summary : (usbAt (quick agree) (Server.Example.hello ++ usbWork)).any usbCheck = true := by decide +kernel

/-- A check for `Waits`. -/
def waitsCheck (net : UsbIp.Net) (E : Env) (cfg : Client.Config) (grow : Nat → Nat → Nat) : List Server.Act → Server.Conn → Bool
  | [], _ => true
  | a :: as, c =>
    match Server.step net E cfg grow a c with
    | none => true
    | some c' => (Spec.Server.given c' == Spec.Server.given c || ended c.dev.hid) && waitsCheck net E cfg grow as c'

theorem waitsCheck_waits {net : UsbIp.Net} {E : Env} {cfg : Client.Config} {grow : Nat → Nat → Nat} :
    ∀ (as : List Server.Act) (c : Server.Conn), waitsCheck net E cfg grow as c = true → Waits net E cfg grow c as := by
  intro as
  induction as with
  | nil => intro c _ acts1 acts2 c1 c2 m h; cases acts1 <;> cases h
  | cons a as ih =>
    intro c hc acts1 acts2 c1 c2 m heq hx hs hg
    unfold waitsCheck at hc
    cases acts1 with
    | nil =>
      cases hx
      cases heq
      rw [hs] at hc
      simp only [Bool.and_eq_true] at hc
      have h1 := hc.1
      rw [hg] at h1
      simp at h1
      exact Live.Example.ended_idle h1
    | cons b acts1 =>
      cases heq
      cases hst : Server.step net E cfg grow a c with
      | none => rw [Server.exec, hst] at hx; cases hx
      | some c' =>
        rw [hst] at hc
        rw [Server.exec, hst] at hx
        simp only [Bool.and_eq_true] at hc
        exact ih c' hc.2 acts1 acts2 c1 c2 m rfl hx hs hg

theorem session_driver : Server.Driver Stack.Demo.net session where
  full := Stack.Demo.net_full
  session := by
    have hlen : ∀ p ∈ makePackets ++ getPackets, p.length < 2 ^ 32 := by decide +kernel
    refine ⟨?_, by decide +kernel⟩
    intro cmd h
    simp only [session, List.mem_append, List.mem_cons, List.not_mem_nil, or_false, List.mem_map] at h
    rcases h with ((((h | h) | ⟨⟨p, n⟩, hp, h⟩) | h | h | h | h) | ⟨⟨p, n⟩, hp, h⟩) | h | h <;> subst h
    case inl.inl.inl.inl.inl => exact Stack.Demo.give_usual _ _ (by decide)
    case inl.inl.inl.inr =>
      exact Stack.Demo.give_usual _ _ (hlen p (List.mem_append_left _ (List.of_mem_zip hp).1))
    case inl.inr =>
      exact Stack.Demo.give_usual _ _ (hlen p (List.mem_append_right _ (List.of_mem_zip hp).1))
    all_goals exact Stack.Demo.ask_usual _
  short := by decide +kernel
  few := by decide +kernel

theorem told_spec {seen : List (Op × Reply)} {op1 op2 : Op} (h : told seen = [(op1, true), (op2, true)]) :
    ∃ a b, seen = [(op1, .answer (0 :: a)), (op2, .answer (0 :: b))] := by
  have key : ∀ r : Reply, (match r with | .answer (0 :: _) => true | _ => false) = true → ∃ a, r = .answer (0 :: a) := by
    intro r hr
    split at hr
    · exact ⟨_, rfl⟩
    · cases hr
  rcases seen with _ | ⟨x, _ | ⟨y, _ | ⟨z, l⟩⟩⟩
  · cases h
  · simp [told] at h
  · simp only [told, List.map_cons, List.map_nil, List.cons.injEq, Prod.mk.injEq, and_true] at h
    obtain ⟨⟨rfl, h2⟩, rfl, h4⟩ := h
    obtain ⟨a, ha⟩ := key _ h2
    obtain ⟨b, hb⟩ := key _ h4
    exact ⟨a, b, by rw [← ha, ← hb]⟩
  · simp [told] at h

end Conversation

open Conversation

theorem mac_example : ∃ (s1 s : Mac.State) (a b : Bytes),
    OnMac (toy agree) (config false) grow0 [] Mac.Example.hello macWork s1 s 1 requests ∧
    (Spec.Overlap.sequential s.live.proc.mem).rnd ≤ 256 ∧
    talk requests 1 s.input = [(.ctap makePayload, .answer (0 :: a)), (.ctap getPayload, .answer (0 :: b))] := by
  have h1 : (Mac.Example.at' Mac.Example.hello).map (fun s => s.input.elem (initAnswer [1, 2, 3, 4, 5, 6, 7, 8] 1)) =
      some true := by decide +kernel
  obtain ⟨s1, hs1, h1⟩ := Option.map_eq_some_iff.mp h1
  have h := mac_summary
  rw [quick_eq, Option.any_eq_true] at h
  obtain ⟨s, hs, h⟩ := h
  simp only [macCheck, Bool.and_eq_true, Bool.not_eq_true', beq_iff_eq, decide_eq_true_eq] at h
  obtain ⟨⟨⟨⟨⟨⟨⟨g1, g2⟩, g3⟩, g4⟩, g5⟩, g6⟩, g7⟩, g8⟩ := h
  obtain ⟨a, b, hab⟩ := told_spec g7
  refine ⟨s1, s, a, b, ?_, g8, hab⟩
  constructor
  case run1 => exact hs1
  case run =>
    have e : macAt (toy agree) (Mac.Example.hello ++ macWork) = (Mac.Example.at' Mac.Example.hello).bind fun s' =>
        s'.run (toy agree) (config false) grow0 macWork := Mac.run_append Mac.Example.hello macWork Mac.Example.boot
    rw [hs1, Option.bind_some] at e
    rw [← e]
    exact hs
  case api =>
    intro op h
    have : ∀ e ∈ Mac.Example.hello ++ macWork, (match e with | .inside (.api _) => false | _ => true) = true := by
      decide +kernel
    have := this _ h
    cases this
  case calm => exact ⟨g2, g3⟩
  case short => decide +kernel
  case few => decide +kernel
  case paced => exact Mac.Example.paced_of_few (by decide +kernel)
  case rest =>
    refine Mac.C107_rest (Live.Example.ended_idle g1) ?_ g5
    intro t ht
    have := List.all_eq_true.mp g4 t ht
    simpa using this
  case channel => exact ⟨by decide, [1, 2, 3, 4, 5, 6, 7, 8], rfl, List.elem_iff.mp h1⟩
  case new => decide +kernel
  case alone => decide +kernel
  case wellSent => exact requests_wellSent
  case sent => decide +kernel
  case sizes => exact fits_spec g6

theorem usbip_example : ∃ (c1 c : Server.Conn) (a b : Bytes),
    OverUsbIp (toy agree) (config false) grow0 [] Stack.Demo.net session Server.Example.hello usbWork c1 c 1 requests ∧
    (Spec.Overlap.sequential c.dev.hid.proc.mem).rnd ≤ 256 ∧
    talk requests 1 (Spec.Server.seen session c) =
      [(.ctap makePayload, .answer (0 :: a)), (.ctap getPayload, .answer (0 :: b))] := by
  have h1 : (usbAt (toy agree) Server.Example.hello).map (fun c =>
      ((Spec.Server.received session c).elem (initAnswer [1, 2, 3, 4, 5, 6, 7, 8] 1),
        onChannel 1 (Spec.Server.given c))) = some (true, []) := by decide +kernel
  obtain ⟨c1, hc1, h1⟩ := Option.map_eq_some_iff.mp h1
  simp only [Prod.mk.injEq] at h1
  have h := usb_summary
  rw [quick_eq, Option.any_eq_true] at h
  obtain ⟨c, hc, h⟩ := h
  simp only [usbCheck, Bool.and_eq_true, Bool.not_eq_true', beq_iff_eq, decide_eq_true_eq, List.isEmpty_iff] at h
  obtain ⟨⟨⟨⟨⟨⟨⟨⟨⟨g1, g2⟩, g3⟩, g4⟩, g5⟩, g6⟩, g7⟩, g8⟩, g9⟩, g10⟩ := h
  obtain ⟨a, b, hab⟩ := told_spec g9
  refine ⟨c1, c, a, b, ?_, g10, hab⟩
  constructor
  case driver => exact session_driver
  case run1 => exact hc1
  case run => exact hc
  case api =>
    intro op h
    have : ∀ e ∈ Server.Example.hello ++ usbWork, (match e with | .inside (.api _) => false | _ => true) = true := by
      decide +kernel
    have := this _ h
    cases this
  case calm => exact g1
  case waits =>
    have : waitsCheck Stack.Demo.net (quick agree) (config false) grow0 (Server.Example.hello ++ usbWork)
        (Spec.Server.start session (Overlap.boot (quick agree) (config false))) = true := by decide +kernel
    rw [quick_eq] at this
    exact waitsCheck_waits _ _ this
  case rest =>
    refine Server.C112_rest (Live.Example.ended_idle g2) ?_ g5
    intro t ht
    have := List.all_eq_true.mp g3 t ht
    simpa using this
  case fetched => exact g4
  case channel => exact ⟨by decide, by decide, [1, 2, 3, 4, 5, 6, 7, 8], rfl, List.elem_iff.mp h1.1⟩
  case new => exact h1.2
  case alone =>
    intro m hm
    have := List.all_eq_true.mp g8 m hm
    simpa using this
  case wellSent => exact requests_wellSent
  case sent => exact g7
  case sizes => exact fits_spec g6

/-- A host on macOS creates a credential and logs in with it. -/
theorem C131_mac_case : ∃ (E : Env) (cfg : Client.Config) (grow : Nat → Nat → Nat) (evs1 evs2 : List Mac.Event)
    (s1 s : Mac.State) (qs : List Request) (make get a b : Bytes), Laws E ∧ Usable E cfg ∧
    CanAttest E (Device.boot E cfg).world.client ∧ OnMac E cfg grow [] evs1 evs2 s1 s 1 qs ∧
    DistinctDraws E (Spec.Overlap.sequential s.live.proc.mem).rnd ∧
    talk qs 1 s.input = [(.ctap (1 :: make), .answer (0 :: a)), (.ctap (2 :: get), .answer (0 :: b))] := by
  obtain ⟨s1, s, a, b, h1, h2, h3⟩ := mac_example
  exact ⟨toy agree, config false, grow0, Mac.Example.hello, macWork, s1, s, requests, _, _, a, b, toy_laws agree,
    config_usable _ _, boot_attests _ _, h1, toy_draws agree h2, h3⟩

/-- A host over USB/IP creates a credential and logs in with it. -/
theorem C131_usbip_case : ∃ (E : Env) (cfg : Client.Config) (grow : Nat → Nat → Nat) (net : UsbIp.Net)
    (cmds : List Spec.UsbIp.Cmd) (acts1 acts2 : List Server.Act) (c1 c : Server.Conn) (qs : List Request)
    (make get a b : Bytes), Laws E ∧ Usable E cfg ∧ CanAttest E (Device.boot E cfg).world.client ∧
    OverUsbIp E cfg grow [] net cmds acts1 acts2 c1 c 1 qs ∧
    DistinctDraws E (Spec.Overlap.sequential c.dev.hid.proc.mem).rnd ∧
    talk qs 1 (Spec.Server.seen cmds c) = [(.ctap (1 :: make), .answer (0 :: a)), (.ctap (2 :: get), .answer (0 :: b))] := by
  obtain ⟨c1, c, a, b, h1, h2, h3⟩ := usbip_example
  exact ⟨toy agree, config false, grow0, Stack.Demo.net, session, Server.Example.hello, usbWork, c1, c, requests, _, _, a, b,
    toy_laws agree, config_usable _ _, boot_attests _ _, h1, toy_draws agree h2, h3⟩

end VF.Props
