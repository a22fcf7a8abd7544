import Verif.Props.ConversationCases
import Verif.Props.Hosts

/-!
# Two hosts at once, and reports on a channel nobody was given

The hypotheses of C136 hold of two hosts on macOS: one creates a credential, in three reports; the other logs in with it, in
two, the first of which is sent before the last of the registration.  Meanwhile somebody sends a report on a channel that was
never given out.
-/

namespace VF.Props

open Fido Hid Spec.Client Spec.Platform Spec.History Spec.Service Spec.Live Spec.Conversation Spec.Ctaphid Spec.Hosts Toy
open Spec.Stack (onChannel)
open Live.Example (grow0 initReport ended)
open Conversation (makePayload getPayload makePackets steps fits fits_spec)

namespace Hosts

def otherPackets : List Bytes := hostPackets 2 0x90 getPayload (List.replicate (116 - getPayload.length) 0)
def strayPackets : List Bytes := hostPackets 7 0x90 [4] (List.replicate 56 0)
def first : List Request := [⟨0x90, makePayload, makePackets⟩]
def second : List Request := [⟨0x90, getPayload, otherPackets⟩]

def hello : List Mac.Event :=
  [.setReport initReport, .notice] ++ steps 0 6 ++ [.setReport initReport, .notice] ++ steps 1 6

def work : List Mac.Event :=
  (makePackets.take 1 ++ otherPackets.take 1 ++ strayPackets ++ makePackets.drop 1 ++ otherPackets.drop 1).map .setReport ++
  [.notice] ++ steps 2 3 ++ [.notice] ++ steps 3 3 ++ [.notice] ++ steps 4 4 ++ [.notice] ++ steps 5 3 ++
  [.notice] ++ steps 6 3 ++ List.replicate 22 (.inside (.work 0)) ++ [.inside (.return 6)] ++ steps 6 6 ++
  [.notice] ++ steps 7 3 ++ List.replicate 19 (.inside (.work 1)) ++ [.inside (.return 7)] ++ steps 7 4

noncomputable def at' (E : Env) (evs : List Mac.Event) : Option Mac.State :=
  (Mac.State.start (Overlap.boot E (config false))).run E (config false) grow0 evs

/-- Each was told of success, once. -/
def told (seen : List (Op × Reply)) : List (Op × Bool) :=
  seen.map fun x => (x.1, match x.2 with | .answer (0 :: _) => true | _ => false)

def check (s : Mac.State) : Bool :=
  ended s.live && !s.live.hid.crashed && s.live.proc.alive && (s.live.proc.threads.all fun t => !Spec.Overlap.busy t) &&
    s.notices == 0 && fits (Spec.Overlap.results s.live.proc) &&
    (told (talk first 1 s.input) == [(.ctap makePayload, true)]) &&
    (told (talk second 2 s.input) == [(.ctap getPayload, true)]) &&
    decide ((Spec.Overlap.sequential s.live.proc.mem).rnd ≤ 256) &&
    ((Spec.Overlap.results s.live.proc).map (·.1) == [.ctap makePayload, .ctap getPayload])

theorem summary : (at' (quick agree) (hello ++ work)).any check = true := by decide +kernel

theorem told_one {seen : List (Op × Reply)} {op : Op} (h : told seen = [(op, true)]) : ∃ a, seen = [(op, .answer (0 :: a))] := by
  have key : ∀ r : Reply, (match r with | .answer (0 :: _) => true | _ => false) = true → ∃ a, r = .answer (0 :: a) := by
    intro r hr
    split at hr
    · exact ⟨_, rfl⟩
    · cases hr
  rcases seen with _ | ⟨x, _ | ⟨y, l⟩⟩
  · cases h
  · simp only [told, List.map_cons, List.map_nil, List.cons.injEq, Prod.mk.injEq, and_true] at h
    obtain ⟨rfl, h2⟩ := h
    obtain ⟨a, ha⟩ := key _ h2
    exact ⟨a, by rw [← ha]⟩
  · simp [told] at h

theorem first_wellSent : ∀ q ∈ first, q.WellSent 1 := by
  intro q hq
  simp only [first, List.mem_cons, List.not_mem_nil, or_false] at hq
  subst hq
  exact Conversation.requests_wellSent _ (List.mem_cons_self ..)

theorem second_wellSent : ∀ q ∈ second, q.WellSent 2 := by
  intro q hq
  simp only [second, List.mem_cons, List.not_mem_nil, or_false] at hq
  subst hq
  exact ⟨by unfold Begins; decide, getPayload.take 57, [getPayload.drop 57 ++ List.replicate (116 - getPayload.length) 0],
    by decide +kernel, by decide +kernel, by decide +kernel, by decide +kernel, by decide +kernel, by decide +kernel⟩

/-! ### Over USB/IP -/

open Stack.Demo (give ask)
open Conversation (acts fetch waitsCheck waitsCheck_waits)

def session : List Spec.UsbIp.Cmd :=
  [give 1 initReport, ask 2, give 3 initReport, ask 4] ++
  ((makePackets.take 1 ++ otherPackets.take 1 ++ strayPackets).zip [5, 6, 7]).map (fun x => give x.2 x.1) ++ [ask 8] ++
  ((makePackets.drop 1).zip [9, 10]).map (fun x => give x.2 x.1) ++ [ask 11, ask 12, ask 13, ask 14] ++
  ((otherPackets.drop 1).zip [15]).map (fun x => give x.2 x.1) ++ [ask 16, ask 17]

def usbHello : List Server.Act := Server.Example.hello ++ [.command] ++ acts 1 5 ++ [.send 0, .command] ++ acts 1 1

def usbWork : List Server.Act :=
  [.command] ++ acts 2 3 ++ [.command] ++ acts 3 3 ++ [.command] ++ acts 4 3 ++ fetch 4 ++
  [.command] ++ acts 5 3 ++ [.command] ++ acts 6 3 ++ List.replicate 22 (.inside (.work 0)) ++
  [.inside (.return 6)] ++ acts 6 2 ++ fetch 6 ++ fetch 6 ++ fetch 6 ++ fetch 6 ++
  [.command] ++ acts 7 3 ++ List.replicate 19 (.inside (.work 1)) ++ [.inside (.return 7)] ++ acts 7 2 ++ fetch 7 ++ fetch 7

noncomputable def usbAt (E : Env) (l : List Server.Act) : Option Server.Conn :=
  Server.exec Stack.Demo.net E (config false) grow0 l (Spec.Server.start session (Overlap.boot E (config false)))

def usbCheck (c : Server.Conn) : Bool :=
  !c.dev.crashed && ended c.dev.hid && (c.dev.hid.proc.threads.all fun t => !Spec.Overlap.busy t) &&
    (Spec.Server.held c).isEmpty && c.dev.outbox.isEmpty && fits (Spec.Overlap.results c.dev.hid.proc) &&
    (onChannel 1 (Spec.Server.given c) == first.flatMap (·.packets)) &&
    (onChannel 2 (Spec.Server.given c) == second.flatMap (·.packets)) && (onChannel 7 (Spec.Server.given c) == strayPackets) &&
    (told (talk first 1 (Spec.Server.seen session c)) == [(.ctap makePayload, true)]) &&
    (told (talk second 2 (Spec.Server.seen session c)) == [(.ctap getPayload, true)]) &&
    decide ((Spec.Overlap.sequential c.dev.hid.proc.mem).rnd ≤ 256) &&
    ((Spec.Overlap.results c.dev.hid.proc).map (·.1) == [.ctap makePayload, .ctap getPayload])

theorem usb_summary : (usbAt (quick agree) (usbHello ++ usbWork)).any usbCheck = true := by decide +kernel

theorem session_driver : Server.Driver Stack.Demo.net session where
  full := Stack.Demo.net_full
  session := by
    have hlen : ∀ p ∈ makePackets ++ otherPackets ++ strayPackets, p.length < 2 ^ 32 := by decide +kernel
    have hm : ∀ p, p ∈ makePackets.take 1 ++ otherPackets.take 1 ++ strayPackets ∨ p ∈ makePackets.drop 1 ∨
        p ∈ otherPackets.drop 1 → p.length < 2 ^ 32 := by
      intro p hp
      refine hlen p ?_
      simp only [List.mem_append] at hp ⊢
      rcases hp with ((h | h) | h) | h | h
      · exact .inl (.inl (List.mem_of_mem_take h))
      · exact .inl (.inr (List.mem_of_mem_take h))
      · exact .inr h
      · exact .inl (.inl (List.mem_of_mem_drop h))
      · exact .inl (.inr (List.mem_of_mem_drop h))
    have hinit : initReport.length < 2 ^ 32 := by decide +kernel
    refine ⟨?_, by decide +kernel⟩
    intro cmd h
    simp only [session, List.mem_append, List.mem_cons, List.not_mem_nil, or_false, List.mem_map] at h
    rcases h with ((((((h | h | h | h) | ⟨⟨p, n⟩, hp, h⟩) | h) | ⟨⟨p, n⟩, hp, h⟩) | h | h | h | h) | ⟨⟨p, n⟩, hp, h⟩) | h | h <;>
      subst h
    · exact Stack.Demo.give_usual _ _ hinit
    · exact Stack.Demo.ask_usual _
    · exact Stack.Demo.give_usual _ _ hinit
    · exact Stack.Demo.ask_usual _
    · exact Stack.Demo.give_usual _ _ (hm p (.inl (List.of_mem_zip hp).1))
    · exact Stack.Demo.ask_usual _
    · exact Stack.Demo.give_usual _ _ (hm p (.inr (.inl (List.of_mem_zip hp).1)))
    · exact Stack.Demo.ask_usual _
    · exact Stack.Demo.ask_usual _
    · exact Stack.Demo.ask_usual _
    · exact Stack.Demo.ask_usual _
    · exact Stack.Demo.give_usual _ _ (hm p (.inr (.inr (List.of_mem_zip hp).1)))
    · exact Stack.Demo.ask_usual _
    · exact Stack.Demo.ask_usual _
  short := by decide +kernel
  few := by decide +kernel

theorem mac_example : ∃ (s : Mac.State) (a b : Bytes), UsedOnMac (toy agree) (config false) grow0 [] (hello ++ work) s ∧
    (Spec.Overlap.sequential s.live.proc.mem).rnd ≤ 256 ∧
    HostOnMac (toy agree) (config false) grow0 [] (hello ++ work) 1 first ∧
    HostOnMac (toy agree) (config false) grow0 [] (hello ++ work) 2 second ∧
    talk first 1 s.input = [(.ctap makePayload, .answer (0 :: a))] ∧
    talk second 2 s.input = [(.ctap getPayload, .answer (0 :: b))] ∧
    (Spec.Overlap.results s.live.proc).map (·.1) = [.ctap makePayload, .ctap getPayload] := by
  have h1 : (at' (toy agree) hello).map (fun s => (s.input.elem (initAnswer [1, 2, 3, 4, 5, 6, 7, 8] 1),
      s.input.elem (initAnswer [1, 2, 3, 4, 5, 6, 7, 8] 2))) = some (true, true) := by decide +kernel
  obtain ⟨s1, hs1, h1⟩ := Option.map_eq_some_iff.mp h1
  simp only [Prod.mk.injEq] at h1
  have h := summary
  rw [quick_eq, Option.any_eq_true] at h
  obtain ⟨s, hs, h⟩ := h
  simp only [check, Bool.and_eq_true, Bool.not_eq_true', beq_iff_eq, decide_eq_true_eq] at h
  obtain ⟨⟨⟨⟨⟨⟨⟨⟨⟨g1, g2⟩, g3⟩, g4⟩, g5⟩, g6⟩, g7⟩, g8⟩, g9⟩, g10⟩ := h
  obtain ⟨a, ha⟩ := told_one g7
  obtain ⟨b, hb⟩ := told_one g8
  refine ⟨s, a, b, ?_, g9, ?_, ?_, ha, hb, g10⟩
  · constructor
    case run => exact hs
    case api =>
      intro op h
      have : ∀ e ∈ hello ++ work, (match e with | .inside (.api _) => false | _ => true) = true := by decide +kernel
      have := this _ h
      cases this
    case calm => exact ⟨g2, g3⟩
    case short => decide +kernel
    case few => decide +kernel
    case paced => exact Mac.Example.paced_of_few (by decide +kernel)
    case rest =>
      refine Mac.C107_rest (Live.Example.ended_idle g1) ?_ g5
      intro t ht
      have := List.all_eq_true.mp g4 t ht
      simpa using this
    case sizes => exact fits_spec g6
  · exact ⟨⟨by decide, hello, work, s1, rfl, hs1, by decide +kernel, _, rfl, List.elem_iff.mp h1.1⟩, first_wellSent,
      by decide +kernel⟩
  · exact ⟨⟨by decide, hello, work, s1, rfl, hs1, by decide +kernel, _, rfl, List.elem_iff.mp h1.2⟩, second_wellSent,
      by decide +kernel⟩

theorem usbip_example : ∃ (c : Server.Conn) (a b : Bytes),
    UsedOverUsbIp (toy agree) (config false) grow0 [] Stack.Demo.net session (usbHello ++ usbWork) c ∧
    (Spec.Overlap.sequential c.dev.hid.proc.mem).rnd ≤ 256 ∧
    HostOverUsbIp (toy agree) (config false) grow0 [] Stack.Demo.net session (usbHello ++ usbWork) c 1 first ∧
    HostOverUsbIp (toy agree) (config false) grow0 [] Stack.Demo.net session (usbHello ++ usbWork) c 2 second ∧
    onChannel 7 (Spec.Server.given c) ≠ [] ∧
    talk first 1 (Spec.Server.seen session c) = [(.ctap makePayload, .answer (0 :: a))] ∧
    talk second 2 (Spec.Server.seen session c) = [(.ctap getPayload, .answer (0 :: b))] ∧
    (Spec.Overlap.results c.dev.hid.proc).map (·.1) = [.ctap makePayload, .ctap getPayload] := by
  have h1 : (usbAt (toy agree) usbHello).map (fun c =>
      ((Spec.Server.received session c).elem (initAnswer [1, 2, 3, 4, 5, 6, 7, 8] 1),
        (Spec.Server.received session c).elem (initAnswer [1, 2, 3, 4, 5, 6, 7, 8] 2),
        onChannel 1 (Spec.Server.given c), onChannel 2 (Spec.Server.given c))) = some (true, true, [], []) := by
    decide +kernel
  obtain ⟨c1, hc1, h1⟩ := Option.map_eq_some_iff.mp h1
  simp only [Prod.mk.injEq] at h1
  have h := usb_summary
  rw [quick_eq, Option.any_eq_true] at h
  obtain ⟨c, hc, h⟩ := h
  simp only [usbCheck, Bool.and_eq_true, Bool.not_eq_true', beq_iff_eq, decide_eq_true_eq, List.isEmpty_iff] at h
  obtain ⟨⟨⟨⟨⟨⟨⟨⟨⟨⟨⟨⟨g1, g2⟩, g3⟩, g4⟩, g5⟩, g6⟩, g7⟩, g8⟩, g9⟩, g10⟩, g11⟩, g12⟩, g13⟩ := h
  obtain ⟨a, ha⟩ := told_one g10
  obtain ⟨b, hb⟩ := told_one g11
  refine ⟨c, a, b, ?_, g12, ?_, ?_, ?_, ha, hb, g13⟩
  · constructor
    case driver => exact session_driver
    case run => exact hc
    case api =>
      intro op h
      have : ∀ e ∈ usbHello ++ usbWork, (match e with | .inside (.api _) => false | _ => true) = true := by decide +kernel
      have := this _ h
      cases this
    case calm => exact g1
    case waits =>
      have : Conversation.waitsCheck Stack.Demo.net (quick agree) (config false) grow0 (usbHello ++ usbWork)
          (Spec.Server.start session (Overlap.boot (quick agree) (config false))) = true := by decide +kernel
      rw [quick_eq] at this
      exact Conversation.waitsCheck_waits _ _ this
    case rest =>
      refine Server.C112_rest (Live.Example.ended_idle g2) ?_ g5
      intro t ht
      have := List.all_eq_true.mp g3 t ht
      simpa using this
    case fetched => exact g4
    case sizes => exact fits_spec g6
  · exact ⟨⟨by decide, by decide, usbHello, usbWork, c1, rfl, hc1, h1.2.2.1, _, rfl, List.elem_iff.mp h1.1⟩, first_wellSent, g7⟩
  · exact ⟨⟨by decide, by decide, usbHello, usbWork, c1, rfl, hc1, h1.2.2.2, _, rfl, List.elem_iff.mp h1.2.1⟩, second_wellSent, g8⟩
  · rw [g9]; decide +kernel

end Hosts

open Hosts

/-- One host creates a credential and another logs in with it, at the same time. -/
theorem C136_case_mac : ∃ (E : Env) (cfg : Client.Config) (grow : Nat → Nat → Nat) (evs : List Mac.Event) (s : Mac.State)
    (qs1 qs2 : List Request) (make get a b : Bytes), Laws E ∧ Usable E cfg ∧ CanAttest E (Device.boot E cfg).world.client ∧
    UsedOnMac E cfg grow [] evs s ∧ DistinctDraws E (Spec.Overlap.sequential s.live.proc.mem).rnd ∧
    HostOnMac E cfg grow [] evs 1 qs1 ∧ HostOnMac E cfg grow [] evs 2 qs2 ∧ onChannel 7 (Spec.Mac.sent evs) ≠ [] ∧
    talk qs1 1 s.input = [(.ctap (1 :: make), .answer (0 :: a))] ∧
    talk qs2 2 s.input = [(.ctap (2 :: get), .answer (0 :: b))] := by
  obtain ⟨s, a, b, h1, h2, h3, h4, h5, h6, -⟩ := Hosts.mac_example
  exact ⟨toy agree, config false, grow0, hello ++ work, s, first, second, _, _, a, b, toy_laws agree, config_usable _ _,
    boot_attests _ _, h1, toy_draws agree h2, h3, h4, by decide +kernel, h5, h6⟩

/-- The same over USB/IP. -/
theorem C136_case_usbip : ∃ (E : Env) (cfg : Client.Config) (grow : Nat → Nat → Nat) (net : UsbIp.Net)
    (cmds : List Spec.UsbIp.Cmd) (acts : List Server.Act) (c : Server.Conn)
    (qs1 qs2 : List Request) (make get a b : Bytes), Laws E ∧ Usable E cfg ∧ CanAttest E (Device.boot E cfg).world.client ∧
    UsedOverUsbIp E cfg grow [] net cmds acts c ∧ DistinctDraws E (Spec.Overlap.sequential c.dev.hid.proc.mem).rnd ∧
    HostOverUsbIp E cfg grow [] net cmds acts c 1 qs1 ∧ HostOverUsbIp E cfg grow [] net cmds acts c 2 qs2 ∧
    onChannel 7 (Spec.Server.given c) ≠ [] ∧
    talk qs1 1 (Spec.Server.seen cmds c) = [(.ctap (1 :: make), .answer (0 :: a))] ∧
    talk qs2 2 (Spec.Server.seen cmds c) = [(.ctap (2 :: get), .answer (0 :: b))] := by
  obtain ⟨c, a, b, h1, h2, h3, h4, h5, h6, h7, -⟩ := Hosts.usbip_example
  exact ⟨toy agree, config false, grow0, Stack.Demo.net, session, usbHello ++ usbWork, c, first, second, _, _, a, b,
    toy_laws agree, config_usable _ _, boot_attests _ _, h1, toy_draws agree h2, h3, h4, h5, h6, h7⟩

end VF.Props
