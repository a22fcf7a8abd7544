import Verif.Props.HostsCases
import Verif.Props.HostsSafe

/-!
# Two programs at once, as C139 wants them

The two hosts of C136's example: one creates a credential, the other logs in with it, both with success.
-/

namespace VF.Props

open VF.Fido VF.Hid VF.Spec.History VF.Spec.Ctaphid VF.Spec.Live VF.Spec.Service VF.Spec.Conversation VF.Spec.Hosts
open VF.Spec.Client
open VF.Spec.Overlap (busy OneAtATime operations sequential)
open Toy Hosts

theorem one_of {cid : UInt32} {order : List Served} {e : Op × Reply} (h : [e] = (of cid order).map (·.event)) :
    ∃ z ∈ order, z.channel = cid ∧ z.op = e.1 ∧ z.reply = e.2 := by
  have hm : e ∈ (of cid order).map (·.event) := h ▸ List.mem_singleton.2 rfl
  obtain ⟨z, hz, he⟩ := List.mem_map.1 hm
  obtain ⟨k1, k2⟩ := List.mem_filter.1 hz
  exact ⟨z, k1, by simpa using k2, congrArg Prod.fst he, congrArg Prod.snd he⟩

/-- On macOS. -/
theorem C139_case_mac : ∃ (E : Env) (cfg : Client.Config) (grow : Nat → Nat → Nat) (evs : List Mac.Event) (s : Mac.State),
    Laws E ∧ Usable E cfg ∧ CanAttest E (Device.boot E cfg).world.client ∧ UsedOnMac E cfg grow [] evs s ∧
    DistinctDraws E (sequential s.live.proc.mem).rnd ∧ (operations []).length + (Spec.Mac.sent evs).length < 2 ^ 32 ∧
    ∀ order : List Served, (∀ cid qs, HostOnMac E cfg grow [] evs cid qs → talk qs cid s.input = (of cid order).map (·.event)) →
      (∃ y ∈ order, y.channel = 1 ∧ ∃ data body, y.op = .ctap (1 :: data) ∧ y.reply = .answer (0 :: body)) ∧
      ∃ x ∈ order, x.channel = 2 ∧ ∃ data body, x.op = .ctap (2 :: data) ∧ x.reply = .answer (0 :: body) := by
  obtain ⟨s, a, b, h1, h2, h3, h4, h5, h6, h7⟩ := Hosts.mac_example
  refine ⟨toy agree, config false, _, _, s, toy_laws agree, config_usable _ _, boot_attests _ _, h1, toy_draws agree h2,
    by decide +kernel, fun order ht => ?_⟩
  have t1 := ht 1 first h3
  have t2 := ht 2 second h4
  rw [h5] at t1
  rw [h6] at t2
  obtain ⟨y, y1, y2, y3, y4⟩ := one_of t1
  obtain ⟨x, x1, x2, x3, x4⟩ := one_of t2
  exact ⟨⟨y, y1, y2, _, a, y3, y4⟩, x, x1, x2, _, b, x3, x4⟩

/-- ... and over USB/IP. -/
theorem C139_case_usbip : ∃ (E : Env) (cfg : Client.Config) (grow : Nat → Nat → Nat) (net : UsbIp.Net)
    (cmds : List Spec.UsbIp.Cmd) (acts : List Server.Act) (c : Server.Conn),
    Laws E ∧ Usable E cfg ∧ CanAttest E (Device.boot E cfg).world.client ∧ UsedOverUsbIp E cfg grow [] net cmds acts c ∧
    DistinctDraws E (sequential c.dev.hid.proc.mem).rnd ∧ (operations []).length + (Spec.Server.given c).length < 2 ^ 32 ∧
    ∀ order : List Served, (∀ cid qs, HostOverUsbIp E cfg grow [] net cmds acts c cid qs →
        talk qs cid (Spec.Server.seen cmds c) = (of cid order).map (·.event)) →
      (∃ y ∈ order, y.channel = 1 ∧ ∃ data body, y.op = .ctap (1 :: data) ∧ y.reply = .answer (0 :: body)) ∧
      ∃ x ∈ order, x.channel = 2 ∧ ∃ data body, x.op = .ctap (2 :: data) ∧ x.reply = .answer (0 :: body) := by
  obtain ⟨c, a, b, h1, h2, h3, h4, -, h5, h6, h7⟩ := Hosts.usbip_example
  have hfree : ∀ t ∈ ((Overlap.boot (toy agree) (config false)).run (toy agree) (config false) []).threads, busy t = false :=
    fun t ht => nomatch ht
  have hcount : (operations []).length + (Spec.Server.given c).length < 2 ^ 32 := by
    have := (usbip_hosts (pre := []) trivial hfree h1).2
    show 0 + _ < _
    omega
  refine ⟨toy agree, config false, _, _, _, _, c, toy_laws agree, config_usable _ _, boot_attests _ _, h1, toy_draws agree h2,
    hcount, fun order ht => ?_⟩
  have t1 := ht 1 first h3
  have t2 := ht 2 second h4
  rw [h5] at t1
  rw [h6] at t2
  obtain ⟨y, y1, y2, y3, y4⟩ := one_of t1
  obtain ⟨x, x1, x2, x3, x4⟩ := one_of t2
  exact ⟨⟨y, y1, y2, _, a, y3, y4⟩, x, x1, x2, _, b, x3, x4⟩

end VF.Props
