import Verif.Props.HostsCases
import Verif.Props.HostsLogin
import Verif.Props.HostPinCases

/-!
# One program registers, another logs in

The two hosts of C136's example meet the hypotheses of C137 on logins.  For a lone host the order is what it was told, so the
hosts of C132's and C135's examples meet those on U2F and on PINs.
-/

namespace VF.Props

open VF.Fido VF.Hid VF.Spec.History VF.Spec.Ctaphid VF.Spec.Live VF.Spec.Service VF.Spec.Conversation VF.Spec.Hosts
open VF.Spec.Client
open VF.Spec.Stack (onChannel)
open VF.Spec.Overlap (busy OneAtATime operations sequential)
open Toy Hosts

theorem two_served {order : List Served} {res : List (Op × Reply)} {o1 o2 : Op} (h : res = [] ++ order.map (·.event))
    (hr : res.map (·.1) = [o1, o2]) : ∃ y x, order = [y, x] ∧ y.op = o1 ∧ x.op = o2 := by
  subst h
  rcases order with _ | ⟨y, _ | ⟨x, _ | ⟨z, order⟩⟩⟩
  · cases hr
  · cases hr
  · simp only [List.nil_append, List.map_cons, List.map_nil, List.cons.injEq, and_true] at hr
    exact ⟨y, x, rfl, hr.1, hr.2⟩
  · simp at hr

/-- What is shown of the order of the two hosts. -/
theorem two_hosts_case {order : List Served} {res : List (Op × Reply)} {now : World} {sent : List Bytes} {a b : Bytes}
    (ho : OneOrder (toy agree) (config false) [] now sent order) (hall : res = [] ++ order.map (·.event))
    (hres : res.map (·.1) = [.ctap Conversation.makePayload, .ctap Conversation.getPayload])
    (h1 : [(.ctap Conversation.makePayload, .answer (0 :: a))] = (of 1 order).map (·.event))
    (h2 : [(.ctap Conversation.getPayload, .answer (0 :: b))] = (of 2 order).map (·.event))
    (hacc : Accepts (toy agree) Conversation.party (order.map (·.event))) :
    ∃ y x, order = [y, x] ∧ y.channel = 1 ∧ x.channel = 2 ∧
      ∃ (p : Spec.RelyingParty.Party) (r : Spec.RelyingParty.Record) (q : Request) (data : Bytes) (args : GetAssertionArgs),
        x.op = opFor q.command q.payload ∧ HasRegistered (toy agree) p ([y].map (·.event)) r ∧
        AsksLogin (toy agree) (config false) p r ([y].map (·.op)) q data args := by
  obtain ⟨y, x, rfl, hy, hx⟩ := two_served hall hres
  have hne : (Op.ctap Conversation.makePayload) ≠ .ctap Conversation.getPayload := by decide
  have m1 : ∃ z ∈ [y, x], z.channel = 1 ∧ z.event = (.ctap Conversation.makePayload, .answer (0 :: a)) := by
    have hm : _ ∈ (of 1 [y, x]).map (·.event) := h1 ▸ List.mem_singleton.2 rfl
    obtain ⟨z, hz, he⟩ := List.mem_map.1 hm
    obtain ⟨k1, k2⟩ := List.mem_filter.1 hz
    exact ⟨z, k1, by simpa using k2, he⟩
  have m2 : ∃ z ∈ [y, x], z.channel = 2 ∧ z.event = (.ctap Conversation.getPayload, .answer (0 :: b)) := by
    have hm : _ ∈ (of 2 [y, x]).map (·.event) := h2 ▸ List.mem_singleton.2 rfl
    obtain ⟨z, hz, he⟩ := List.mem_map.1 hm
    obtain ⟨k1, k2⟩ := List.mem_filter.1 hz
    exact ⟨z, k1, by simpa using k2, he⟩
  obtain ⟨z1, k1, c1, e1⟩ := m1
  obtain ⟨z2, k2, c2, e2⟩ := m2
  have p1 : z1.op = .ctap Conversation.makePayload := congrArg Prod.fst e1
  have p2 : z2.op = .ctap Conversation.getPayload := congrArg Prod.fst e2
  obtain rfl : z1 = y := by
    simp only [List.mem_cons, List.not_mem_nil, or_false] at k1
    rcases k1 with rfl | rfl
    · rfl
    · rw [p1] at hx; exact absurd hx hne
  obtain rfl : z2 = x := by
    simp only [List.mem_cons, List.not_mem_nil, or_false] at k2
    rcases k2 with rfl | rfl
    · rw [p2] at hy; exact absurd hy.symm hne
    · rfl
  have hl : [z1, z2].map (·.event) =
      [(.ctap Conversation.makePayload, .answer (0 :: a)), (.ctap Conversation.getPayload, .answer (0 :: b))] := by
    rw [List.map_cons, List.map_cons, List.map_nil, e1, e2]
  have hans := ho.answered
  have hops : [z1, z2].map (·.op) = requested Conversation.requests := by
    rw [List.map_cons, List.map_cons, List.map_nil, hy, hx]
    rfl
  rw [hops] at hans
  obtain ⟨r, g1, g2⟩ := Conversation.example_registered hans hl hacc
  have hop : [z1].map (·.op) = requested [Conversation.makeRequest] := by
    rw [List.map_cons, List.map_nil, hy]
    rfl
  exact ⟨z1, z2, rfl, c1, c2, Conversation.party, r, Conversation.getRequest, _, _, hx, g1, by rw [hop]; exact g2⟩

/-- On macOS: whatever the order is that C137 speaks of, the registration on channel 1 comes first, and the login on channel 2
is for this credential and meets the conditions. -/
theorem C137_case_mac : ∃ (E : Env) (cfg : Client.Config) (grow : Nat → Nat → Nat) (evs : List Mac.Event) (s : Mac.State),
    Laws E ∧ Usable E cfg ∧ CanAttest E (Device.boot E cfg).world.client ∧ UsedOnMac E cfg grow [] evs s ∧
    ∀ order, OneOrder E cfg (operations []) (sequential s.live.proc.mem) (Spec.Mac.sent evs) order →
      Spec.Overlap.results s.live.proc = Spec.Overlap.results ((Overlap.boot E cfg).run E cfg []) ++ order.map (·.event) →
      (∀ cid qs, HostOnMac E cfg grow [] evs cid qs → talk qs cid s.input = (of cid order).map (·.event)) →
      ∃ y x, order = [y, x] ∧ y.channel = 1 ∧ x.channel = 2 ∧
        ∃ (p : Spec.RelyingParty.Party) (r : Spec.RelyingParty.Record) (q : Request) (data : Bytes) (args : GetAssertionArgs),
          x.op = opFor q.command q.payload ∧
          HasRegistered E p (Spec.Overlap.results ((Overlap.boot E cfg).run E cfg []) ++ [y].map (·.event)) r ∧
          AsksLogin E cfg p r (operations [] ++ [y].map (·.op)) q data args := by
  obtain ⟨s, a, b, h1, h2, h3, h4, h5, h6, h7⟩ := Hosts.mac_example
  refine ⟨toy agree, config false, _, _, s, toy_laws agree, config_usable _ _, boot_attests _ _, h1, fun order ho hall ht => ?_⟩
  have hfree : ∀ t ∈ ((Overlap.boot (toy agree) (config false)).run (toy agree) (config false) []).threads, busy t = false :=
    fun t ht => nomatch ht
  obtain ⟨order', k1, k2, -, k4⟩ := C136_mac_accepted (toy_laws agree) (config_usable agree false) (boot_attests agree false)
    (pre := []) trivial hfree (fun op ho => nomatch ho) h1 (by decide +kernel) (toy_draws agree h2)
  have hacc := k4 Conversation.party rfl rfl
  rw [← k2, hall] at hacc
  have t1 := ht 1 first h3
  have t2 := ht 2 second h4
  rw [h5] at t1
  rw [h6] at t2
  exact two_hosts_case ho hall h7 t1 t2 hacc

/-- ... and over USB/IP. -/
theorem C137_case_usbip : ∃ (E : Env) (cfg : Client.Config) (grow : Nat → Nat → Nat) (net : UsbIp.Net)
    (cmds : List Spec.UsbIp.Cmd) (acts : List Server.Act) (c : Server.Conn),
    Laws E ∧ Usable E cfg ∧ CanAttest E (Device.boot E cfg).world.client ∧ UsedOverUsbIp E cfg grow [] net cmds acts c ∧
    ∀ order, OneOrder E cfg (operations []) (sequential c.dev.hid.proc.mem) (Spec.Server.given c) order →
      Spec.Overlap.results c.dev.hid.proc = Spec.Overlap.results ((Overlap.boot E cfg).run E cfg []) ++ order.map (·.event) →
      (∀ cid qs, HostOverUsbIp E cfg grow [] net cmds acts c cid qs →
        talk qs cid (Spec.Server.seen cmds c) = (of cid order).map (·.event)) →
      ∃ y x, order = [y, x] ∧ y.channel = 1 ∧ x.channel = 2 ∧
        ∃ (p : Spec.RelyingParty.Party) (r : Spec.RelyingParty.Record) (q : Request) (data : Bytes) (args : GetAssertionArgs),
          x.op = opFor q.command q.payload ∧
          HasRegistered E p (Spec.Overlap.results ((Overlap.boot E cfg).run E cfg []) ++ [y].map (·.event)) r ∧
          AsksLogin E cfg p r (operations [] ++ [y].map (·.op)) q data args := by
  obtain ⟨c, a, b, h1, h2, h3, h4, -, h5, h6, h7⟩ := Hosts.usbip_example
  refine ⟨toy agree, config false, _, _, _, _, c, toy_laws agree, config_usable _ _, boot_attests _ _, h1,
    fun order ho hall ht => ?_⟩
  have hfree : ∀ t ∈ ((Overlap.boot (toy agree) (config false)).run (toy agree) (config false) []).threads, busy t = false :=
    fun t ht => nomatch ht
  have hcount : (operations []).length + (Spec.Server.given c).length + 1 < 2 ^ 32 := by
    have := (usbip_hosts (pre := []) trivial hfree h1).2
    show 0 + _ + 1 < _
    omega
  obtain ⟨order', k1, k2, -, k4⟩ := C136_usbip_accepted (toy_laws agree) (config_usable agree false) (boot_attests agree false)
    (pre := []) trivial hfree (fun op ho => nomatch ho) h1 hcount (toy_draws agree h2)
  have hacc := k4 Conversation.party rfl rfl
  rw [← k2, hall] at hacc
  have t1 := ht 1 first h3
  have t2 := ht 2 second h4
  rw [h5] at t1
  rw [h6] at t2
  exact two_hosts_case ho hall h7 t1 t2 hacc

/-- A lone host is one of several: all that C131 assumes of it is what C136 does, and the order is that of its requests. -/
theorem C137_lone {E : Env} {cfg : Client.Config} {grow : Nat → Nat → Nat} {pre : List Overlap.Event} {evs1 evs2 : List Mac.Event}
    {s1 s : Mac.State} {cid : UInt32} {qs : List Request} (h : OnMac E cfg grow pre evs1 evs2 s1 s cid qs) :
    UsedOnMac E cfg grow pre (evs1 ++ evs2) s ∧ HostOnMac E cfg grow pre (evs1 ++ evs2) cid qs ∧
    ∀ order, OneOrder E cfg (operations pre) (sequential s.live.proc.mem) (Spec.Mac.sent (evs1 ++ evs2)) order →
      (∀ cid qs, HostOnMac E cfg grow pre (evs1 ++ evs2) cid qs → talk qs cid s.input = (of cid order).map (·.event)) →
      order.map (·.event) = talk qs cid s.input ∧ ∀ x ∈ order, x.channel = cid := by
  have hh : HostOnMac E cfg grow pre (evs1 ++ evs2) cid qs :=
    ⟨⟨h.channel.1, evs1, evs2, s1, rfl, h.run1, h.new, h.channel.2⟩, h.wellSent, by
      have := h.sent
      have hnew := h.new
      rw [show Spec.Mac.sent (evs1 ++ evs2) = Spec.Mac.sent evs1 ++ Spec.Mac.sent evs2 from List.filterMap_append ..,
        Live.onChannel_append, hnew, this, List.nil_append]⟩
  refine ⟨⟨?_, h.api, h.calm, h.short, h.few, h.paced, h.rest, h.sizes⟩, hh, fun order ho ht => ?_⟩
  · rw [Mac.run_append, h.run1]
    exact h.run
  · have hch : ∀ x ∈ order, x.channel = cid := by
      intro x hx
      obtain ⟨hb, hc⟩ := ho.channels x hx
      obtain ⟨m, hm, hm2⟩ := Option.bind_eq_some_iff.1 hc
      rcases h.alone m (List.mem_of_getElem? hm) with h' | h'
      · rw [hm2] at h'; exact Option.some.inj h'
      · rw [hm2] at h'; exact absurd (Option.some.inj h') hb
    refine ⟨?_, hch⟩
    rw [ht cid qs hh]
    congr 1
    exact (List.filter_eq_self.2 fun x hx => by simp [hch x hx]).symm

end VF.Props
