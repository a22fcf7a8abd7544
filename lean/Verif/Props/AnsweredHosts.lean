import Verif.Props.Answered
import Verif.Props.Server
import Verif.Props.Mac

/-!
# C130: hosts that behave are answered over USB/IP and on macOS

C129 with the transports: C112 and C107 without a panic among their hypotheses.
-/

namespace VF.Props

open VF.Fido VF.Hid VF.Spec.History VF.Spec.Readable VF.Spec.Ctaphid VF.Spec.Live VF.Spec.Calls VF.Spec.Service
open VF.Spec.Client VF.Spec.U2f VF.Spec.UsbIp
open VF.Spec.Stack (onChannel)
open scoped List

variable {E : Env} {cfg : Client.Config} {grow : Nat → Nat → Nat}

/-! ### USB/IP -/

section UsbIp

open VF.Server VF.Spec.Server

variable {net : UsbIp.Net} {cmds : List Cmd}

/-- No command, report, time-out or packet on its way ends the process. -/
theorem C130_usbip_alive (L : Laws E) (hu : Usable E cfg) (hat : CanAttest E (Device.boot E cfg).world.client)
    (hk : aesKeyOk cfg.deviceKey = true) (pre : List Overlap.Event) (k : Driver net cmds) (acts : List Act) {c : Conn}
    (hexec : exec net E cfg grow acts (start cmds ((Overlap.boot E cfg).run E cfg pre)) = some c)
    (hread : ∀ m ∈ cmds.filterMap Spec.Stack.reportOf, Readable m) (hb : HostsBehave E cfg pre c.dev.hid) :
    c.dev.crashed = false := by
  obtain ⟨levs, i, -⟩ := k.inner acts hexec
  obtain ⟨-, hcount⟩ := i.short k
  obtain ⟨done, todo, rs, hinv, hrep⟩ := i.wire
  obtain ⟨h1, h2⟩ := C129_alive L hu hat hk pre levs i.run (by
    intro m hm
    rw [hrep] at hm
    refine hread m ?_
    rw [hinv.split, List.filterMap_append]
    exact List.mem_append_left _ hm) hcount hb
  rw [i.ended]
  unfold ended
  rw [h1, h2]
  rfl

/-- On a channel announced before its first report, with each report read when those before it have been dealt with: when
the device has come to rest and the client has fetched what was sent, it has the results of all its requests in order. -/
theorem C130_usbip_in_order (L : Laws E) (hu : Usable E cfg) (hat : CanAttest E (Device.boot E cfg).world.client)
    (hk : aesKeyOk cfg.deviceKey = true) (pre : List Overlap.Event) (k : Driver net cmds) (acts1 acts2 : List Act) {c1 c : Conn}
    (hexec1 : exec net E cfg grow acts1 (start cmds ((Overlap.boot E cfg).run E cfg pre)) = some c1)
    (hexec : exec net E cfg grow (acts1 ++ acts2) (start cmds ((Overlap.boot E cfg).run E cfg pre)) = some c)
    (hread : ∀ m ∈ cmds.filterMap Spec.Stack.reportOf, Readable m) (hb : HostsBehave E cfg pre c.dev.hid)
    (hrest : AtRest net E cfg grow c) (hheld : held c = []) {cid : UInt32} (hcid : cid ≠ 0xFFFFFFFF) (h0 : cid ≠ 0)
    (hann : Spec.Server.Announced cmds c1 cid) (hnew : onChannel cid (Spec.Server.given c1) = [])
    (hone : Spec.Server.OneByOne net E cfg grow (start cmds ((Overlap.boot E cfg).run E cfg pre)) (acts1 ++ acts2) cid)
    (qs : List Request) (hq : ∀ q ∈ qs, q.WellSent cid)
    (hin : onChannel cid (Spec.Server.given c) = qs.flatMap (·.packets)) :
    ∃ handled refused calls,
      Account (Spec.Server.given c) (seen cmds c) c.dev.hid.proc.threads handled refused [] calls ∧
      asked (callsOn cid calls) = wanted qs ∧ (∀ k ∈ calls, k.answer.isSome = true) ∧
      ((∀ k ∈ calls, ∀ a, k.answer = some a → a ≠ [] ∧ a.length ≤ 7609) →
        answers (onChannel cid (seen cmds c)) = results (callsOn cid calls)) := by
  have hcr := C130_usbip_alive L hu hat hk pre k _ hexec hread hb
  obtain ⟨hidle, -, -⟩ := C112_at_rest pre k _ hexec hcr hrest
  exact C112_in_order k acts1 acts2 hexec1 hexec hcr hidle hheld hcid h0 hann hnew hone qs hq hin

/-- Whatever has happened, the device can come to rest without anybody doing anything, and must, if nobody does (C112). -/
theorem C130_usbip_comes_to_rest (c : Conn) : ∃ acts c',
    (∀ a ∈ acts, (∃ choice, a = .send choice) ∨ ∃ e, a = .inside e ∧ Live.internal e = true) ∧
    exec net E cfg grow acts c = some c' ∧ AtRest net E cfg grow c' := by
  suffices key : ∀ (l : Live.State), Acc (Live.Follows E cfg grow) l → ∀ (m : Nat) (c : Conn), c.dev.outbox.length = m →
      c.dev.hid = l → ∃ acts c',
      (∀ a ∈ acts, (∃ choice, a = .send choice) ∨ ∃ e, a = .inside e ∧ Live.internal e = true) ∧
      exec net E cfg grow acts c = some c' ∧ AtRest net E cfg grow c' from
    key _ (Live.acc_follows E cfg grow _) _ c rfl rfl
  intro l hl
  induction hl with
  | intro l _ ih =>
    intro m
    induction m using Nat.strongRecOn with
    | ind m ihm =>
      intro c hm hc
      by_cases h1 : ∃ choice c', step net E cfg grow (.send choice) c = some c'
      · obtain ⟨choice, c', h1⟩ := h1
        have h2 := h1
        unfold step at h2
        split at h2
        · cases h2
        dsimp only at h2
        have hh := Stack.send_hid h2
        have hlt : c'.dev.outbox.length < m := by
          unfold Stack.send at h2
          split at h2
          · cases h2
          · rename_i p ps hob
            rw [← Option.some.inj h2, ← hm, hob]
            show ps.length < _
            simp
        obtain ⟨acts, c2, g1, g2, g3⟩ := ihm _ hlt c' rfl (by rw [hh]; exact hc)
        refine ⟨.send choice :: acts, c2, ?_, ?_, g3⟩
        · intro a ha
          rcases List.mem_cons.1 ha with rfl | ha
          · exact .inl ⟨_, rfl⟩
          · exact g1 a ha
        · rw [exec, h1]
          exact g2
      · by_cases h2 : ∃ e c', Live.internal e = true ∧ step net E cfg grow (.inside e) c = some c'
        · obtain ⟨e, c', he, h2⟩ := h2
          have h3 := h2
          unfold step at h3
          split at h3
          · cases h3
          dsimp only at h3
          obtain ⟨l', ps, h4, -, h5, -⟩ := inside_eq h3
          obtain ⟨acts, c2, g1, g2, g3⟩ := ih l' ⟨e, he, by rw [← hc]; exact h4⟩ _ c' rfl (by rw [h5])
          refine ⟨.inside e :: acts, c2, ?_, ?_, g3⟩
          · intro a ha
            rcases List.mem_cons.1 ha with rfl | ha
            · exact .inr ⟨_, rfl, he⟩
            · exact g1 a ha
          · rw [exec, h2]
            exact g2
        · refine ⟨[], c, by simp, rfl, ?_, ?_⟩
          · intro choice
            cases h : step net E cfg grow (.send choice) c with
            | none => rfl
            | some c' => exact absurd ⟨choice, c', h⟩ h1
          · intro e ha hka
            cases h : step net E cfg grow (.inside e) c with
            | none => rfl
            | some c' =>
              exfalso
              refine h2 ⟨e, c', ?_, h⟩
              cases e with
              | report m =>
                unfold step at h
                split at h <;> cases h
              | step i => rfl
              | work k => rfl
              | «return» i => rfl
              | keepalive i => exact absurd rfl (hka i)
              | api op => exact absurd rfl (ha op)

end UsbIp

/-! ### macOS -/

section Mac

open VF.Mac VF.Spec.Mac

/-- Nothing ends the process. -/
theorem C130_mac_alive (L : Laws E) (hu : Usable E cfg) (hat : CanAttest E (Device.boot E cfg).world.client)
    (hk : aesKeyOk cfg.deviceKey = true) (pre : List Overlap.Event) (evs : List Mac.Event) {s : Mac.State}
    (hrun : (Mac.State.start ((Overlap.boot E cfg).run E cfg pre)).run E cfg grow evs = some s)
    (hread : ∀ m ∈ sent evs, Readable m) (hcount : (sent evs).length < 4294967295) (hb : HostsBehave E cfg pre s.live) :
    s.live.hid.crashed = false ∧ s.live.proc.alive = true := by
  obtain ⟨levs, i⟩ := inner evs hrun
  have hsub : levs.filterMap Live.reportOf <+ sent evs := (List.sublist_append_left _ _).trans i.order
  exact C129_alive L hu hat hk pre levs i.run (fun m hm => hread m (hsub.subset hm))
    (Nat.lt_of_le_of_lt hsub.length_le hcount) hb

/-- On a channel announced before its first report: whatever the pace, as long as the driver has room, when the device has
come to rest the host has the results of all its requests in order. -/
theorem C130_mac_in_order (L : Laws E) (hu : Usable E cfg) (hat : CanAttest E (Device.boot E cfg).world.client)
    (hk : aesKeyOk cfg.deviceKey = true) (pre : List Overlap.Event) (evs1 evs2 : List Mac.Event) {s1 s : Mac.State}
    (hrun1 : (Mac.State.start ((Overlap.boot E cfg).run E cfg pre)).run E cfg grow evs1 = some s1)
    (hrun : s1.run E cfg grow evs2 = some s)
    (hread : ∀ m ∈ sent (evs1 ++ evs2), Readable m) (hcount : (sent (evs1 ++ evs2)).length < 4294967295)
    (hb : HostsBehave E cfg pre s.live)
    (hpaced : Paced E cfg grow (.start ((Overlap.boot E cfg).run E cfg pre)) (evs1 ++ evs2)) (hrest : AtRest E cfg grow s)
    {cid : UInt32} (hcid : cid ≠ 0xFFFFFFFF)
    (hann : ∃ nonce : Bytes, nonce.length = 8 ∧ initAnswer nonce cid ∈ s1.input) (hnew : onChannel cid (sent evs1) = [])
    (qs : List Request) (hq : ∀ q ∈ qs, q.WellSent cid) (hin : onChannel cid (sent evs2) = qs.flatMap (·.packets)) :
    ∃ handled refused calls,
      Account (sent (evs1 ++ evs2)) s.input s.live.proc.threads handled refused [] calls ∧
      asked (callsOn cid calls) = wanted qs ∧ (∀ k ∈ calls, k.answer.isSome = true) ∧
      ((∀ k ∈ calls, ∀ a, k.answer = some a → a ≠ [] ∧ a.length ≤ 7609) →
        answers (onChannel cid s.input) = results (callsOn cid calls)) := by
  have hrun12 : (Mac.State.start ((Overlap.boot E cfg).run E cfg pre)).run E cfg grow (evs1 ++ evs2) = some s := by
    rw [Mac.run_append, hrun1]; exact hrun
  obtain ⟨h1, h2⟩ := C130_mac_alive L hu hat hk pre _ hrun12 hread hcount hb
  exact C107_all_answered pre evs1 evs2 hrun1 hrun h1 h2 (fun m hm => Nat.le_of_eq (hread m hm).1) hcount hpaced hrest hcid
    hann hnew qs hq hin

/-- Whatever has happened, the device can come to rest without anybody doing anything, and must, if nobody does (C107). -/
theorem C130_mac_comes_to_rest (s : Mac.State) : ∃ evs s',
    (∀ a ∈ evs, a = .notice ∨ ∃ e, a = .inside e ∧ Live.internal e = true) ∧
    s.run E cfg grow evs = some s' ∧ AtRest E cfg grow s' := by
  suffices key : ∀ (k : Nat) (l : Live.State), Acc (Live.Follows E cfg grow) l → ∀ (s : Mac.State), s.notices = k →
      s.live = l → ∃ evs s', (∀ a ∈ evs, a = .notice ∨ ∃ e, a = .inside e ∧ Live.internal e = true) ∧
        s.run E cfg grow evs = some s' ∧ AtRest E cfg grow s' from
    key _ _ (Live.acc_follows E cfg grow _) s rfl rfl
  intro k
  induction k using Nat.strongRecOn with
  | ind k ihk =>
    intro l hl
    induction hl with
    | intro l _ ih =>
      intro s hs hl
      by_cases h1 : ∃ s', s.step E cfg grow .notice = some s'
      · obtain ⟨s', h1⟩ := h1
        have hlt : s'.notices < s.notices := by
          have h : s.notice E cfg grow = some s' := h1
          unfold Mac.State.notice at h
          split at h
          · cases h
          · rename_i hc
            simp only [not_or] at hc
            split at h
            · rw [← Option.some.inj h]; dsimp only; omega
            · obtain ⟨l', -, h'⟩ := Option.map_eq_some_iff.mp h
              rw [← h']; dsimp only; omega
        obtain ⟨evs, s2, g1, g2, g3⟩ := ihk _ (by rw [hs] at hlt; exact hlt) _ (Live.acc_follows E cfg grow _) s' rfl rfl
        refine ⟨.notice :: evs, s2, ?_, ?_, g3⟩
        · intro a ha
          rcases List.mem_cons.1 ha with rfl | ha
          · exact .inl rfl
          · exact g1 a ha
        · rw [Mac.State.run, h1]
          exact g2
      · by_cases h2 : ∃ e s', Live.internal e = true ∧ s.step E cfg grow (.inside e) = some s'
        · obtain ⟨e, s', he, h2⟩ := h2
          have h := h2
          unfold Mac.State.step at h
          dsimp only at h
          split at h
          · cases h
          · obtain ⟨l', h3, h'⟩ := Option.map_eq_some_iff.mp h
            obtain ⟨evs, s2, g1, g2, g3⟩ := ih l' ⟨e, he, by rw [← hl]; exact h3⟩ s' (by rw [← h']; exact hs) (by rw [← h'])
            refine ⟨.inside e :: evs, s2, ?_, ?_, g3⟩
            · intro a ha
              rcases List.mem_cons.1 ha with rfl | ha
              · exact .inr ⟨_, rfl, he⟩
              · exact g1 a ha
            · rw [Mac.State.run, h2]
              exact g2
        · refine ⟨[], s, by simp, rfl, ?_, ?_⟩
          · cases h : s.step E cfg grow .notice with
            | none => rfl
            | some s' => exact absurd ⟨s', h⟩ h1
          · intro e ha hka
            cases h : s.step E cfg grow (.inside e) with
            | none => rfl
            | some s' =>
              exfalso
              refine h2 ⟨e, s', ?_, h⟩
              cases e with
              | report m => cases h
              | step i => rfl
              | work k => rfl
              | «return» i => rfl
              | keepalive i => exact absurd rfl (hka i)
              | api op => exact absurd rfl (ha op)

end Mac

/-! ### Cases -/

theorem readable_of {m : Bytes} {cid : UInt32} {cmd : UInt8} (h1 : m.length = 64) (h2 : channelOf m = some cid)
    (h3 : commandOf m = some cmd) (h4 : cmd.toNat < 0x80 ∨ cmd = 0x91 ∨ Known cid cmd) : Readable m := by
  refine ⟨h1, fun cid' cmd' g1 g2 g3 => ?_⟩
  rw [h2] at g1
  rw [h3] at g2
  cases g1
  cases g2
  rcases h4 with h4 | h4
  · exact absurd g3 (by omega)
  · exact h4

/-- Hosts that only ask what the device is and which version of U2F it speaks behave. -/
theorem asking_behaves {s : Live.State} (zs : Bytes)
    (hg : given ((Overlap.boot E cfg).run E cfg []) s = [.ctap (4 :: zs), .u2f [0, 3, 0, 0, 0, 0, 0]]) :
    HostsBehave E cfg [] s := by
  refine ⟨⟨fun op h => (by cases h), ?_⟩, ?_, ?_⟩
  · intro x y z h _
    have := congrArg List.length h
    simp only [List.length_nil, List.length_append] at this
    obtain rfl := List.length_eq_zero_iff.1 (show y.length = 0 by omega)
    simp
  · rw [hg]
    intro op ho
    simp only [List.mem_cons, List.not_mem_nil, or_false] at ho
    rcases ho with rfl | rfl
    · exact .getInfo zs
    · exact .version (p1 := 0) (data := []) .answerLength
  · rw [hg]
    intro x y h _
    have := congrArg List.length h
    simp only [List.length_nil, List.length_append] at this
    obtain rfl := List.length_eq_zero_iff.1 (show y.length = 0 by omega)
    exact Nat.le_trans List.countP_le_length (by simp)

/-- The example of C112 is of a client that behaves. -/
theorem C130_usbip_case : ∃ (E : Env) (cfg : Client.Config) (grow : Nat → Nat → Nat) (net : UsbIp.Net) (cmds : List Cmd)
    (acts1 acts2 : List Server.Act) (c1 c : Server.Conn) (qs : List Request), Laws E ∧ Usable E cfg ∧
    CanAttest E (Device.boot E cfg).world.client ∧ aesKeyOk cfg.deviceKey = true ∧ Server.Driver net cmds ∧
    Server.exec net E cfg grow acts1 (Spec.Server.start cmds ((Overlap.boot E cfg).run E cfg [])) = some c1 ∧
    Server.exec net E cfg grow (acts1 ++ acts2) (Spec.Server.start cmds ((Overlap.boot E cfg).run E cfg [])) = some c ∧
    (∀ m ∈ cmds.filterMap Spec.Stack.reportOf, Readable m) ∧ HostsBehave E cfg [] c.dev.hid ∧
    Spec.Server.AtRest net E cfg grow c ∧ Spec.Server.held c = [] ∧ Spec.Server.Announced cmds c1 1 ∧
    onChannel 1 (Spec.Server.given c1) = [] ∧
    Spec.Server.OneByOne net E cfg grow (Spec.Server.start cmds ((Overlap.boot E cfg).run E cfg [])) (acts1 ++ acts2) 1 ∧
    qs.length = 2 ∧ (∀ q ∈ qs, q.WellSent 1) ∧ onChannel 1 (Spec.Server.given c) = qs.flatMap (·.packets) := by
  have h1 : (Server.Example.at' Server.Example.hello).map (fun c =>
      ((Spec.Server.received Server.Example.session c).elem (initAnswer [1, 2, 3, 4, 5, 6, 7, 8] 1),
        onChannel 1 (Spec.Server.given c))) = some (true, []) := by decide +kernel
  obtain ⟨c1, hc1, h1⟩ := Option.map_eq_some_iff.mp h1
  obtain ⟨c, hc, h⟩ := Option.map_eq_some_iff.mp Server.Example.summary
  simp only [Prod.mk.injEq] at h h1
  obtain ⟨⟨g1, g2, g3⟩, g4, g5, g6⟩ := h
  have hg : given ((Overlap.boot (Toy.toy Toy.agree) (Toy.config false)).run (Toy.toy Toy.agree) (Toy.config false) []) c.dev.hid =
      [.ctap [4], .u2f [0, 3, 0, 0, 0, 0, 0]] := by
    have hd : (Server.Example.at' (Server.Example.hello ++ Server.Example.work)).map (fun c => c.dev.hid.proc.threads.map Spec.Overlap.opOf) =
        some [.ctap [4], .u2f [0, 3, 0, 0, 0, 0, 0]] := by decide +kernel
    rw [hc] at hd
    exact Option.some.inj hd
  have hb : ∀ t ∈ c.dev.hid.proc.threads, Spec.Overlap.busy t = false := by
    intro t ht
    have := List.all_eq_true.mp g3 t ht
    simpa using this
  refine ⟨Toy.toy Toy.agree, Toy.config false, Live.Example.grow0, Stack.Demo.net, Server.Example.session, Server.Example.hello,
    Server.Example.work, c1, c, Server.Example.requests, Toy.toy_laws Toy.agree, Toy.config_usable _ _, Toy.boot_attests _ _,
    by decide +kernel, Server.Example.driver, (show Server.Example.at' _ = _ from hc1), hc, ?_, asking_behaves [] hg,
    Server.C112_rest (Live.Example.ended_idle g2) hb g5, g4, ⟨[1, 2, 3, 4, 5, 6, 7, 8], rfl, List.elem_iff.mp h1.1⟩, h1.2,
    Server.Example.checked_oneByOne _ _ (by decide +kernel), rfl, ?_, g6⟩
  · have hl : Server.Example.session.filterMap Spec.Stack.reportOf = [Live.Example.initReport, Live.Example.infoReport,
      Server.Example.versionReport] := by decide +kernel
    rw [hl]
    simp only [List.mem_cons, List.not_mem_nil, or_false, forall_eq_or_imp, forall_eq]
    exact ⟨readable_of (cid := 0xFFFFFFFF) (cmd := 0x86) (by decide +kernel) (by decide +kernel) (by decide +kernel)
        (.inr (.inr (.inl rfl))),
      readable_of (cid := 1) (cmd := 0x90) (by decide +kernel) (by decide +kernel) (by decide +kernel)
        (.inr (.inr (.inr (.inl rfl)))),
      readable_of (cid := 1) (cmd := 0x83) (by decide +kernel) (by decide +kernel) (by decide +kernel)
        (.inr (.inr (.inl rfl)))⟩
  · intro q hq
    simp only [Server.Example.requests, List.mem_cons, List.not_mem_nil, or_false] at hq
    rcases hq with rfl | rfl
    · exact ⟨by unfold Begins; decide, [4] ++ List.replicate 56 0, [], by decide +kernel, by decide, by decide,
        by decide, by decide, by simp⟩
    · exact ⟨by unfold Begins; decide, [0, 3, 0, 0, 0, 0, 0] ++ List.replicate 50 0, [], by decide +kernel, by decide,
        by decide, by decide, by decide, by simp⟩

/-- The example of C107 is of a host that behaves; one of its requests takes two reports. -/
theorem C130_mac_case : ∃ (E : Env) (cfg : Client.Config) (grow : Nat → Nat → Nat) (evs1 evs2 : List Mac.Event)
    (s1 s : Mac.State) (qs : List Request), Laws E ∧ Usable E cfg ∧
    CanAttest E (Device.boot E cfg).world.client ∧ aesKeyOk cfg.deviceKey = true ∧
    (Mac.State.start ((Overlap.boot E cfg).run E cfg [])).run E cfg grow evs1 = some s1 ∧
    s1.run E cfg grow evs2 = some s ∧ (∀ m ∈ Spec.Mac.sent (evs1 ++ evs2), Readable m) ∧
    (Spec.Mac.sent (evs1 ++ evs2)).length = 4 ∧ HostsBehave E cfg [] s.live ∧
    Spec.Mac.Paced E cfg grow (.start ((Overlap.boot E cfg).run E cfg [])) (evs1 ++ evs2) ∧ Spec.Mac.AtRest E cfg grow s ∧
    (∃ nonce : Bytes, nonce.length = 8 ∧ initAnswer nonce 1 ∈ s1.input) ∧ onChannel 1 (Spec.Mac.sent evs1) = [] ∧
    qs.length = 2 ∧ (∀ q ∈ qs, q.WellSent 1) ∧ onChannel 1 (Spec.Mac.sent evs2) = qs.flatMap (·.packets) := by
  have h1 : (Mac.Example.at' Mac.Example.hello).map (fun s => s.input.elem (initAnswer [1, 2, 3, 4, 5, 6, 7, 8] 1)) =
      some true := by decide +kernel
  obtain ⟨s1, hs1, h1⟩ := Option.map_eq_some_iff.mp h1
  obtain ⟨s, hs, h⟩ := Option.map_eq_some_iff.mp Mac.Example.summary
  simp only [Prod.mk.injEq] at h
  obtain ⟨⟨g1, g2, g3⟩, -, g4, -, g5⟩ := h
  have hg : given ((Overlap.boot (Toy.toy Toy.agree) (Toy.config false)).run (Toy.toy Toy.agree) (Toy.config false) []) s.live =
      [.ctap (4 :: List.replicate 60 0), .u2f [0, 3, 0, 0, 0, 0, 0]] := by
    have hd : (Mac.Example.at' (Mac.Example.hello ++ Mac.Example.work)).map (fun s => s.live.proc.threads.map Spec.Overlap.opOf) =
        some [.ctap (4 :: List.replicate 60 0), .u2f [0, 3, 0, 0, 0, 0, 0]] := by decide +kernel
    rw [hs] at hd
    exact Option.some.inj hd
  refine ⟨Toy.toy Toy.agree, Toy.config false, Live.Example.grow0, Mac.Example.hello, Mac.Example.work, s1, s,
    Mac.Example.requests, Toy.toy_laws Toy.agree, Toy.config_usable _ _, Toy.boot_attests _ _, by decide +kernel, hs1, ?_, ?_,
    by decide +kernel, asking_behaves _ hg, Mac.Example.paced_of_few (by decide +kernel),
    Mac.C107_rest (Live.Example.ended_idle g1) ?_ g4, ⟨[1, 2, 3, 4, 5, 6, 7, 8], rfl, List.elem_iff.mp h1⟩, by decide +kernel,
    rfl, ?_, by decide +kernel⟩
  · have e : Mac.Example.at' (Mac.Example.hello ++ Mac.Example.work) = (Mac.Example.at' Mac.Example.hello).bind fun s' =>
        s'.run (Toy.toy Toy.agree) (Toy.config false) Live.Example.grow0 Mac.Example.work :=
      Mac.run_append Mac.Example.hello Mac.Example.work Mac.Example.boot
    rw [hs1, Option.bind_some] at e
    rw [← e]
    exact hs
  · have hl : Spec.Mac.sent (Mac.Example.hello ++ Mac.Example.work) =
        [Live.Example.initReport] ++ Mac.Example.infoPackets ++ Mac.Example.versionPackets := by decide +kernel
    have key : ∀ m ∈ [Live.Example.initReport] ++ Mac.Example.infoPackets ++ Mac.Example.versionPackets, m.length = 64 ∧
        ((channelOf m = some 0xFFFFFFFF ∧ commandOf m = some 0x86) ∨ (channelOf m = some 1 ∧
          (commandOf m = some 0x90 ∨ commandOf m = some 0x83 ∨ commandOf m = some 0))) := by decide +kernel
    rw [hl]
    intro m hm
    obtain ⟨k0, k | ⟨k1, k | k | k⟩⟩ := key m hm
    · exact readable_of k0 k.1 k.2 (.inr (.inr (.inl rfl)))
    · exact readable_of k0 k1 k (.inr (.inr (.inr (.inl rfl))))
    · exact readable_of k0 k1 k (.inr (.inr (.inl rfl)))
    · exact readable_of k0 k1 k (.inl (by decide))
  · intro t ht
    have := List.all_eq_true.mp g5 t ht
    simpa using this
  · intro q hq
    simp only [Mac.Example.requests, List.mem_cons, List.not_mem_nil, or_false] at hq
    rcases hq with rfl | rfl
    · exact ⟨by unfold Begins; decide, 4 :: List.replicate 56 0, [List.replicate 59 0], by decide +kernel, by decide, by decide,
        by decide +kernel, by decide, by decide⟩
    · exact ⟨by unfold Begins; decide, [0, 3, 0, 0, 0, 0, 0] ++ List.replicate 50 0, [], by decide +kernel, by decide, by decide,
        by decide, by decide, by simp⟩

end VF.Props
