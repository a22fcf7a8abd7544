import Verif.Props.Conversation
import Verif.Spec.Hosts

/-!
# C136: several hosts at once are served in one order
-/

namespace VF.Mac

open VF.Fido VF.Spec.Mac VF.Spec.Live VF.Live

variable {E : Env} {cfg : Client.Config} {grow : Nat → Nat → Nat}

theorem Inner.none (s : State) : Inner E cfg grow s [] s [] where
  run := rfl
  serial := trivial
  api := fun _ h => nomatch h
  order := by simp [sent]
  paced := fun _ => by simp [sent]
  noticed := id
  held := id

theorem Inner.append {s t u : State} {a b : List Event} {l1 l2 : List Live.Event} (hr : s.run E cfg grow a = some t)
    (i : Inner E cfg grow s a t l1) (j : Inner E cfg grow t b u l2) : Inner E cfg grow s (a ++ b) u (l1 ++ l2) where
  run := by rw [Live.run_append, i.run]; exact j.run
  serial := i.serial.append i.run j.serial
  api := fun op h => by
    rcases List.mem_append.1 h with h | h
    · exact List.mem_append_left _ (i.api op h)
    · exact List.mem_append_right _ (j.api op h)
  order := by
    have h2 : sent (a ++ b) = sent a ++ sent b := by simp [sent]
    rw [List.filterMap_append, List.append_assoc, h2, ← List.append_assoc s.saved]
    refine ((List.Sublist.refl _).append j.order).trans ?_
    rw [← List.append_assoc]
    exact i.order.append (List.Sublist.refl _)
  paced := fun hp => by
    have h2 : sent (a ++ b) = sent a ++ sent b := by simp [sent]
    obtain ⟨p1, p2⟩ := paced_append hp hr
    rw [List.filterMap_append, List.append_assoc, h2, j.paced p2, ← List.append_assoc, i.paced p1, List.append_assoc]
  noticed := fun h => j.noticed (i.noticed h)
  held := fun h => j.held (i.held h)

/-- The same inside, whatever the point at which we look. -/
theorem inner_splits (evs : List Event) : ∀ {s s' : State}, s.run E cfg grow evs = some s' →
    ∃ levs, Inner E cfg grow s evs s' levs ∧ ∀ evs1 evs2 s1, evs = evs1 ++ evs2 → s.run E cfg grow evs1 = some s1 →
      ∃ levs1 levs2, levs = levs1 ++ levs2 ∧ Inner E cfg grow s evs1 s1 levs1 ∧ Inner E cfg grow s1 evs2 s' levs2 := by
  induction evs with
  | nil =>
    intro s s' h
    cases h
    refine ⟨[], .none s, fun evs1 evs2 s1 he hr => ?_⟩
    obtain ⟨rfl, rfl⟩ := List.append_eq_nil_iff.1 he.symm
    cases hr
    exact ⟨[], [], rfl, .none s, .none s⟩
  | cons e evs ih =>
    intro s s' h
    have h' : s.run E cfg grow ([e] ++ evs) = some s' := h
    rw [run_append] at h'
    obtain ⟨t, ht, hrest⟩ := Option.bind_eq_some_iff.1 h'
    obtain ⟨l0, i0⟩ := inner [e] ht
    obtain ⟨levs, i, hs⟩ := ih hrest
    refine ⟨l0 ++ levs, i0.append ht i, fun evs1 evs2 s1 he hr => ?_⟩
    cases evs1 with
    | nil =>
      cases hr
      cases he
      exact ⟨[], _, rfl, .none s, i0.append ht i⟩
    | cons e1 evs1 =>
      cases he
      have hr' : s.run E cfg grow ([e] ++ evs1) = some s1 := hr
      rw [run_append, ht, Option.bind_some] at hr'
      obtain ⟨levs1, levs2, rfl, j1, j2⟩ := hs evs1 evs2 s1 rfl hr'
      exact ⟨l0 ++ levs1, levs2, by rw [List.append_assoc], i0.append ht j1, j2⟩

end VF.Mac

namespace VF.Props

open VF.Fido VF.Hid VF.Spec.History VF.Spec.Ctaphid VF.Spec.Live VF.Spec.Calls VF.Spec.Service VF.Spec.Conversation VF.Spec.Hosts
open VF.Spec.Client VF.Spec.U2f VF.Spec.UsbIp
open VF.Spec.Stack (onChannel)
open VF.Spec.Overlap (busy OneAtATime operations sequential isResult)
open VF.Live (reportOf Idle)
open scoped List

variable {E : Env} {cfg : Client.Config} {grow : Nat → Nat → Nat}

/-- What was carried out for a call. -/
def served (k : Call) : Served := ⟨k.report, k.channel, opFor k.command k.payload, .answer (k.answer.getD [])⟩

/-- It was a request, and answered. -/
def IsRequest (x : Served) : Prop := ((∃ m, x.op = .ctap m) ∨ ∃ m, x.op = .u2f m) ∧ ∃ a, x.reply = .answer a

theorem IsRequest.lasts {x : Served} (h : IsRequest x) : x.op ≠ .restart := by
  rcases h.1 with ⟨m, h⟩ | ⟨m, h⟩ <;> rw [h] <;> exact fun h => nomatch h

theorem results_answered (calls : List Call) (hans : ∀ k ∈ calls, k.answer.isSome = true) :
    results calls = calls.map fun k => (k.command, k.answer.getD []) := by
  induction calls with
  | nil => rfl
  | cons k calls ih =>
    obtain ⟨a, ha⟩ := Option.isSome_iff_exists.1 (hans k (List.mem_cons_self ..))
    have h := ih (fun k hk => hans k (List.mem_cons_of_mem _ hk))
    unfold results at h ⊢
    rw [List.filterMap_cons, ha, List.map_cons, ← h, ha]
    rfl

/-- Whatever hosts do on their channels, in a process that is given reports one at a time. -/
theorem many_hosts (pre : List Overlap.Event) (hpre : OneAtATime E cfg (Overlap.boot E cfg) pre)
    (hfree : ∀ t ∈ ((Overlap.boot E cfg).run E cfg pre).threads, busy t = false)
    (levs : List Live.Event) {s : Live.State}
    (hrun : (Live.State.start ((Overlap.boot E cfg).run E cfg pre)).run E cfg grow levs = some s)
    (hser : Mac.Serial E cfg grow (.start ((Overlap.boot E cfg).run E cfg pre)) levs)
    (hapi : ∀ op, Live.Event.api op ∉ levs)
    (hcr : s.hid.crashed = false) (h64 : ∀ m ∈ levs.filterMap reportOf, m.length ≤ 64)
    (hcount : (levs.filterMap reportOf).length < 4294967295) (hidle : Idle s)
    (hsize : ∀ op a, (op, .answer a) ∈ Spec.Overlap.results s.proc → a ≠ [] ∧ a.length ≤ 7609) :
    ∃ order : List Served,
      OneOrder E cfg (operations pre) (sequential s.proc.mem) (levs.filterMap reportOf) order ∧
      Spec.Overlap.results s.proc = Spec.Overlap.results ((Overlap.boot E cfg).run E cfg pre) ++ order.map (·.event) ∧
      (Spec.Overlap.results ((Overlap.boot E cfg).run E cfg pre) ++ order.map (·.event) =
        (events E cfg (Device.boot E cfg) (operations pre ++ order.map (·.op))).filter isResult) ∧
      (∀ x ∈ order, IsRequest x) ∧
      ∀ levs1 levs2 s1 cid qs, levs = levs1 ++ levs2 →
        (Live.State.start ((Overlap.boot E cfg).run E cfg pre)).run E cfg grow levs1 = some s1 → cid ≠ 0xFFFFFFFF →
        Live.Announced s1 cid → onChannel cid (levs1.filterMap reportOf) = [] → (∀ q ∈ qs, q.WellSent cid) →
        onChannel cid (levs2.filterMap reportOf) = qs.flatMap (·.packets) →
        talk qs cid s.hid.out = (of cid order).map (·.event) ∧ requested qs = (of cid order).map (·.op) := by
  obtain ⟨handled, refused, calls, acc, hnot, hord, hrep, hans, hres, h1, -, h2, hall⟩ :=
    Mac.sequential_of_serial_all pre hpre hfree _ hrun hser hapi hcr h64 hcount hidle
  have hops : (calls.map served).map (·.op) = calls.map fun k => opFor k.command k.payload := by
    rw [List.map_map]; rfl
  have hevs : (calls.map served).map (·.event) =
      calls.map fun k => (opFor k.command k.payload, .answer (k.answer.getD [])) := by
    rw [List.map_map]; rfl
  have hof : ∀ cid, of cid (calls.map served) = (callsOn cid calls).map served := by
    intro cid
    unfold of callsOn
    rw [List.filter_map]
    rfl
  have hpre2 := (C93_sequential pre hpre hfree).2.2
  refine ⟨calls.map served, ⟨?_, ?_, ?_, ?_⟩, by rw [hevs]; exact hall, ?_, ?_, ?_⟩
  · rw [hops, hevs]
    have h2' := h2
    rw [events_two, List.filter_append, ← hpre2] at h2'
    have h3 := List.append_cancel_left h2'
    rw [h3]
    refine List.filter_eq_self.2 fun e he => ?_
    have hlen := congrArg List.length h3
    rw [List.length_map] at hlen
    have hall' : ((events E cfg (Device.after E cfg (Device.boot E cfg) (operations pre))
        (calls.map fun k => opFor k.command k.payload)).filter isResult).length =
        (events E cfg (Device.after E cfg (Device.boot E cfg) (operations pre))
          (calls.map fun k => opFor k.command k.payload)).length := by
      rw [← hlen, events_count, List.length_map]
    exact List.length_filter_eq_length_iff.1 hall' e he
  · rw [hops]; exact h1
  · rw [List.map_map]; exact hrep
  · intro x hx
    obtain ⟨k, hk, rfl⟩ := List.mem_map.1 hx
    refine ⟨fun hb => ?_, acc.sameChannel k hk⟩
    obtain ⟨all, window, -, h⟩ := acc.requests 0xFFFFFFFF
    rw [if_pos rfl] at h
    have hm : k ∈ callsOn 0xFFFFFFFF calls := List.mem_filter.2 ⟨hk, by simpa [served] using hb⟩
    unfold asked at h
    rw [List.map_eq_nil_iff.1 h] at hm
    cases hm
  · rw [hops, hevs]; exact h2
  · intro x hx
    obtain ⟨k, -, rfl⟩ := List.mem_map.1 hx
    refine ⟨?_, _, rfl⟩
    show (∃ m, opFor _ _ = _) ∨ ∃ m, opFor _ _ = _
    unfold opFor
    split
    · exact .inl ⟨_, rfl⟩
    · exact .inr ⟨_, rfl⟩
  · intro levs1 levs2 s1 cid qs heq hrun1 hcid hann hnew hq hin
    have hone : Live.OneByOne E cfg grow ((Overlap.boot E cfg).run E cfg pre) levs cid :=
      fun a b l m heq hr _ r hm _ => (Mac.Serial.at (by rw [← heq]; exact hser) hr) r hm
    have hask : asked (callsOn cid calls) = wanted qs := by
      refine Live.C103_all_heard acc hcid qs hq ?_
      have href : onChannel cid refused = [] := hnot.2 levs1 levs2 s1 cid heq hrun1 hann hnew
      have hsub := (hord cid hone).1
      have hperm := acc.once
      rw [List.append_nil] at hperm
      have hlen : (onChannel cid (handled ++ refused)).length = (onChannel cid (levs.filterMap reportOf)).length :=
        (hperm.filter _).length_eq
      rw [Live.onChannel_append, href, List.append_nil] at hlen
      rw [hsub.eq_of_length hlen, heq, List.filterMap_append, Live.onChannel_append, hnew, hin, List.nil_append]
    have hsz : ∀ k ∈ calls, ∀ a, k.answer = some a → a ≠ [] ∧ a.length ≤ 7609 := by
      intro k hk a ha
      exact hsize _ a (List.mem_filterMap.2 ⟨_, List.mem_of_getElem? (acc.ownResult k hk a ha), rfl⟩)
    have hans2 := hres hsz cid
    rw [results_answered (callsOn cid calls) fun k hk => hans k (List.mem_filter.1 hk).1] at hans2
    rw [hof]
    constructor
    · unfold talk
      rw [hans2, ← hask]
      unfold asked
      rw [List.zip_map', List.map_map, List.map_map]
      rfl
    · unfold requested
      rw [← hask]
      unfold asked
      rw [List.map_map, List.map_map]
      rfl

/-- A device on macOS that any number of hosts use, well-behaved or not: the driver has room for every report, the embedding
program does not call the API, and the device has come to rest. -/
structure UsedOnMac (E : Env) (cfg : Client.Config) (grow : Nat → Nat → Nat) (pre : List Overlap.Event) (evs : List Mac.Event)
    (s : Mac.State) : Prop where
  run : (Mac.State.start ((Overlap.boot E cfg).run E cfg pre)).run E cfg grow evs = some s
  api : Spec.Mac.NoApi evs
  calm : s.live.hid.crashed = false ∧ s.live.proc.alive = true
  short : ∀ m ∈ Spec.Mac.sent evs, m.length ≤ 64
  few : (Spec.Mac.sent evs).length < 4294967295
  paced : Spec.Mac.Paced E cfg grow (.start ((Overlap.boot E cfg).run E cfg pre)) evs
  rest : Spec.Mac.AtRest E cfg grow s
  sizes : ∀ op a, (op, .answer a) ∈ Spec.Overlap.results s.live.proc → a ≠ [] ∧ a.length ≤ 7609

/-- One of them, well-behaved: at some point it is given a channel, nothing having been sent on it, and it sends these
requests on it. -/
structure HostOnMac (E : Env) (cfg : Client.Config) (grow : Nat → Nat → Nat) (pre : List Overlap.Event) (evs : List Mac.Event)
    (cid : UInt32) (qs : List Request) : Prop where
  channel : cid ≠ 0xFFFFFFFF ∧ ∃ evs1 evs2 s1, evs = evs1 ++ evs2 ∧
    (Mac.State.start ((Overlap.boot E cfg).run E cfg pre)).run E cfg grow evs1 = some s1 ∧
    onChannel cid (Spec.Mac.sent evs1) = [] ∧ ∃ nonce : Bytes, nonce.length = 8 ∧ initAnswer nonce cid ∈ s1.input
  wellSent : ∀ q ∈ qs, q.WellSent cid
  sent : onChannel cid (Spec.Mac.sent evs) = qs.flatMap (·.packets)

/-- A device that any number of programs on a USB/IP client use, well-behaved or not. -/
structure UsedOverUsbIp (E : Env) (cfg : Client.Config) (grow : Nat → Nat → Nat) (pre : List Overlap.Event) (net : UsbIp.Net)
    (cmds : List Cmd) (acts : List Server.Act) (c : Server.Conn) : Prop where
  driver : Server.Driver net cmds
  run : Server.exec net E cfg grow acts (Spec.Server.start cmds ((Overlap.boot E cfg).run E cfg pre)) = some c
  api : ∀ op, Server.Act.inside (.api op) ∉ acts
  calm : c.dev.crashed = false
  waits : Waits net E cfg grow (Spec.Server.start cmds ((Overlap.boot E cfg).run E cfg pre)) acts
  rest : Spec.Server.AtRest net E cfg grow c
  fetched : Spec.Server.held c = []
  sizes : ∀ op a, (op, .answer a) ∈ Spec.Overlap.results c.dev.hid.proc → a ≠ [] ∧ a.length ≤ 7609

/-- One of them, well-behaved. -/
structure HostOverUsbIp (E : Env) (cfg : Client.Config) (grow : Nat → Nat → Nat) (pre : List Overlap.Event) (net : UsbIp.Net)
    (cmds : List Cmd) (acts : List Server.Act) (c : Server.Conn) (cid : UInt32) (qs : List Request) : Prop where
  channel : cid ≠ 0xFFFFFFFF ∧ cid ≠ 0 ∧ ∃ acts1 acts2 c1, acts = acts1 ++ acts2 ∧
    Server.exec net E cfg grow acts1 (Spec.Server.start cmds ((Overlap.boot E cfg).run E cfg pre)) = some c1 ∧
    onChannel cid (Spec.Server.given c1) = [] ∧ Spec.Server.Announced cmds c1 cid
  wellSent : ∀ q ∈ qs, q.WellSent cid
  sent : onChannel cid (Spec.Server.given c) = qs.flatMap (·.packets)

theorem mac_hosts {pre : List Overlap.Event} (hpre : OneAtATime E cfg (Overlap.boot E cfg) pre)
    (hfree : ∀ t ∈ ((Overlap.boot E cfg).run E cfg pre).threads, busy t = false) {evs : List Mac.Event} {s : Mac.State}
    (h : UsedOnMac E cfg grow pre evs s) :
    ∃ order : List Served,
      OneOrder E cfg (operations pre) (sequential s.live.proc.mem) (Spec.Mac.sent evs) order ∧
      Spec.Overlap.results s.live.proc = Spec.Overlap.results ((Overlap.boot E cfg).run E cfg pre) ++ order.map (·.event) ∧
      (Spec.Overlap.results ((Overlap.boot E cfg).run E cfg pre) ++ order.map (·.event) =
        (events E cfg (Device.boot E cfg) (operations pre ++ order.map (·.op))).filter isResult) ∧
      (∀ x ∈ order, IsRequest x) ∧
      ∀ cid qs, HostOnMac E cfg grow pre evs cid qs →
        talk qs cid s.input = (of cid order).map (·.event) ∧ requested qs = (of cid order).map (·.op) := by
  obtain ⟨hrun, hapi, ⟨hcr, halive⟩, h64, hcount, hpaced, hrest, hsize⟩ := h
  obtain ⟨hidle, -, hsaved, -⟩ := Mac.C107_at_rest pre _ hrun hcr halive h64 hcount hrest
  obtain ⟨levs, i, hsplit⟩ := Mac.inner_splits evs hrun
  have e : levs.filterMap reportOf = Spec.Mac.sent evs := by
    have := i.paced hpaced
    rw [hsaved, List.append_nil] at this
    exact this
  have hinp : s.input = s.live.hid.out := Mac.input_eq i.run hcr (by rw [e]; exact h64) (by rw [e]; exact hcount)
  obtain ⟨order, o1, o0, o2, o3, o4⟩ := many_hosts pre hpre hfree levs i.run i.serial (fun op hm => hapi op (i.api op hm)) hcr
    (by rw [e]; exact h64) (by rw [e]; exact hcount) hidle hsize
  refine ⟨order, e ▸ o1, o0, o2, o3, fun cid qs hh => ?_⟩
  obtain ⟨⟨hcid, evs1, evs2, s1, rfl, hrun1, hnew, hann⟩, hq, hin⟩ := hh
  obtain ⟨levs1, levs2, rfl, i1, i2⟩ := hsplit evs1 evs2 s1 rfl hrun1
  obtain ⟨hp1, hp2⟩ := Mac.paced_append hpaced hrun1
  have e1 : levs1.filterMap reportOf ++ s1.saved = Spec.Mac.sent evs1 := i1.paced hp1
  have hcr1 : s1.live.hid.crashed = false := Mac.crashed_prefix i2.run hcr
  have hsub1 : levs1.filterMap reportOf <+ Spec.Mac.sent (evs1 ++ evs2) := by
    rw [← e, List.filterMap_append]; exact List.sublist_append_left _ _
  have hin1 : s1.input = s1.live.hid.out := Mac.input_eq i1.run hcr1 (fun m hm => h64 m (hsub1.subset hm))
    (Nat.lt_of_le_of_lt hsub1.length_le hcount)
  rw [hin1] at hann
  have hn1 : onChannel cid (levs1.filterMap reportOf) = [] :=
    Mac.onChannel_sub (by rw [← e1]; exact List.sublist_append_left _ _) hnew
  rw [hinp]
  refine o4 levs1 levs2 s1.live cid qs rfl i1.run hcid hann hn1 hq ?_
  rw [← e, List.filterMap_append, Live.onChannel_append, hn1, List.nil_append] at hin
  exact hin

theorem usbip_hosts {pre : List Overlap.Event} (hpre : OneAtATime E cfg (Overlap.boot E cfg) pre)
    (hfree : ∀ t ∈ ((Overlap.boot E cfg).run E cfg pre).threads, busy t = false) {net : UsbIp.Net} {cmds : List Cmd}
    {acts : List Server.Act} {c : Server.Conn} (h : UsedOverUsbIp E cfg grow pre net cmds acts c) :
    (∃ order : List Served,
      OneOrder E cfg (operations pre) (sequential c.dev.hid.proc.mem) (Spec.Server.given c) order ∧
      Spec.Overlap.results c.dev.hid.proc = Spec.Overlap.results ((Overlap.boot E cfg).run E cfg pre) ++ order.map (·.event) ∧
      (Spec.Overlap.results ((Overlap.boot E cfg).run E cfg pre) ++ order.map (·.event) =
        (events E cfg (Device.boot E cfg) (operations pre ++ order.map (·.op))).filter isResult) ∧
      (∀ x ∈ order, IsRequest x) ∧
      ∀ cid qs, HostOverUsbIp E cfg grow pre net cmds acts c cid qs →
        talk qs cid (Spec.Server.seen cmds c) = (of cid order).map (·.event) ∧
          requested qs = (of cid order).map (·.op)) ∧ (Spec.Server.given c).length < 4294967295 := by
  obtain ⟨k, hexec, hapi, hcr, hwaits, hrest, hheld, hsize⟩ := h
  obtain ⟨hidle, -, -⟩ := Server.C112_at_rest pre k _ hexec hcr hrest
  obtain ⟨levs, i, hpref⟩ := k.inner _ hexec
  obtain ⟨h64, hcount⟩ := i.short k
  have hg := Server.given_eq i
  have hser : Mac.Serial E cfg grow (.start ((Overlap.boot E cfg).run E cfg pre)) levs := by
    refine serial_of fun a b l m heq hra => ?_
    obtain ⟨b1, b2, d1, d2, g1, g2, g3, g4, rfl⟩ := i.origin a b l m heq hra
    exact hwaits b1 b2 d1 d2 m g1 g2 g3 g4
  obtain ⟨order, o1, o0, o2, o3, o4⟩ := many_hosts pre hpre hfree levs i.run hser (fun op hm => hapi op (i.api op hm)) (i.alive hcr).1
    h64 hcount hidle hsize
  refine ⟨⟨order, hg ▸ o1, o0, o2, o3, fun cid qs hh => ?_⟩, hg ▸ hcount⟩
  obtain ⟨⟨hcid, h0, acts1, acts2, c1, rfl, hexec1, hnew, hann⟩, hq, hin⟩ := hh
  obtain ⟨levs1, levs2, rfl, hr⟩ := hpref acts1 acts2 c1 rfl hexec1
  have hg1 : onChannel cid (levs1.filterMap reportOf) = [] := by
    rw [Spec.Server.given, Mac.grown_run levs1 hr] at hnew
    exact hnew
  rw [hg, List.filterMap_append, Live.onChannel_append, hg1, List.nil_append] at hin
  have heq : talk qs cid (Spec.Server.seen cmds c) = talk qs cid c.dev.hid.hid.out := by
    unfold talk
    rw [(Server.seen_prefix k _ hexec cid).2 hheld h0]
  rw [heq]
  exact o4 levs1 levs2 c1.dev.hid cid qs rfl hr hcid (Server.announced_out k acts1 hexec1 hann) hg1 hq hin

theorem order_length {E : Env} {cfg : Client.Config} {before : List Op} {now : World} {sent : List Bytes} {order : List Served}
    (h : OneOrder E cfg before now sent order) : order.length ≤ sent.length := by
  have hnd : (order.map (·.report)).Nodup := h.arrival.imp Nat.ne_of_lt
  have hsub : order.map (·.report) ⊆ List.range sent.length := by
    intro n hn
    obtain ⟨x, hx, rfl⟩ := List.mem_map.1 hn
    obtain ⟨m, hm, -⟩ := Option.bind_eq_some_iff.1 (h.channels x hx).2
    exact List.mem_range.2 (List.getElem?_eq_some_iff.1 hm).1
  have := (hnd.subperm hsub).length_le
  rwa [List.length_map, List.length_range] at this

/-- **On macOS** there is one order of all requests in which the device answered them as it does one after the other; every
well-behaved host, whatever the others do, is told what concerns it. -/
theorem C136_mac {pre : List Overlap.Event} (hpre : OneAtATime E cfg (Overlap.boot E cfg) pre)
    (hfree : ∀ t ∈ ((Overlap.boot E cfg).run E cfg pre).threads, busy t = false) {evs : List Mac.Event} {s : Mac.State}
    (h : UsedOnMac E cfg grow pre evs s) :
    ∃ order : List Served,
      OneOrder E cfg (operations pre) (sequential s.live.proc.mem) (Spec.Mac.sent evs) order ∧
      Spec.Overlap.results s.live.proc = Spec.Overlap.results ((Overlap.boot E cfg).run E cfg pre) ++ order.map (·.event) ∧
      ∀ cid qs, HostOnMac E cfg grow pre evs cid qs →
        talk qs cid s.input = (of cid order).map (·.event) ∧ requested qs = (of cid order).map (·.op) := by
  obtain ⟨order, h1, h0, -, -, h2⟩ := mac_hosts hpre hfree h
  exact ⟨order, h1, h0, h2⟩

/-- **Over USB/IP** likewise. -/
theorem C136_usbip {pre : List Overlap.Event} (hpre : OneAtATime E cfg (Overlap.boot E cfg) pre)
    (hfree : ∀ t ∈ ((Overlap.boot E cfg).run E cfg pre).threads, busy t = false) {net : UsbIp.Net} {cmds : List Cmd}
    {acts : List Server.Act} {c : Server.Conn} (h : UsedOverUsbIp E cfg grow pre net cmds acts c) :
    ∃ order : List Served,
      OneOrder E cfg (operations pre) (sequential c.dev.hid.proc.mem) (Spec.Server.given c) order ∧
      Spec.Overlap.results c.dev.hid.proc = Spec.Overlap.results ((Overlap.boot E cfg).run E cfg pre) ++ order.map (·.event) ∧
      ∀ cid qs, HostOverUsbIp E cfg grow pre net cmds acts c cid qs →
        talk qs cid (Spec.Server.seen cmds c) = (of cid order).map (·.event) ∧ requested qs = (of cid order).map (·.op) := by
  obtain ⟨⟨order, h1, h0, -, -, h2⟩, -⟩ := usbip_hosts hpre hfree h
  exact ⟨order, h1, h0, h2⟩

theorem order_not_restart {pre : List Overlap.Event} (hno : ∀ op ∈ operations pre, op ≠ .restart) {order : List Served}
    (h : ∀ x ∈ order, IsRequest x) : ∀ op ∈ operations pre ++ order.map (·.op), op ≠ .restart := by
  intro op ho
  rcases List.mem_append.1 ho with ho | ho
  · exact hno op ho
  · obtain ⟨x, hx, rfl⟩ := List.mem_map.1 ho
    exact (h x hx).lasts

theorem count_order {f : Op → Bool} {pre : List Overlap.Event} {order : List Served} {n : Nat} (hn : order.length ≤ n)
    (h : (operations pre).length + n + 1 < 2 ^ 32) : (operations pre ++ order.map (·.op)).countP f + 1 < 2 ^ 32 := by
  have : (operations pre ++ order.map (·.op)).countP f ≤ _ := List.countP_le_length
  rw [List.length_append, List.length_map] at this
  omega

theorem settled_order {d : Device} {ops : List Op} {order : List Served}
    (h : Spec.U2fParty.Settled false (events E cfg d ops)) (hno : ∀ x ∈ order, IsRequest x) :
    Spec.U2fParty.Settled false (events E cfg d (ops ++ order.map (·.op))) := by
  rw [events_two]
  refine settled_more (fun e he => ?_) h
  have : e.1 ∈ order.map (·.op) := by
    rw [← events_ops (E := E) (cfg := cfg) (Device.after E cfg d ops) (order.map (·.op))]
    exact List.mem_map.2 ⟨e, he, rfl⟩
  obtain ⟨x, hx, h⟩ := List.mem_map.1 this
  rw [← h]
  exact (hno x hx).lasts

/-- **Relying parties on macOS**: shown all of it in this order, whichever host it came from, a WebAuthn relying party that
checks everything accepts every successful answer to it. -/
theorem C136_mac_accepted (L : Laws E) (hu : Usable E cfg) (hat : CanAttest E (Device.boot E cfg).world.client)
    {pre : List Overlap.Event} (hpre : OneAtATime E cfg (Overlap.boot E cfg) pre)
    (hfree : ∀ t ∈ ((Overlap.boot E cfg).run E cfg pre).threads, busy t = false) (hno : ∀ op ∈ operations pre, op ≠ .restart)
    {evs : List Mac.Event} {s : Mac.State} (h : UsedOnMac E cfg grow pre evs s)
    (hfew : (operations pre).length + (Spec.Mac.sent evs).length + 1 < 2 ^ 32)
    (hdraws : DistinctDraws E (sequential s.live.proc.mem).rnd) :
    ∃ order : List Served,
      OneOrder E cfg (operations pre) (sequential s.live.proc.mem) (Spec.Mac.sent evs) order ∧
      Spec.Overlap.results s.live.proc = Spec.Overlap.results ((Overlap.boot E cfg).run E cfg pre) ++ order.map (·.event) ∧
      (∀ cid qs, HostOnMac E cfg grow pre evs cid qs → talk qs cid s.input = (of cid order).map (·.event)) ∧
      ∀ p : Spec.RelyingParty.Party, Cose.publicOf cfg.certKey = .ok p.anchor → p.demandsUV = false →
        Accepts E p (Spec.Overlap.results ((Overlap.boot E cfg).run E cfg pre) ++ order.map (·.event)) := by
  obtain ⟨order, h1, h0, h2, h3, h4⟩ := mac_hosts hpre hfree h
  refine ⟨order, h1, h0, fun cid qs hh => (h4 cid qs hh).1, fun p hanchor hpuv => ?_⟩
  rw [h1.left] at hdraws
  rw [h2]
  exact accepts_filter (accepts_history L hu hat p hanchor hpuv _ (order_not_restart hno h3) hdraws
    (Nat.lt_of_succ_lt (count_order (order_length h1) hfew)))

/-- **Relying parties over USB/IP.** -/
theorem C136_usbip_accepted (L : Laws E) (hu : Usable E cfg) (hat : CanAttest E (Device.boot E cfg).world.client)
    {pre : List Overlap.Event} (hpre : OneAtATime E cfg (Overlap.boot E cfg) pre)
    (hfree : ∀ t ∈ ((Overlap.boot E cfg).run E cfg pre).threads, busy t = false) (hno : ∀ op ∈ operations pre, op ≠ .restart)
    {net : UsbIp.Net} {cmds : List Cmd} {acts : List Server.Act} {c : Server.Conn}
    (h : UsedOverUsbIp E cfg grow pre net cmds acts c)
    (hfew : (operations pre).length + (Spec.Server.given c).length + 1 < 2 ^ 32)
    (hdraws : DistinctDraws E (sequential c.dev.hid.proc.mem).rnd) :
    ∃ order : List Served,
      OneOrder E cfg (operations pre) (sequential c.dev.hid.proc.mem) (Spec.Server.given c) order ∧
      Spec.Overlap.results c.dev.hid.proc = Spec.Overlap.results ((Overlap.boot E cfg).run E cfg pre) ++ order.map (·.event) ∧
      (∀ cid qs, HostOverUsbIp E cfg grow pre net cmds acts c cid qs →
        talk qs cid (Spec.Server.seen cmds c) = (of cid order).map (·.event)) ∧
      ∀ p : Spec.RelyingParty.Party, Cose.publicOf cfg.certKey = .ok p.anchor → p.demandsUV = false →
        Accepts E p (Spec.Overlap.results ((Overlap.boot E cfg).run E cfg pre) ++ order.map (·.event)) := by
  obtain ⟨⟨order, h1, h0, h2, h3, h4⟩, -⟩ := usbip_hosts hpre hfree h
  refine ⟨order, h1, h0, fun cid qs hh => (h4 cid qs hh).1, fun p hanchor hpuv => ?_⟩
  rw [h1.left] at hdraws
  rw [h2]
  exact accepts_filter (accepts_history L hu hat p hanchor hpuv _ (order_not_restart hno h3) hdraws
    (Nat.lt_of_succ_lt (count_order (order_length h1) hfew)))

/-- **U2F relying parties on macOS.** -/
theorem C136_mac_u2f_accepted (L : Laws E) (hu : Usable E cfg) (hat : CanAttest E (Device.boot E cfg).world.client)
    {pre : List Overlap.Event} (hpre : OneAtATime E cfg (Overlap.boot E cfg) pre)
    (hfree : ∀ t ∈ ((Overlap.boot E cfg).run E cfg pre).threads, busy t = false)
    {evs : List Mac.Event} {s : Mac.State} (h : UsedOnMac E cfg grow pre evs s)
    (hfew : (operations pre).length + (Spec.Mac.sent evs).length + 1 < 2 ^ 32)
    (hnonces : Spec.U2fParty.DistinctNonces E (sequential s.live.proc.mem).rnd) :
    ∃ order : List Served,
      OneOrder E cfg (operations pre) (sequential s.live.proc.mem) (Spec.Mac.sent evs) order ∧
      Spec.Overlap.results s.live.proc = Spec.Overlap.results ((Overlap.boot E cfg).run E cfg pre) ++ order.map (·.event) ∧
      (∀ cid qs, HostOnMac E cfg grow pre evs cid qs → talk qs cid s.input = (of cid order).map (·.event)) ∧
      ∀ p : Spec.U2fParty.Party, Cose.publicOf cfg.certKey = .ok p.anchor →
        (p.checksCounter = true → Spec.U2fParty.Settled false (events E cfg (Device.boot E cfg) (operations pre))) →
        U2fAccepts E p (Spec.Overlap.results ((Overlap.boot E cfg).run E cfg pre) ++ order.map (·.event)) := by
  obtain ⟨order, h1, h0, h2, h3, h4⟩ := mac_hosts hpre hfree h
  refine ⟨order, h1, h0, fun cid qs hh => (h4 cid qs hh).1, fun p hanchor hset => ?_⟩
  rw [h1.left] at hnonces
  rw [h2]
  exact u2fAccepts_filter (u2fAccepts_history L hu hat p hanchor _ (fun hc => settled_order (hset hc) h3) hnonces
    (count_order (order_length h1) hfew))

/-- **U2F relying parties over USB/IP.** -/
theorem C136_usbip_u2f_accepted (L : Laws E) (hu : Usable E cfg) (hat : CanAttest E (Device.boot E cfg).world.client)
    {pre : List Overlap.Event} (hpre : OneAtATime E cfg (Overlap.boot E cfg) pre)
    (hfree : ∀ t ∈ ((Overlap.boot E cfg).run E cfg pre).threads, busy t = false)
    {net : UsbIp.Net} {cmds : List Cmd} {acts : List Server.Act} {c : Server.Conn}
    (h : UsedOverUsbIp E cfg grow pre net cmds acts c)
    (hfew : (operations pre).length + (Spec.Server.given c).length + 1 < 2 ^ 32)
    (hnonces : Spec.U2fParty.DistinctNonces E (sequential c.dev.hid.proc.mem).rnd) :
    ∃ order : List Served,
      OneOrder E cfg (operations pre) (sequential c.dev.hid.proc.mem) (Spec.Server.given c) order ∧
      Spec.Overlap.results c.dev.hid.proc = Spec.Overlap.results ((Overlap.boot E cfg).run E cfg pre) ++ order.map (·.event) ∧
      (∀ cid qs, HostOverUsbIp E cfg grow pre net cmds acts c cid qs →
        talk qs cid (Spec.Server.seen cmds c) = (of cid order).map (·.event)) ∧
      ∀ p : Spec.U2fParty.Party, Cose.publicOf cfg.certKey = .ok p.anchor →
        (p.checksCounter = true → Spec.U2fParty.Settled false (events E cfg (Device.boot E cfg) (operations pre))) →
        U2fAccepts E p (Spec.Overlap.results ((Overlap.boot E cfg).run E cfg pre) ++ order.map (·.event)) := by
  obtain ⟨⟨order, h1, h0, h2, h3, h4⟩, -⟩ := usbip_hosts hpre hfree h
  refine ⟨order, h1, h0, fun cid qs hh => (h4 cid qs hh).1, fun p hanchor hset => ?_⟩
  rw [h1.left] at hnonces
  rw [h2]
  exact u2fAccepts_filter (u2fAccepts_history L hu hat p hanchor _ (fun hc => settled_order (hset hc) h3) hnonces
    (count_order (order_length h1) hfew))

end VF.Props
