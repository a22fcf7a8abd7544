import Verif.Proofs.Server
import Verif.Props.Stack
import Verif.Props.Live

/-!
# Property C112: the device over USB/IP, nothing in one step

A USB/IP client sends the commands `cmds` to a device that was just attached; `acts` is the order in which the command
loop, the goroutines that handle reports, the operations of the authenticator, the embedding program, the sending of
reports and the timers take their steps.
-/

namespace VF.Server

open Fido Spec.Server Spec.UsbIp Spec.Calls Hid Spec.Service Spec.Live Spec.Ctaphid
open Spec.Stack (Session Padded Outstanding onChannel isPoll seqOf replies reports withdraws)
open Spec.Overlap (busy Finished Faithful)
open Spec.Approval (claims agreed)
open Live (Idle)

variable {net : UsbIp.Net} {E : Env} {cfg : Client.Config} {grow : Nat → Nat → Nat} {p0 : Overlap.Process}
  {cmds : List Cmd}

/-- A client's HID driver, and a network that delivers what it is sent: USB/IP commands as a driver sends them, reports
of at most 64 bytes, fewer than 2³² − 1 of them. -/
structure Driver (net : UsbIp.Net) (cmds : List Cmd) : Prop where
  full : UsbIp.FullReads net
  session : Session cmds
  short : ∀ m ∈ cmds.filterMap Spec.Stack.reportOf, m.length ≤ 64
  few : (cmds.filterMap Spec.Stack.reportOf).length < 4294967295

theorem Driver.inner (k : Driver net cmds) (acts : List Act) {c : Conn}
    (h : exec net E cfg grow acts (start cmds p0) = some c) : ∃ levs, Inner net E cfg grow p0 cmds acts c levs ∧
      Prefixes net E cfg grow p0 cmds acts levs :=
  Server.inner k.session k.full k.short k.few acts h

theorem given_eq {acts : List Act} {c : Conn} {levs : List Live.Event} (i : Inner net E cfg grow p0 cmds acts c levs) :
    given c = levs.filterMap Live.reportOf := by
  unfold given
  rw [Mac.grown_run levs i.run]
  rfl

/-- A goroutine is started for every report the client hands over, in the order in which it hands them over. -/
theorem C112_reports_in_order (k : Driver net cmds) (acts : List Act) {c : Conn}
    (hexec : exec net E cfg grow acts (start cmds p0) = some c) :
    ∃ done todo, cmds = done ++ todo ∧ c.stream = (todo.map Cmd.wire).flatten ∧
      given c = done.filterMap Spec.Stack.reportOf := by
  obtain ⟨levs, i, -⟩ := k.inner acts hexec
  obtain ⟨done, todo, rs, hinv, hrep⟩ := i.wire
  exact ⟨done, todo, hinv.split, hinv.stream, by rw [given_eq i, hrep]⟩

/-- The client receives the packets the HID server has written, in this order and each once, except those that are
still held, with reports of zeros in between; while one of its transfers asking for a report is outstanding, none is
held in the buffer. -/
theorem C112_received (k : Driver net cmds) (acts : List Act) {c : Conn}
    (hexec : exec net E cfg grow acts (start cmds p0) = some c) :
    (∃ sent, Padded (received cmds c) sent ∧ c.dev.hid.hid.out = sent ++ held c) ∧
    (∀ cid, cid ≠ 0 → onChannel cid (received cmds c) ++ onChannel cid (held c) = onChannel cid c.dev.hid.hid.out) ∧
    ∀ done todo id, cmds = done ++ todo → c.stream = (todo.map Cmd.wire).flatten →
      Outstanding done (replies cmds c.out) id → held c = c.dev.outbox := by
  obtain ⟨levs, i, -⟩ := k.inner acts hexec
  obtain ⟨done, todo, rs, h, hrep⟩ := i.wire
  have hr : replies cmds c.out = rs := by
    rw [h.out]
    exact Stack.replies_all k.session.2 rs fun r hr => ⟨by rw [h.split]; simp [(h.replied r hr).1], (h.replied r hr).2⟩
  obtain ⟨sent, hpad, hsent⟩ := h.data
  unfold received
  rw [hr]
  refine ⟨⟨sent, hpad, by rw [hsent, List.append_assoc]; rfl⟩, ?_, ?_⟩
  · intro cid hc
    rw [Stack.padded_filter hpad cid hc, hsent]
    simp only [onChannel, held, List.filter_append, List.append_assoc]
  · intro d t id hsplit hstream ho
    obtain ⟨rfl, rfl⟩ := Stack.split_unique (h.split.symm.trans hsplit) (h.stream.symm.trans hstream)
    obtain ⟨poll, hd, hp, hseq, hno⟩ := ho
    have hfate := h.fate poll hd hp
    have hz1 : rs.countP (fun r => r.cmd == poll) = 0 := by
      rw [List.countP_eq_zero]; intro r hr; simpa using (hno r hr).1
    have hz2 : rs.countP (withdraws (seqOf poll)) = 0 := by
      rw [List.countP_eq_zero]; intro r hr; rw [hseq]; simp [(hno r hr).2]
    unfold held
    rcases h.buf.excl with e | e
    · rw [e]; rfl
    · rw [e, hz1, hz2] at hfate
      simp at hfate

/-- On every channel the client has seen the first part of what was written. -/
theorem seen_prefix (k : Driver net cmds) (acts : List Act) {c : Conn}
    (hexec : exec net E cfg grow acts (start cmds p0) = some c) (cid : UInt32) :
    onChannel cid (seen cmds c) <+: onChannel cid c.dev.hid.hid.out ∧
    (held c = [] → cid ≠ 0 → onChannel cid (seen cmds c) = onChannel cid c.dev.hid.hid.out) := by
  obtain ⟨-, h, -⟩ := C112_received k acts hexec
  by_cases hc : cid = 0
  · subst hc
    have : onChannel 0 (seen cmds c) = [] := by
      unfold onChannel seen
      rw [List.filter_filter, List.filter_eq_nil_iff]
      intro p _
      by_cases h : channelOf p = some 0 <;> simp [h]
    rw [this]
    exact ⟨List.nil_prefix, fun _ h => absurd rfl h⟩
  · have e : onChannel cid (seen cmds c) = onChannel cid (received cmds c) := by
      unfold onChannel seen
      rw [List.filter_filter]
      apply List.filter_congr
      intro p _
      by_cases h : channelOf p = some cid
      · simp [h, hc]
      · simp [h]
    have h := h cid hc
    rw [e]
    refine ⟨⟨_, h⟩, fun hh _ => ?_⟩
    rw [hh] at h
    rw [← h]
    exact (List.append_nil _).symm

theorem account_prefix {reports out out' : List Bytes} {threads : List Overlap.Thread} {handled refused pending : List Bytes}
    {calls : List Call} (acc : Account reports out threads handled refused pending calls)
    (h : ∀ cid, onChannel cid out' <+: onChannel cid out) : Account reports out' threads handled refused pending calls where
  once := acc.once
  oneRequestEach := acc.oneRequestEach
  sameChannel := acc.sameChannel
  ownOperation := acc.ownOperation
  operation := acc.operation
  ownResult := acc.ownResult
  requests := acc.requests
  inTurn := acc.inTurn
  received := by
    intro hok cid
    obtain ⟨t, ht⟩ := h cid
    refine List.IsPrefix.trans ?_ (acc.received hok cid)
    rw [← ht]
    exact answers_prefix _ _

theorem received_out (k : Driver net cmds) (acts : List Act) {c : Conn}
    (hexec : exec net E cfg grow acts (start cmds p0) = some c) {p : Bytes} {cid : UInt32} (hp : p ∈ received cmds c)
    (hch : channelOf p = some cid) (h0 : cid ≠ 0) : p ∈ c.dev.hid.hid.out := by
  obtain ⟨-, h, -⟩ := C112_received k acts hexec
  have : p ∈ onChannel cid c.dev.hid.hid.out := by
    rw [← h cid h0]
    exact List.mem_append_left _ (List.mem_filter.mpr ⟨hp, by simp [hch]⟩)
  exact (List.mem_filter.mp this).1

theorem announced_out (k : Driver net cmds) (acts : List Act) {c : Conn}
    (hexec : exec net E cfg grow acts (start cmds p0) = some c) {cid : UInt32} (h : Announced cmds c cid) :
    Live.Announced c.dev.hid cid := by
  obtain ⟨nonce, hn, hm⟩ := h
  exact ⟨nonce, hn, received_out k acts hexec (cid := 0xFFFFFFFF) hm (by rfl) (by decide)⟩

theorem ended_false {l : Live.State} (h : ended l = false) : l.hid.crashed = false ∧ l.proc.alive = true := by
  unfold ended at h
  simpa using h

theorem Inner.alive {acts : List Act} {c : Conn} {levs : List Live.Event} (i : Inner net E cfg grow p0 cmds acts c levs)
    (h : c.dev.crashed = false) : c.dev.hid.hid.crashed = false ∧ c.dev.hid.proc.alive = true :=
  ended_false (by rw [← i.ended]; exact h)

theorem Inner.short {acts : List Act} {c : Conn} {levs : List Live.Event} (k : Driver net cmds)
    (i : Inner net E cfg grow p0 cmds acts c levs) :
    (∀ m ∈ levs.filterMap Live.reportOf, m.length ≤ 64) ∧ (levs.filterMap Live.reportOf).length < 4294967295 := by
  obtain ⟨done, todo, rs, hinv, hrep⟩ := i.wire
  have h1 := k.short
  have h2 := k.few
  rw [hinv.split, List.filterMap_append] at h1 h2
  rw [List.length_append] at h2
  rw [hrep]
  exact ⟨fun m hm => h1 m (List.mem_append_left _ hm), by omega⟩

/-- There is an account of all reports the client has handed over: which were refused, which are still waiting, and which
requests the others made; every request is an operation of the authenticator of its own, and on every channel the answers
the client has seen are the results of its own requests, in order.  No report is refused on the broadcast channel or a
channel the client was told of before its first report on it.  When all goroutines have ended all requests have answers,
and if nothing is held any more the client has seen all of them. -/
theorem C112_account (k : Driver net cmds) (acts : List Act) {c : Conn}
    (hexec : exec net E cfg grow acts (start cmds p0) = some c) (hcr : c.dev.crashed = false) :
    ∃ handled refused pending calls,
      Account (given c) (seen cmds c) c.dev.hid.proc.threads handled refused pending calls ∧
      onChannel 0xFFFFFFFF refused = [] ∧
      (∀ acts1 acts2 c1 cid, acts = acts1 ++ acts2 → exec net E cfg grow acts1 (start cmds p0) = some c1 →
        Announced cmds c1 cid → onChannel cid (given c1) = [] → onChannel cid refused = []) ∧
      Live.NothingElse p0 c.dev.hid calls ∧
      (Idle c.dev.hid → pending = [] ∧ (∀ k ∈ calls, k.answer.isSome = true) ∧
        (held c = [] → (∀ k ∈ calls, ∀ a, k.answer = some a → a ≠ [] ∧ a.length ≤ 7609) →
          ∀ cid, cid ≠ 0 → answers (onChannel cid (seen cmds c)) = results (callsOn cid calls))) := by
  obtain ⟨levs, i, hpre⟩ := k.inner acts hexec
  obtain ⟨h64, hcount⟩ := i.short k
  obtain ⟨handled, refused, pending, calls, acc, hnot, -, honly, -, hid⟩ :=
    Live.C103_account levs i.run (i.alive hcr).1 h64 hcount
  refine ⟨handled, refused, pending, calls, ?_, hnot.1, ?_, honly, ?_⟩
  · rw [given_eq i]
    exact account_prefix acc fun cid => (seen_prefix k acts hexec cid).1
  · rintro acts1 acts2 c1 cid heq h1 hann hnew
    obtain ⟨levs1, levs2, e, hr⟩ := hpre acts1 acts2 c1 heq h1
    refine hnot.2 levs1 levs2 c1.dev.hid cid e hr (announced_out k acts1 h1 hann) ?_
    rw [given, Mac.grown_run levs1 hr] at hnew
    exact hnew
  · intro hidle
    obtain ⟨h1, h2, h3⟩ := hid hidle
    refine ⟨h1, h2, fun hh hok cid h0 => ?_⟩
    rw [(seen_prefix k acts hexec cid).2 hh h0]
    exact h3 hok cid

/-- If the requests on a channel fit in a report each, and none was sent before the client was told of the channel, then,
in whatever order everything takes place, when nothing is going on any more and the client has fetched what was sent,
each of them has been given to the authenticator exactly once, and the client has seen exactly the results, in the order in which they
were given. -/
theorem C112_each_answered_once (k : Driver net cmds) (acts1 acts2 : List Act) {c1 c : Conn}
    (hexec1 : exec net E cfg grow acts1 (start cmds p0) = some c1)
    (hexec : exec net E cfg grow (acts1 ++ acts2) (start cmds p0) = some c) (hcr : c.dev.crashed = false)
    (hidle : Idle c.dev.hid) (hheld : held c = []) {cid : UInt32} (hcid : cid ≠ 0xFFFFFFFF) (h0 : cid ≠ 0)
    (hann : Announced cmds c1 cid) (hnew : onChannel cid (given c1) = [])
    (qs : List Request) (hq : ∀ q ∈ qs, q.WellSent cid) (hone : ∀ q ∈ qs, q.packets.length = 1)
    (hin : onChannel cid (given c) = qs.flatMap (·.packets)) :
    ∃ handled refused calls,
      Account (given c) (seen cmds c) c.dev.hid.proc.threads handled refused [] calls ∧
      (asked (callsOn cid calls)).Perm (wanted qs) ∧ (∀ k ∈ calls, k.answer.isSome = true) ∧
      ((∀ k ∈ calls, ∀ a, k.answer = some a → a ≠ [] ∧ a.length ≤ 7609) →
        answers (onChannel cid (seen cmds c)) = results (callsOn cid calls)) := by
  obtain ⟨levs, i, hpre⟩ := k.inner _ hexec
  obtain ⟨levs1, levs2, rfl, hr⟩ := hpre acts1 acts2 c1 rfl hexec1
  obtain ⟨h64, hcount⟩ := i.short k
  have hg1 : onChannel cid (levs1.filterMap Live.reportOf) = [] := by
    rw [given, Mac.grown_run levs1 hr] at hnew
    exact hnew
  have hg := given_eq i
  rw [hg, List.filterMap_append, Live.onChannel_append, hg1, List.nil_append] at hin
  obtain ⟨handled, refused, calls, acc, h1, h2, h3⟩ := Live.C103_each_answered_once levs1 levs2 hr i.run (i.alive hcr).1 h64
    hcount hidle hcid (announced_out k acts1 hexec1 hann) hg1 qs hq hone hin
  refine ⟨handled, refused, calls, ?_, h1, h2, ?_⟩
  · rw [hg]
    exact account_prefix acc fun cid => (seen_prefix k _ hexec cid).1
  · rw [(seen_prefix k _ hexec cid).2 hheld h0]
    exact h3

/-- If the server reads the reports of a channel only when those before them on the channel have been dealt with, and
none before the client was told of the channel, then, however requests are split into reports, all of them are
given to the authenticator in the order in which they were sent, and the client sees exactly the results, in this
order. -/
theorem C112_in_order (k : Driver net cmds) (acts1 acts2 : List Act) {c1 c : Conn}
    (hexec1 : exec net E cfg grow acts1 (start cmds p0) = some c1)
    (hexec : exec net E cfg grow (acts1 ++ acts2) (start cmds p0) = some c) (hcr : c.dev.crashed = false)
    (hidle : Idle c.dev.hid) (hheld : held c = []) {cid : UInt32} (hcid : cid ≠ 0xFFFFFFFF) (h0 : cid ≠ 0)
    (hann : Announced cmds c1 cid) (hnew : onChannel cid (given c1) = [])
    (hone : OneByOne net E cfg grow (start cmds p0) (acts1 ++ acts2) cid)
    (qs : List Request) (hq : ∀ q ∈ qs, q.WellSent cid)
    (hin : onChannel cid (given c) = qs.flatMap (·.packets)) :
    ∃ handled refused calls,
      Account (given c) (seen cmds c) c.dev.hid.proc.threads handled refused [] calls ∧
      asked (callsOn cid calls) = wanted qs ∧ (∀ k ∈ calls, k.answer.isSome = true) ∧
      ((∀ k ∈ calls, ∀ a, k.answer = some a → a ≠ [] ∧ a.length ≤ 7609) →
        answers (onChannel cid (seen cmds c)) = results (callsOn cid calls)) := by
  obtain ⟨levs, i, hpre⟩ := k.inner _ hexec
  obtain ⟨levs1, levs2, rfl, hr⟩ := hpre acts1 acts2 c1 rfl hexec1
  obtain ⟨h64, hcount⟩ := i.short k
  have hg1 : onChannel cid (levs1.filterMap Live.reportOf) = [] := by
    rw [given, Mac.grown_run levs1 hr] at hnew
    exact hnew
  have hg := given_eq i
  rw [hg, List.filterMap_append, Live.onChannel_append, hg1, List.nil_append] at hin
  have hone' : Live.OneByOne E cfg grow p0 (levs1 ++ levs2) cid := by
    intro a b l m heq hra hch
    obtain ⟨b1, b2, d1, d2, g1, g2, g3, g4, rfl⟩ := i.origin a b l m heq hra
    exact hone b1 b2 d1 d2 m g1 g2 g3 g4 hch
  obtain ⟨handled, refused, calls, acc, h1, h2, h3⟩ := Live.C103_in_order levs1 levs2 hr i.run (i.alive hcr).1 h64
    hcount hidle hcid (announced_out k acts1 hexec1 hann) hg1 hone' qs hq hin
  refine ⟨handled, refused, calls, ?_, h1, h2, ?_⟩
  · rw [hg]
    exact account_prefix acc fun cid => (seen_prefix k _ hexec cid).1
  · rw [(seen_prefix k _ hexec cid).2 hheld h0]
    exact h3

/-- What the client sees on all channels together claims the user's consent to an action no more often than the user gave
it; and every successful answer it sees is about its own request, signed for it, with flags that are true of it, and with
the consent it claims. -/
theorem C112_consent (L : Laws E) (hu : Spec.History.Usable E cfg) (pre : List Overlap.Event) (k : Driver net cmds)
    (acts : List Act) {c : Conn}
    (hexec : exec net E cfg grow acts (start cmds ((Overlap.boot E cfg).run E cfg pre)) = some c)
    (hcr : c.dev.crashed = false) {handled refused pending : List Bytes} {calls : List Call}
    (acc : Account (given c) (seen cmds c) c.dev.hid.proc.threads handled refused pending calls)
    (hok : ∀ k ∈ calls, ∀ a, k.answer = some a → a ≠ [] ∧ a.length ≤ 7609) :
    (∀ (cids : List UInt32) (a : Action), cids.Nodup →
      (cids.flatMap (exchanges (seen cmds c) calls)).countP (fun x => claims x == some a) ≤
        c.dev.hid.proc.mem.world.asks.countP (agreed a)) ∧
    (∀ cid, ∀ x ∈ exchanges (seen cmds c) calls cid, ∃ history i q m,
      c.dev.hid.proc = (Overlap.boot E cfg).run E cfg history ∧ Finished E cfg history i m ∧
      Faithful E x.1 x.2 q m ∧ (∀ a, q = some a → a ∈ c.dev.hid.proc.mem.world.asks)) := by
  obtain ⟨levs, i, -⟩ := k.inner acts hexec
  obtain ⟨h64, hcount⟩ := i.short k
  obtain ⟨_, _, calls', _, oevs, -, tied, -⟩ := Live.live_run levs i.run (i.alive hcr).1 h64 hcount
  have hproc : c.dev.hid.proc = (Overlap.boot E cfg).run E cfg (pre ++ oevs) := by
    rw [tied.run, Overlap.run_append]
  refine ⟨?_, ?_⟩
  · intro cids a hn
    refine Nat.le_trans (Live.count_exchanges acc hok cids hn _) ?_
    have := Props.C94_one_approval_each (cfg := cfg) L hu (pre ++ oevs) a
    rw [← hproc] at this
    exact this
  · intro cid x hx
    obtain ⟨n, hi⟩ := Live.exchange_operation acc hok hx
    rw [hproc] at hi
    obtain ⟨q, m, h1, h2, h3⟩ := Props.C95_own_answer L hu (pre ++ oevs) n x.1 x.2 hi
    refine ⟨pre ++ oevs, n, q, m, hproc, h1, h2, ?_⟩
    rw [hproc]
    exact h3

/-! ## No deadlock and no endless work -/

/-- When nothing more happens by itself and no panic ended the process, all goroutines have ended, no operation is at
work and no packet is on its way to the buffer. -/
theorem C112_at_rest (pre : List Overlap.Event) (k : Driver net cmds) (acts : List Act) {c : Conn}
    (hexec : exec net E cfg grow acts (start cmds ((Overlap.boot E cfg).run E cfg pre)) = some c)
    (hcr : c.dev.crashed = false) (hrest : AtRest net E cfg grow c) :
    Idle c.dev.hid ∧ (∀ t ∈ c.dev.hid.proc.threads, busy t = false) ∧ c.dev.outbox = [] := by
  obtain ⟨levs, i, -⟩ := k.inner acts hexec
  obtain ⟨h64, hcount⟩ := i.short k
  have hob : c.dev.outbox = [] := by
    have := hrest.1 0
    unfold step at this
    rw [if_neg (by rw [hcr]; decide)] at this
    dsimp only at this
    unfold Stack.send at this
    split at this
    · assumption
    · cases this
  have hstuck : Live.Stuck E cfg grow c.dev.hid := by
    intro e he
    have := hrest.2 e (fun op h => by rw [h] at he; cases he) (fun i h => by rw [h] at he; cases he)
    unfold step at this
    rw [if_neg (by rw [hcr]; decide)] at this
    dsimp only at this
    unfold inside at this
    split at this
    · cases he
    · split at this
      · assumption
      · split at this
        · rename_i hp
          unfold passing at hp
          rw [hob] at hp
          cases hp
        · cases this
  obtain ⟨h1, h2⟩ := Live.C104_no_deadlock pre levs i.run (i.alive hcr).1 (i.alive hcr).2 h64 hcount hstuck
  exact ⟨h1, h2, hob⟩

/-- Conversely, then nothing more happens by itself. -/
theorem C112_rest {c : Conn} (h : Idle c.dev.hid) (hb : ∀ t ∈ c.dev.hid.proc.threads, busy t = false)
    (ho : c.dev.outbox = []) : AtRest net E cfg grow c := by
  refine ⟨?_, ?_⟩
  · intro choice
    unfold step
    split
    · rfl
    · dsimp only
      unfold Stack.send
      rw [ho]
  · intro e h1 h2
    unfold step
    split
    · rfl
    · dsimp only
      unfold inside
      split
      · rfl
      · rename_i hr
        rw [Live.C104_rest h hb e (by
          cases e with
          | report m => exact absurd rfl (hr m)
          | api op => exact absurd rfl (h1 op)
          | keepalive i => exact absurd rfl (h2 i)
          | _ => rfl)]

/-- The device works without end only if the client keeps sending commands, the embedding program keeps calling the
API, or keepalives keep being sent. -/
theorem C112_no_endless_work (f : Nat → Conn) :
    ¬ ∀ n, (∃ choice, step net E cfg grow (.send choice) (f n) = some (f (n + 1))) ∨
      (∃ i, step net E cfg grow (.timeout i) (f n) = some (f (n + 1))) ∨
      ∃ e, Live.internal e = true ∧ step net E cfg grow (.inside e) (f n) = some (f (n + 1)) := by
  intro hf
  have key : ∀ (l : Live.State), Acc (Live.Follows E cfg grow) l → ∀ (m n : Nat),
      (f n).dev.outbox.length + (f n).dev.usb.timers.length = m → (f n).dev.hid ≠ l := by
    intro l hl
    induction hl with
    | intro l _ ih =>
      intro m
      induction m using Nat.strongRecOn with
      | ind m ihm =>
        intro n hm hn
        rcases hf n with ⟨choice, h⟩ | ⟨i, h⟩ | ⟨e, he, h⟩
        · unfold step at h
          split at h
          · cases h
          dsimp only at h
          refine ihm _ ?_ (n + 1) rfl (by rw [Stack.send_hid h]; exact hn)
          unfold Stack.send at h
          split at h
          · cases h
          · rename_i p ps hob
            rw [← Option.some.inj h, ← hm, hob]
            dsimp only
            show ps.length + (f n).dev.usb.timers.length < _
            rw [List.length_cons]
            omega
        · unfold step at h
          split at h
          · cases h
          dsimp only at h
          refine ihm _ ?_ (n + 1) rfl (by rw [Stack.timeout_hid h]; exact hn)
          unfold Stack.timeout at h
          split at h
          · cases h
          · rename_i usb k hu
            rw [← Option.some.inj h, ← hm]
            dsimp only
            unfold Usb.timeout at hu
            split at hu
            · cases hu
            · rename_i id k' ht
              have := (List.getElem?_eq_some_iff.mp ht).1
              simp only [Option.some.injEq, Prod.mk.injEq] at hu
              rw [← hu.1]
              dsimp only
              rw [List.length_eraseIdx_of_lt this]
              omega
        · unfold step at h
          split at h
          · cases h
          dsimp only at h
          obtain ⟨l', ps, h1, -, h2, -⟩ := inside_eq h
          refine ih l' ⟨e, he, by rw [← hn]; exact h1⟩ _ (n + 1) rfl ?_
          rw [h2]
  exact key _ (Live.acc_follows E cfg grow _) _ 0 rfl rfl

/-! ## An example

The client gets a channel, asks for GetInfo and, when it has the answer, for the U2F version; a keepalive is sent, and a
transfer asking for a report is not answered in time. -/

namespace Example

open Live.Example (grow0 initReport infoReport)
open Stack.Demo (give ask)

def versionReport : Bytes := (hostPackets 1 0x83 [0, 3, 0, 0, 0, 0, 0] (List.replicate 50 0))[0]!

def session : List Cmd :=
  [give 1 initReport, ask 2, give 3 infoReport, ask 4, ask 5, give 6 versionReport, ask 7, ask 8]

def requests : List Request := [⟨0x90, [4], [infoReport]⟩, ⟨0x83, [0, 3, 0, 0, 0, 0, 0], [versionReport]⟩]

def steps (i n : Nat) : List Act := List.replicate n (.inside (.step i))

def hello : List Act := [.command] ++ steps 0 5 ++ [.send 0, .command] ++ steps 0 1

def work : List Act :=
  [.command] ++ steps 1 3 ++ [.command, .inside (.keepalive 1), .send 0, .inside (.work 0), .inside (.return 1)] ++
  steps 1 2 ++ [.send 0] ++ steps 1 1 ++ [.command, .command] ++ steps 2 3 ++ [.inside (.return 2)] ++ steps 2 2 ++
  [.command, .send 0] ++ steps 2 1 ++ [.command, .timeout 4]

noncomputable def boot : Overlap.Process := Overlap.boot (Toy.toy Toy.agree) (Toy.config false)

noncomputable def at' (acts : List Act) : Option Conn :=
  exec Stack.Demo.net (Toy.toy Toy.agree) (Toy.config false) grow0 acts (start session boot)

theorem driver : Driver Stack.Demo.net session where
  full := Stack.Demo.net_full
  session := by
    refine ⟨?_, by decide⟩
    intro cmd h
    simp only [session, List.mem_cons, List.not_mem_nil, or_false] at h
    rcases h with rfl | rfl | rfl | rfl | rfl | rfl | rfl | rfl
    case inl => exact Stack.Demo.give_usual _ _ (by decide)
    case inr.inr.inl => exact Stack.Demo.give_usual _ _ (by decide)
    case inr.inr.inr.inr.inr.inl => exact Stack.Demo.give_usual _ _ (by decide)
    all_goals exact Stack.Demo.ask_usual _
  short := by decide +kernel
  few := by decide +kernel

theorem summary : (at' (hello ++ work)).map (fun c =>
    ((c.dev.crashed, Live.Example.ended c.dev.hid, c.dev.hid.proc.threads.all fun t => !busy t),
      (held c, c.dev.outbox, onChannel 1 (given c)))) =
      some ((false, true, true), ([], [], requests.flatMap (·.packets))) := by decide +kernel

/-- A check for `OneByOne`. -/
def checked (net : UsbIp.Net) (E : Env) (cfg : Client.Config) (grow : Nat → Nat → Nat) (cid : UInt32) : List Act → Conn → Bool
  | [], _ => true
  | a :: as, c =>
    match step net E cfg grow a c with
    | none => true
    | some c' =>
      (given c' == given c || ((given c').getLast?.bind channelOf != some cid) ||
        c.dev.hid.hid.routines.all fun r => match r.phase with
          | .done => true
          | _ => channelOf r.report != some cid) && checked net E cfg grow cid as c'

theorem checked_oneByOne {cid : UInt32} : ∀ (acts : List Act) (c : Conn), checked net E cfg grow cid acts c = true →
    OneByOne net E cfg grow c acts cid := by
  intro acts
  induction acts with
  | nil => intro c _ acts1 acts2 c1 c2 m h; cases acts1 <;> cases h
  | cons a acts ih =>
    intro c hc acts1 acts2 c1 c2 m heq hx hs hg hch r hr hr2
    unfold checked at hc
    cases acts1 with
    | nil =>
      cases hx
      cases heq
      rw [hs] at hc
      simp only [Bool.and_eq_true] at hc
      have h1 := hc.1
      rw [hg] at h1
      simp [hch] at h1
      have := h1 r hr
      revert this
      cases r.phase <;> intro this <;> first | rfl | (exact absurd hr2 (by simpa using this))
    | cons b acts1 =>
      injection heq with h1 h2
      subst h1
      obtain ⟨c', h3, h4⟩ := Option.bind_eq_some_iff.mp hx
      rw [h3] at hc
      simp only [Bool.and_eq_true] at hc
      exact ih c' hc.2 acts1 acts2 c1 c2 m h2 h4 hs hg hch r hr hr2

/-- The hypotheses of C112 hold. -/
example : ∃ c1 c, at' hello = some c1 ∧ at' (hello ++ work) = some c ∧ c.dev.crashed = false ∧ Idle c.dev.hid ∧ held c = [] ∧
    AtRest Stack.Demo.net (Toy.toy Toy.agree) (Toy.config false) grow0 c ∧ Announced session c1 1 ∧
    onChannel 1 (given c1) = [] ∧ onChannel 1 (given c) = requests.flatMap (·.packets) ∧
    (∀ q ∈ requests, q.packets.length = 1 ∧ q.WellSent 1) ∧
    OneByOne Stack.Demo.net (Toy.toy Toy.agree) (Toy.config false) grow0 (start session boot) (hello ++ work) 1 := by
  have h1 : (at' hello).map (fun c => ((received session c).elem (initAnswer [1, 2, 3, 4, 5, 6, 7, 8] 1), onChannel 1 (given c))) =
      some (true, []) := by decide +kernel
  obtain ⟨c1, hc1, h1⟩ := Option.map_eq_some_iff.mp h1
  obtain ⟨c, hc, h⟩ := Option.map_eq_some_iff.mp summary
  simp only [Prod.mk.injEq] at h h1
  obtain ⟨⟨g1, g2, g3⟩, g4, g5, g6⟩ := h
  have hb : ∀ t ∈ c.dev.hid.proc.threads, busy t = false := by
    intro t ht
    have := List.all_eq_true.mp g3 t ht
    simpa using this
  refine ⟨c1, c, hc1, hc, g1, Live.Example.ended_idle g2, g4, C112_rest (Live.Example.ended_idle g2) hb g5,
    ⟨[1, 2, 3, 4, 5, 6, 7, 8], rfl, List.elem_iff.mp h1.1⟩, h1.2, g6, ?_, checked_oneByOne _ _ (by decide +kernel)⟩
  intro q hq
  simp only [requests, List.mem_cons, List.not_mem_nil, or_false] at hq
  rcases hq with rfl | rfl
  · exact ⟨rfl, by unfold Begins; decide, [4] ++ List.replicate 56 0, [], by decide +kernel, by decide, by decide,
      by decide, by decide, by simp⟩
  · exact ⟨rfl, by unfold Begins; decide, [0, 3, 0, 0, 0, 0, 0] ++ List.replicate 50 0, [], by decide +kernel, by decide,
      by decide, by decide, by decide, by simp⟩

/-- What the client sees on its channel, and that the last report it received is one of zeros. -/
example : (at' (hello ++ work)).map (fun c =>
    ((answers (onChannel 1 (seen session c))).map (·.1), ((answers (onChannel 1 (seen session c))).map (·.2))[1]?,
      (received session c).length, (received session c).getLast?)) =
      some ([0x90, 0x83], some [0x55, 0x32, 0x46, 0x5F, 0x56, 0x32, 0x90, 0x00], 5, some (List.replicate 64 0)) := by
  decide +kernel

/-- A packet is held while the client does not ask for it, and none once it waits for one. -/
example : (at' (hello ++ work.take 13)).map (fun c => (c.dev.usb.buf.responses.length, c.dev.outbox.length)) = some (1, 0) ∧
    (at' (hello ++ work.take 14)).map (fun c => (c.dev.usb.buf.responses.length, c.dev.outbox.length)) = some (0, 0) := by
  decide +kernel

end Example

end VF.Server
