import Verif.Proofs.StackFifo
import Verif.Props.HidRequest

/-!
# Properties C83 to C85: the whole transport

A USB/IP client sends the commands `cmds` to a device that was just attached; `acts` is the order in
which the command loop, the goroutines, the response sender and the timers take their steps.
`replies cmds c.out` is what the client has received so far.
-/

namespace VF

open Stack Spec.UsbIp Spec.Stack Spec.Ctaphid

variable {W : Type}

/-! ## C83 -/

/-- When the server reads CMD_UNLINK, it answers at once, and says "withdrawn" just in case
the transfer was waiting, to judge by what the client has been told so far. -/
theorem C83_unlink {net : UsbIp.Net} (hf : UsbIp.FullReads net) (rt : Hid.Runtime) (up : Hid.Upper W)
    {cmds : List Cmd} (hsess : Session cmds) (u : W) (acts : List Act) {c c' : UsbIp.Conn (Dev W)}
    (hexec : exec net rt up acts (start cmds u) = some c) {done todo : List Cmd} {cmd : Cmd} {victim : UInt32}
    (hsplit : cmds = done ++ cmd :: todo) (hnext : c.stream = ((cmd :: todo).map Cmd.wire).flatten)
    (hv : victimOf cmd = some victim) (hstep : step net rt up .command c = some c') :
    ∃ st, replies cmds c'.out = replies cmds c.out ++ [⟨cmd, st, []⟩] ∧
      (Outstanding done (replies cmds c.out) victim → st = withdrawn) ∧
      (¬ Outstanding done (replies cmds c.out) victim → st = notFound) := by
  obtain ⟨d1, t1, rs, h, -, -⟩ := inv_exec hsess hf acts (inv_start cmds u) hexec
  obtain ⟨e1, e2⟩ := split_unique (h.split.symm.trans hsplit) (h.stream.symm.trans hnext)
  rw [e1, e2] at h
  have hn := hsess.2
  have hrep : replies cmds c.out = rs := by
    rw [h.out]
    exact replies_all hn rs fun r hr => ⟨by rw [hsplit]; simp [(h.replied r hr).1], (h.replied r hr).2⟩
  have hu := hsess.1 cmd (by rw [hsplit]; simp)
  obtain ⟨rs', usb', hr, he⟩ := effect_react cmd hu c.dev
  have hs : c.stream = cmd.wire ++ (todo.map Cmd.wire).flatten := by rw [h.stream]; simp
  have hcr : c.dev.crashed = false := by
    unfold step at hstep
    split at hstep
    · simp at hstep
    · rename_i hc; simpa using hc
  have hst : c' = UsbIp.try' (command net) c := by
    unfold step at hstep
    rw [hcr] at hstep
    simpa using hstep.symm
  rw [command_step net hf cmd (usual_wf hu) _ c hs, he] at hst
  cases hr with
  | lost h1 h2 h3 => simp [h3] at hv
  | control h1 h2 h3 => simp [h3] at hv
  | served h1 => simp [poll_victim h1] at hv
  | waits h1 => simp [poll_victim h1] at hv
  | report h1 => simp [report_victim h1] at hv
  | @unlinked victim' hv' =>
    rw [hv'] at hv
    simp only [Option.some.injEq] at hv
    subst hv
    refine ⟨if (Buf.cancelRequest victim' c.dev.usb.buf).2.isSome then withdrawn else notFound, ?_, ?_⟩
    · have hall := replies_all hn (rs ++
          [⟨cmd, if (Buf.cancelRequest victim' c.dev.usb.buf).2.isSome then withdrawn else notFound, []⟩])
        (by
          intro r hr
          rw [List.mem_append] at hr
          rcases hr with hr | hr
          · exact ⟨by rw [hsplit]; simp [(h.replied r hr).1], (h.replied r hr).2⟩
          · simp only [List.mem_singleton] at hr
            subst hr
            refine ⟨by rw [hsplit]; simp, ?_⟩
            cases cmd with
            | out => simp [victimOf] at hv'
            | inp => simp [victimOf] at hv'
            | unlink =>
              refine ⟨?_, rfl⟩
              dsimp only
              split <;> rfl)
      rw [hrep, ← hall, hst]
      simp [h.out]
    · have hiff : (Buf.cancelRequest victim' c.dev.usb.buf).2.isSome = true ↔ Outstanding done rs victim' := by
        obtain ⟨hc1, -, -⟩ := Buf.cancel_spec (id := victim') h.buf
        constructor
        · intro hsome
          obtain ⟨k, hk⟩ := Option.isSome_iff_exists.mp hsome
          have hm := (hc1 k).mp hk
          obtain ⟨poll, hd, hp, hseq, -⟩ := h.waiting _ hm
          have hfate := h.fate poll hd hp
          dsimp only at hseq
          rw [hseq, count_mem h.buf.1 hm] at hfate
          have hz1 : rs.countP (fun r => r.cmd == poll) = 0 := by omega
          have hz2 : rs.countP (withdraws victim') = 0 := by omega
          rw [List.countP_eq_zero] at hz1 hz2
          exact ⟨poll, hd, hp, hseq, fun r hr => ⟨by simpa using hz1 r hr, by simpa using hz2 r hr⟩⟩
        · rintro ⟨poll, hd, hp, hseq, hno⟩
          have hfate := h.fate poll hd hp
          have hz1 : rs.countP (fun r => r.cmd == poll) = 0 := by
            rw [List.countP_eq_zero]; intro r hr; simpa using (hno r hr).1
          have hz2 : rs.countP (withdraws (seqOf poll)) = 0 := by
            rw [List.countP_eq_zero]; intro r hr; rw [hseq]; simp [(hno r hr).2]
          have hpos : 0 < c.dev.usb.buf.waiting.countP (fun e => e.1 == seqOf poll) := by omega
          rw [List.countP_pos_iff] at hpos
          obtain ⟨⟨id, k⟩, hm, hid⟩ := hpos
          simp only [beq_iff_eq] at hid
          rw [hseq] at hid
          subst hid
          rw [(hc1 k).mpr hm]
          rfl
      rw [hrep]
      constructor
      · intro ho; rw [if_pos (hiff.mpr ho)]
      · intro ho; rw [if_neg (fun hx => ho (hiff.mp hx))]

/-- In every session and schedule: a transfer asking for a report is answered or withdrawn, never
both and neither twice.  Any other command is answered at most once; one handing over a report and a
CMD_UNLINK exactly once as soon as the server has read them.  There are no other replies. -/
theorem C83_one_outcome {net : UsbIp.Net} (hf : UsbIp.FullReads net) (rt : Hid.Runtime) (up : Hid.Upper W)
    {cmds : List Cmd} (hsess : Session cmds) (u : W) (acts : List Act) {c : UsbIp.Conn (Dev W)}
    (hexec : exec net rt up acts (start cmds u) = some c) :
    (∀ cmd ∈ cmds, isPoll cmd = true →
      (replies cmds c.out).countP (fun r => r.cmd == cmd) +
        (replies cmds c.out).countP (withdraws (seqOf cmd)) ≤ 1) ∧
    (∀ cmd ∈ cmds, (replies cmds c.out).countP (fun r => r.cmd == cmd) ≤ 1) ∧
    (∃ done todo, cmds = done ++ todo ∧ c.stream = (todo.map Cmd.wire).flatten ∧
      (∀ r ∈ replies cmds c.out, r.cmd ∈ done) ∧
      ∀ cmd ∈ done, (reportOf cmd).isSome ∨ (victimOf cmd).isSome →
        (replies cmds c.out).countP (fun r => r.cmd == cmd) = 1) := by
  obtain ⟨done, todo, rs, h, -, -⟩ := inv_exec hsess hf acts (inv_start cmds u) hexec
  have hn := hsess.2
  have hrep : replies cmds c.out = rs := by
    rw [h.out]
    exact replies_all hn rs fun r hr => ⟨by rw [h.split]; simp [(h.replied r hr).1], (h.replied r hr).2⟩
  rw [hrep]
  have habs : ∀ cmd ∈ cmds, cmd ∉ done → rs.countP (fun r => r.cmd == cmd) = 0 := by
    intro cmd hc hd
    rw [List.countP_eq_zero]
    intro r hr
    simp only [beq_iff_eq]
    intro he
    exact hd (he ▸ (h.replied r hr).1)
  have hpoll : ∀ cmd ∈ cmds, isPoll cmd = true →
      rs.countP (fun r => r.cmd == cmd) + rs.countP (withdraws (seqOf cmd)) ≤ 1 := by
    intro cmd hc hp
    by_cases hd : cmd ∈ done
    · have := h.fate cmd hd hp; omega
    · rw [habs cmd hc hd]
      have : rs.countP (withdraws (seqOf cmd)) = 0 := by
        rw [List.countP_eq_zero]
        intro r hr hw
        obtain ⟨x, hx, hxs⟩ := h.wd r hr _ hw
        exact hd ((seq_inj hn (by rw [h.split]; simp [hx]) hc hxs) ▸ hx)
      omega
  refine ⟨hpoll, ?_, done, todo, h.split, h.stream, fun r hr => (h.replied r hr).1, ?_⟩
  · intro cmd hc
    by_cases hp : isPoll cmd = true
    · have := hpoll cmd hc hp; omega
    · by_cases hd : cmd ∈ done
      · exact (h.other cmd hd (by simpa using hp)).1
      · rw [habs cmd hc hd]; omega
  · intro cmd hd hs
    refine (h.other cmd hd ?_).2 hs
    rcases hs with hs | hs
    · obtain ⟨v, hv⟩ := Option.isSome_iff_exists.mp hs; exact report_poll hv
    · obtain ⟨v, hv⟩ := Option.isSome_iff_exists.mp hs; exact victim_poll hv

/-! ## C84 -/

/-- In every session and schedule: the reports the client has received are those the FIDO layer has
sent, without loss or reordering, except those still queued in the device — and except for reports of
64 zero bytes put in between (a transfer not answered for a second is completed with one,
`C84_zero_report_refuted`).  A zero report is on channel 0: on every other channel the client receives
exactly what was sent. -/
theorem C84_reports_in_order {net : UsbIp.Net} (hf : UsbIp.FullReads net) (rt : Hid.Runtime) (up : Hid.Upper W)
    {cmds : List Cmd} (hsess : Session cmds) (u : W) (acts : List Act) {c : UsbIp.Conn (Dev W)}
    (hexec : exec net rt up acts (start cmds u) = some c) :
    (∃ sent, Padded (reports (replies cmds c.out)) sent ∧
      c.dev.hid.out = sent ++ (c.dev.usb.buf.responses ++ c.dev.outbox)) ∧
    ∀ cid, cid ≠ 0 →
      onChannel cid (reports (replies cmds c.out)) ++ onChannel cid (c.dev.usb.buf.responses ++ c.dev.outbox) =
        onChannel cid c.dev.hid.out := by
  obtain ⟨done, todo, rs, h, -, -⟩ := inv_exec hsess hf acts (inv_start cmds u) hexec
  have hrep : replies cmds c.out = rs := by
    rw [h.out]
    exact replies_all hsess.2 rs fun r hr => ⟨by rw [h.split]; simp [(h.replied r hr).1], (h.replied r hr).2⟩
  rw [hrep]
  obtain ⟨sent, hpad, hsent⟩ := h.data
  refine ⟨⟨sent, hpad, by rw [hsent, List.append_assoc]⟩, ?_⟩
  intro cid hc
  rw [padded_filter hpad cid hc, hsent]
  simp only [onChannel, List.filter_append, List.append_assoc]

/-! ## C85 -/

/-- What the HID layer sends for a request, on top of what it had sent. -/
theorem Hid.request_out (rt : Hid.Runtime) (up : Hid.Upper W) (w : Hid.World W) (hset : w.handlerSet = true)
    {cid : UInt32} (hb : cid ≠ 0xFFFFFFFF) {cmd : UInt8} {m answer : Bytes} {pkts : List Bytes} {u' : W}
    (hidle : Hid.Idle w cid) (hfrag : IsFragmentation cid cmd m pkts)
    (hup : cmd = 0x90 ∧ up.ctap m w.up = (.ok answer, u') ∨ cmd = 0x83 ∧ up.u2f m w.up = (.ok answer, u'))
    (h0 : answer ≠ []) (hlen : answer.length ≤ 7609) :
    ∃ keepalives msg w', Hid.handleAll rt up pkts w = (.ok (), w') ∧ w'.out = w.out ++ keepalives ++ msg ∧
      w'.up = u' ∧ (∀ p ∈ keepalives, cmd = 0x90 ∧ hostRead [p] = some (cid, 0xBB, [2])) ∧
      hostRead msg = some (cid, cmd, answer) ∧ ∀ p ∈ keepalives ++ msg, channelOf p = some cid := by
  have hka : ∀ n, ∀ p ∈ Hid.keepalivePackets rt cid n,
      hostRead [p] = some (cid, 0xBB, [2]) ∧ channelOf p = some cid := by
    intro n p hp
    obtain ⟨q, hq⟩ : ∃ q, Hid.createResponsePackets cid 0xBB [2] = [q] :=
      ⟨_, Hid.createResponsePackets_single cid 0xBB [2] (by simp) (by simp)⟩
    have hrd := Hid.hostRead_createResponsePackets cid 0xBB [2] (by decide) (by simp) (by simp)
    have hch := Hid.responseLoop_channel cid 0xBB [2].length (-1) [2] q (by
      have : q ∈ Hid.createResponsePackets cid 0xBB [2] := by simp [hq]
      exact this)
    have hpq : p = q := by
      unfold Hid.keepalivePackets at hp
      have e : Hid.createResponsePackets cid Hid.cmdKeepalive [Hid.statusUpneeded] = [q] := hq
      rw [e] at hp
      simp only [List.mem_flatten, List.mem_replicate] at hp
      obtain ⟨l, ⟨-, rfl⟩, hp⟩ := hp
      simpa using hp
    subst hpq
    rw [hq] at hrd
    exact ⟨hrd, hch⟩
  rcases hup with ⟨rfl, hup⟩ | ⟨rfl, hup⟩
  · obtain ⟨t, sp, hrun⟩ := Hid.run_complete rt up hidle (by decide) (by decide) hfrag
    rw [Hid.fin_cbor (cmd := 0x90) rt up _ _ hb rfl] at hrun
    have e : (w.setTx cid (some t)).up = w.up := rfl
    dsimp only at hrun
    rw [e, hup] at hrun
    refine ⟨Hid.keepalivePackets rt cid w.cborCount, Hid.createResponsePackets cid 0x90 answer, _, hrun, ?_, ?_,
      fun p hp => ⟨rfl, (hka _ p hp).1⟩, Hid.hostRead_createResponsePackets cid 0x90 answer (by decide) h0 hlen, ?_⟩
    · simp [Hid.World.send, hset]
      rfl
    · simp
    · intro p hp
      rw [List.mem_append] at hp
      rcases hp with hp | hp
      · exact (hka _ p hp).2
      · exact Hid.responseLoop_channel cid 0x90 answer.length (-1) answer p hp
  · obtain ⟨t, sp, hrun⟩ := Hid.run_complete rt up hidle (by decide) (by decide) hfrag
    rw [Hid.fin_msg (cmd := 0x83) rt up _ _ hb rfl] at hrun
    have e : (w.setTx cid (some t)).up = w.up := rfl
    dsimp only at hrun
    rw [e, hup] at hrun
    refine ⟨[], Hid.createResponsePackets cid 0x83 answer, _, hrun, ?_, ?_, by simp,
      Hid.hostRead_createResponsePackets cid 0x83 answer (by decide) h0 hlen, ?_⟩
    · simp [Hid.World.send, hset]
      rfl
    · simp
    · intro p hp
      rw [List.nil_append] at hp
      exact Hid.responseLoop_channel cid 0x83 answer.length (-1) answer p hp

/-- A CTAP2 (0x90) or U2F (0x83) request over USB/IP: the reports a client hands over end with the
reports of a request on an allocated, idle channel; goroutines run in the order they were started;
everything handed over was handled and everything sent was fetched.  Then the authenticator was run
once on exactly the request, and on that channel the client received, after what it had
received before, only keep-alives (none for U2F) and then exactly the authenticator's answer. -/
theorem C85_request_over_usbip {net : UsbIp.Net} (hf : UsbIp.FullReads net) (rt : Hid.Runtime) (up : Hid.Upper W)
    {cmds : List Cmd} (hsess : Session cmds) (u : W) (acts : List Act)
    (hfifo : ∀ i, Act.run i ∈ acts → i = 0) {c : UsbIp.Conn (Dev W)}
    (hexec : exec net rt up acts (start cmds u) = some c)
    -- nothing is left anywhere
    (hstream : c.stream = []) (hdel : c.dev.usb.delivered = []) (hresp : c.dev.usb.buf.responses = [])
    (hout : c.dev.outbox = [])
    -- the reports are those of some earlier traffic and then those of one request
    {earlier pkts : List Bytes} (hreports : cmds.filterMap reportOf = earlier ++ pkts)
    {w : Hid.World W} (hearlier : Hid.handleAll rt up earlier (Hid.World.new true u) = (.ok (), w))
    {cid : UInt32} (h0 : cid ≠ 0) (hb : cid ≠ 0xFFFFFFFF) (hidle : Hid.Idle w cid)
    {cmd : UInt8} {m answer : Bytes} {u' : W} (hfrag : IsFragmentation cid cmd m pkts)
    (hup : cmd = 0x90 ∧ up.ctap m w.up = (.ok answer, u') ∨ cmd = 0x83 ∧ up.u2f m w.up = (.ok answer, u'))
    (hne : answer ≠ []) (hlen : answer.length ≤ 7609) :
    c.dev.crashed = false ∧ c.dev.hid.up = u' ∧
    ∃ keepalives msg,
      onChannel cid (reports (replies cmds c.out)) = onChannel cid w.out ++ keepalives ++ msg ∧
      (∀ p ∈ keepalives, cmd = 0x90 ∧ hostRead [p] = some (cid, 0xBB, [2])) ∧
      hostRead msg = some (cid, cmd, answer) := by
  obtain ⟨done, todo, handled, hfi⟩ := handled_exec hsess.1 hf acts (fun _ => hfifo) (handled_start True rt up cmds u) hexec
  have hall := split_unique (d1 := done) (t1 := todo) (d2 := cmds) (t2 := []) (by rw [← hfi.split]; simp)
    (by rw [← hfi.stream, hstream]; rfl)
  obtain ⟨rfl, rfl⟩ := hall
  have hrep := hfi.inOrder trivial
  rw [hdel, List.append_nil, hreports] at hrep
  subst hrep
  have hset : w.handlerSet = true := by
    have := Hid.handlerSet_run rt up earlier (Hid.WF_new true u) hearlier
    rw [this]; rfl
  obtain ⟨ka, msg, w', hrun, hwo, hwu, hk, hm, hch⟩ :=
    Hid.request_out rt up w hset hb hidle hfrag hup hne hlen
  obtain ⟨r, hr1, hr2⟩ := hfi.hid
  rw [Hid.handleAll_append, hearlier] at hr1
  dsimp only at hr1
  rw [hrun] at hr1
  simp only [Prod.mk.injEq] at hr1
  obtain ⟨rfl, hw⟩ := hr1
  obtain ⟨-, hch2⟩ := C84_reports_in_order hf rt up hsess u acts hexec
  have := hch2 cid h0
  rw [hresp, hout, ← hw, hwo] at this
  refine ⟨hr2.mpr rfl, by rw [← hw]; exact hwu, ka, msg, ?_, hk, hm⟩
  have e : onChannel cid (ka ++ msg) = ka ++ msg := by
    unfold onChannel
    rw [List.filter_eq_self]
    intro p hp
    simp [hch p hp]
  simp only [List.append_nil, List.append_assoc] at this
  rw [List.append_assoc, ← e]
  rw [show onChannel cid ([] : List Bytes) = [] from rfl, List.append_nil] at this
  rw [this]
  simp [onChannel, List.filter_append]

/-! ## A concrete session -/

namespace Stack.Demo

/-- A report handed over. -/
def give (seq : UInt32) (report : Bytes) : Cmd := .out seq 0x20002 2 0 0 0 0 (List.replicate 8 0) report
/-- A report asked for. -/
def ask (seq : UInt32) : Cmd := .inp seq 0x20002 1 0 64 0 0 0 (List.replicate 8 0)
/-- CMD_UNLINK. -/
def unlink (seq victim : UInt32) : Cmd := .unlink seq 0x20002 0 0 victim (List.replicate 24 0)

/-- The INIT report. -/
def init : List Bytes := hostPackets 0xFFFFFFFF 0x86 [1,2,3,4,5,6,7,8] (List.replicate 49 0)
/-- A CTAP2 request of 100 bytes on channel 1, in two reports. -/
def request : List Bytes := hostPackets 1 0x90 (List.replicate 100 7) (List.replicate 16 0)

/-- INIT, one poll, the request, four polls; then two polls are withdrawn, the second of which is waiting
in the schedule below. -/
def cmds : List Cmd :=
  [give 1 init[0]!, ask 2, give 3 request[0]!, give 4 request[1]!, ask 5, ask 6, ask 7, ask 8, unlink 9 8, unlink 10 5]

/-- Everything in order; polls are still waiting when the request is handled. -/
def acts : List Act :=
  [.command, .command, .run 0, .send 0, .command, .command, .command, .command, .command, .command,
    .run 0, .run 0, .send 0, .send 0, .send 0, .command, .command]

/-- The two goroutines of the request the other way round. -/
def swapped : List Act :=
  [.command, .command, .run 0, .send 0, .command, .command, .command, .command, .command, .command,
    .run 1, .run 0, .send 0]

def net : UsbIp.Net := fun _ n => n
theorem net_full : UsbIp.FullReads net := fun _ n => Nat.le_refl n

theorem give_usual (seq : UInt32) (report : Bytes) (h : report.length < 2 ^ 32) : Usual (give seq report) :=
  ⟨⟨rfl, h⟩, by decide⟩
theorem ask_usual (seq : UInt32) : Usual (ask seq) := ⟨rfl, fun _ => rfl, by decide⟩
theorem unlink_usual (seq victim : UInt32) : Usual (unlink seq victim) := by simp [Usual, unlink, Cmd.WellFormed]

theorem session : Session cmds := by
  refine ⟨?_, by decide⟩
  intro cmd h
  simp only [cmds, List.mem_cons, List.not_mem_nil, or_false] at h
  rcases h with rfl | rfl | rfl | rfl | rfl | rfl | rfl | rfl | rfl | rfl
  case inl => exact give_usual _ _ (by decide)
  case inr.inr.inl => exact give_usual _ _ (by decide)
  case inr.inr.inr.inl => exact give_usual _ _ (by decide)
  all_goals first
    | exact ask_usual _
    | exact unlink_usual _ _

/-- The connection after the schedule, if it can be run. -/
def after (acts : List Act) : UsbIp.Conn (Dev Nat) :=
  (exec net demoRt demoUp acts (start cmds 0)).getD (start cmds 0)

theorem runs : exec net demoRt demoUp acts (start cmds 0) = some (after acts) := by
  have h : (exec net demoRt demoUp acts (start cmds 0)).isSome = true := by decide +kernel
  obtain ⟨c, hc⟩ := Option.isSome_iff_exists.mp h
  unfold after
  rw [hc]
  rfl

/-- Up to the first CMD_UNLINK. -/
def before : List Act := acts.take 15

/-- C83 on the session: poll 8 was answered before it was withdrawn, poll 5 was not. -/
example : ∃ more, replies cmds (after acts).out = more ++
    [⟨unlink 9 8, notFound, []⟩, ⟨unlink 10 5, withdrawn, []⟩] :=
  ⟨(replies cmds (after acts).out).take 7, by decide +kernel⟩

/-- C85 on the session. -/
example : (after acts).dev.hid.up = 1 ∧
    ∃ keepalives msg, onChannel 1 (reports (replies cmds (after acts).out)) = keepalives ++ msg ∧
      hostRead msg = some (1, 0x90, List.replicate 100 7) := by
  obtain ⟨-, h1, ka, msg, h2, -, h3⟩ := C85_request_over_usbip net_full demoRt demoUp session 0 acts
    (fun i h => by simpa [acts] using h) runs (by decide +kernel) (by decide +kernel) (by decide +kernel) (by decide +kernel)
    (earlier := init) (pkts := request) (by decide +kernel) (w := demoW) rfl (cid := 1) (by decide) (by decide)
    demoW_idle1 (cmd := 0x90) (m := List.replicate 100 7) (answer := List.replicate 100 7) (u' := 1)
    (C01_host_packets _ _ _ _ (by decide)) (.inl ⟨rfl, rfl⟩) (by decide) (by decide)
  refine ⟨h1, ka, msg, ?_, h3⟩
  rw [h2]
  rfl

end Stack.Demo

/-! ## What does not hold -/

/-- A transfer that waits for a second is completed with a report of zeros which the FIDO layer never
sent. -/
theorem C84_zero_report_refuted : ∃ (cmds : List Cmd) (acts : List Act) (c : UsbIp.Conn (Dev Nat)),
    Session cmds ∧ exec Demo.net demoRt demoUp acts (start cmds 0) = some c ∧
    c.dev.hid.out = [] ∧ reports (replies cmds c.out) = [List.replicate 64 0] := by
  refine ⟨[Demo.ask 1], [.command, .timeout 0], _, ⟨?_, by decide⟩, rfl, rfl, by decide +kernel⟩
  intro cmd h
  simp only [List.mem_singleton] at h
  subst h
  exact Demo.ask_usual 1

/-- Each report is handled in a goroutine of its own.  When those of a request's two reports run the
other way round, the client gets an error report (ERR_INVALID_CMD) and the authenticator is never
asked. -/
theorem C85_goroutine_order_refuted : ∃ (acts : List Act) (c : UsbIp.Conn (Dev Nat)),
    exec Demo.net demoRt demoUp acts (start Demo.cmds 0) = some c ∧
    Demo.cmds.filterMap reportOf = Demo.init ++ hostPackets 1 0x90 (List.replicate 100 7) (List.replicate 16 0) ∧
    c.dev.usb.delivered = [] ∧ c.dev.usb.buf.responses = [] ∧ c.dev.outbox = [] ∧ c.dev.hid.up = 0 ∧
    hostRead (onChannel 1 (reports (replies Demo.cmds c.out))) = some (1, 0xBF, [1]) := by
  have h : (exec Demo.net demoRt demoUp Demo.swapped (start Demo.cmds 0)).isSome = true := by decide +kernel
  obtain ⟨c, hc⟩ := Option.isSome_iff_exists.mp h
  have e : c = Demo.after Demo.swapped := by unfold Demo.after; rw [hc]; rfl
  rw [e] at hc
  exact ⟨Demo.swapped, _, hc, by decide +kernel, by decide +kernel, by decide +kernel, by decide +kernel,
    by decide +kernel, by decide +kernel⟩

end VF
