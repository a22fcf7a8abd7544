import Verif.Props.Server
import Verif.Props.Mac
import Verif.Props.RelyingParty
import Verif.Props.U2fParty
import Verif.Spec.Conversation

/-!
# C131: what a host is told is what the authenticator answers, and relying parties accept it
-/

namespace VF.Props

open VF.Fido VF.Hid VF.Spec.History VF.Spec.Ctaphid VF.Spec.Live VF.Spec.Calls VF.Spec.Service VF.Spec.Conversation
open VF.Spec.Client VF.Spec.U2f VF.Spec.UsbIp
open VF.Spec.Stack (onChannel)
open VF.Spec.Overlap (busy OneAtATime operations sequential isResult)
open VF.Live (reportOf Idle)
open scoped List

variable {E : Env} {cfg : Client.Config} {grow : Nat → Nat → Nat}

/-! ### Histories -/

theorem events_two (d : Device) (xs ys : List Op) :
    events E cfg d (xs ++ ys) = events E cfg d xs ++ events E cfg (Device.after E cfg d xs) ys := by
  induction xs generalizing d with
  | nil => rfl
  | cons op xs ih =>
    rw [List.cons_append, Device.events_cons, Device.events_cons, ih]
    rfl

theorem events_count (d : Device) (ops : List Op) : (events E cfg d ops).length = ops.length := by
  induction ops generalizing d with
  | nil => rfl
  | cons op ops ih => rw [Device.events_cons, List.length_cons, ih, List.length_cons]

theorem events_ops (d : Device) (ops : List Op) : (events E cfg d ops).map (·.1) = ops := by
  induction ops generalizing d with
  | nil => rfl
  | cons op ops ih => rw [Device.events_cons, List.map_cons, ih]

/-- An exchange of a history, with what was before. -/
theorem events_split {ops : List Op} : ∀ {d : Device} {before later : List (Op × Reply)} {op : Op} {reply : Reply},
    events E cfg d ops = before ++ (op, reply) :: later →
    ∃ xs ys d', ops = xs ++ op :: ys ∧ events E cfg d xs = before ∧
      Device.step E cfg (Device.after E cfg d xs) op = (reply, d') ∧ Device.after E cfg d ops = Device.after E cfg d' ys := by
  induction ops with
  | nil => intro d before later op reply h; cases before <;> cases h
  | cons o ops ih =>
    intro d before later op reply h
    rw [Device.events_cons] at h
    cases before with
    | nil =>
      rw [List.nil_append] at h
      obtain ⟨h1, -⟩ := List.cons.inj h
      obtain ⟨rfl, h2⟩ := Prod.mk.inj h1
      exact ⟨[], ops, (Device.step E cfg d o).2, rfl, rfl, Prod.ext h2 rfl, rfl⟩
    | cons e before =>
      obtain ⟨rfl, h1⟩ := List.cons.inj h
      obtain ⟨xs, ys, d', rfl, h2, h3, h4⟩ := ih h1
      exact ⟨o :: xs, ys, d', rfl, by rw [Device.events_cons, h2], h3, h4⟩

theorem records_filter (p : Spec.RelyingParty.Party) (l : List (Op × Reply)) :
    Spec.RelyingParty.records E p (l.filter isResult) = Spec.RelyingParty.records E p l := by
  unfold Spec.RelyingParty.records
  generalize ([] : List Spec.RelyingParty.Record) = known
  induction l generalizing known with
  | nil => rfl
  | cons e l ih =>
    rw [List.filter_cons]
    split
    · exact ih _
    · rename_i hr
      rw [List.foldl_cons, ih]
      congr 1
      obtain ⟨op, reply⟩ := e
      unfold Spec.RelyingParty.see
      split
      · rename_i heq; cases heq; exact absurd rfl hr
      · rename_i heq; cases heq; exact absurd rfl hr
      · rfl

theorem keys_filter (p : Spec.U2fParty.Party) (l : List (Op × Reply)) :
    Spec.U2fParty.keys E p (l.filter isResult) = Spec.U2fParty.keys E p l := by
  unfold Spec.U2fParty.keys
  generalize ([] : List Spec.U2fParty.Key) = known
  induction l generalizing known with
  | nil => rfl
  | cons e l ih =>
    rw [List.filter_cons]
    split
    · exact ih _
    · rename_i hr
      rw [List.foldl_cons, ih]
      congr 1
      obtain ⟨op, reply⟩ := e
      unfold Spec.U2fParty.see
      split
      · rename_i heq; cases heq; exact absurd rfl hr
      · rfl

theorem filter_at {l before later : List (Op × Reply)} {e : Op × Reply} (h : l.filter isResult = before ++ e :: later) :
    ∃ b c, l = b ++ e :: c ∧ b.filter isResult = before := by
  obtain ⟨l1, l2, rfl, h1, h2⟩ := List.filter_eq_append_iff.1 h
  obtain ⟨l3, l4, rfl, h3, h4, -⟩ := List.filter_eq_cons_iff.1 h2
  refine ⟨l1 ++ l3, l4, by simp, ?_⟩
  rw [List.filter_append, h1, List.filter_eq_nil_iff.2 h3, List.append_nil]

theorem accepts_filter {p : Spec.RelyingParty.Party} {l : List (Op × Reply)} (h : Accepts E p l) :
    Accepts E p (l.filter isResult) := by
  constructor
  · intro before later data body args heq
    obtain ⟨b, c, h1, rfl⟩ := filter_at heq
    rw [records_filter]
    exact h.1 b c data body args h1
  · intro before later data body args heq
    obtain ⟨b, c, h1, rfl⟩ := filter_at heq
    rw [records_filter]
    exact h.2 b c data body args h1

theorem u2fAccepts_filter {p : Spec.U2fParty.Party} {l : List (Op × Reply)} (h : U2fAccepts E p l) :
    U2fAccepts E p (l.filter isResult) := by
  constructor
  · intro before later m b data challenge heq
    obtain ⟨b', c, h1, rfl⟩ := filter_at heq
    rw [keys_filter]
    exact h.1 b' c m b data challenge h1
  · intro before later m b data challenge handle heq
    obtain ⟨b', c, h1, rfl⟩ := filter_at heq
    rw [keys_filter]
    exact h.2 b' c m b data challenge handle h1

/-- C119, for all of a history. -/
theorem accepts_history (L : Laws E) (hu : Usable E cfg) (hat : CanAttest E (Device.boot E cfg).world.client)
    (p : Spec.RelyingParty.Party) (hanchor : Cose.publicOf cfg.certKey = .ok p.anchor) (hpuv : p.demandsUV = false)
    (ops : List Op) (hno : ∀ op ∈ ops, op ≠ .restart)
    (hdraws : DistinctDraws E (Device.after E cfg (Device.boot E cfg) ops).world.rnd)
    (huses : ops.countP isGetAssertion < 2 ^ 32) : Accepts E p (events E cfg (Device.boot E cfg) ops) := by
  constructor
  · intro before later data body args heq hargs hrp
    obtain ⟨xs, ys, d', rfl, rfl, h1, h2⟩ := events_split heq
    obtain ⟨rp, hrp, hid⟩ := Option.map_eq_some_iff.1 hrp
    have hn := Device.after_rnd (cfg := cfg) L d' ys
    rw [← h2] at hn
    rw [List.countP_append] at huses
    exact C119_registration_accepted L hu hat p hanchor xs rfl h1 hargs hrp hid
      (fun e => by rw [hpuv] at e; cases e) (fun i j hi hj => hdraws i j (by omega) (by omega)) (by omega)
  · intro before later data body args heq hargs hid hup
    obtain ⟨xs, ys, d', rfl, rfl, h1, h2⟩ := events_split heq
    have hn : (Device.after E cfg (Device.boot E cfg) xs).world.rnd ≤
        (Device.after E cfg (Device.boot E cfg) (xs ++ .ctap (2 :: data) :: ys)).world.rnd := by
      rw [Device.after_append]
      exact Device.after_rnd L _ _
    rw [List.countP_append, List.countP_cons] at huses
    have hg : isGetAssertion (.ctap (2 :: data)) = true := rfl
    rw [if_pos hg] at huses
    exact C119_all_accepted L hu hat p hanchor hpuv xs (fun op ho => hno op (List.mem_append_left _ ho)) rfl h1 hargs hid hup
      (fun i j hi hj => hdraws i j (by omega) (by omega)) (by omega)

theorem settled_alive {l : List (Op × Reply)} (h : ∀ e ∈ l, e.1 ≠ .restart) : ∀ pending, Spec.U2fParty.Settled pending l := by
  induction l with
  | nil => exact fun _ => trivial
  | cons e l ih =>
    intro pending
    have h1 := h e (List.mem_cons_self ..)
    obtain ⟨op, reply⟩ := e
    have h2 := ih (fun e he => h e (List.mem_cons_of_mem _ he))
    cases op with
    | restart => exact absurd rfl h1
    | _ => exact h2 _

theorem settled_more {l m : List (Op × Reply)} (hm : ∀ e ∈ m, e.1 ≠ .restart) :
    ∀ {pending}, Spec.U2fParty.Settled pending l → Spec.U2fParty.Settled pending (l ++ m) := by
  induction l with
  | nil => exact fun _ => settled_alive hm _
  | cons e l ih =>
    intro pending h
    obtain ⟨op, reply⟩ := e
    cases op with
    | restart => exact ⟨h.1, ih h.2⟩
    | _ => exact ih h

theorem settled_prefix {l m : List (Op × Reply)} :
    ∀ {pending}, Spec.U2fParty.Settled pending (l ++ m) → Spec.U2fParty.Settled pending l := by
  induction l with
  | nil => exact fun _ => trivial
  | cons e l ih =>
    intro pending h
    obtain ⟨op, reply⟩ := e
    cases op with
    | restart => exact ⟨h.1, ih h.2⟩
    | _ => exact ih h

/-- Requests of a host end no process. -/
theorem settled_requested {d : Device} {ops : List Op} {qs : List Request}
    (h : Spec.U2fParty.Settled false (events E cfg d ops)) :
    Spec.U2fParty.Settled false (events E cfg d (ops ++ requested qs)) := by
  rw [events_two]
  refine settled_more (fun e he => ?_) h
  have : e.1 ∈ requested qs := by
    rw [← events_ops (E := E) (cfg := cfg) (Device.after E cfg d ops) (requested qs)]
    exact List.mem_map.2 ⟨e, he, rfl⟩
  obtain ⟨m, -, h⟩ := List.mem_map.1 this
  rw [← h]
  unfold opFor
  split <;> exact fun h => nomatch h

/-- C120, for all of a history. -/
theorem u2fAccepts_history (L : Laws E) (hu : Usable E cfg) (hat : CanAttest E (Device.boot E cfg).world.client)
    (p : Spec.U2fParty.Party) (hanchor : Cose.publicOf cfg.certKey = .ok p.anchor)
    (ops : List Op) (hset : p.checksCounter = true → Spec.U2fParty.Settled false (events E cfg (Device.boot E cfg) ops))
    (hnonces : Spec.U2fParty.DistinctNonces E (Device.after E cfg (Device.boot E cfg) ops).world.rnd)
    (huses : ops.countP isU2fAuthenticate + 1 < 2 ^ 32) : U2fAccepts E p (events E cfg (Device.boot E cfg) ops) := by
  constructor
  · intro before later m b data challenge heq hs hm hf
    obtain ⟨xs, ys, d', rfl, rfl, h1, h2⟩ := events_split heq
    have hn := Device.after_rnd (cfg := cfg) L d' ys
    rw [← h2] at hn
    exact C120_registration_accepted L hu hat p hanchor xs rfl h1 hs hm hf
      (fun i j hi hj => hnonces i j (by omega) (by omega))
  · intro before later m b data challenge handle heq hs hm hf hk
    obtain ⟨xs, ys, d', rfl, rfl, h1, h2⟩ := events_split heq
    rw [List.countP_append, List.countP_cons] at huses
    have hg : isU2fAuthenticate (.u2f m) = true := by
      unfold Spec.U2fParty.request at hm
      split at hm
      · split at hm
        · cases hm; rfl
        · cases hm
      · cases hm
    rw [if_pos hg] at huses
    obtain ⟨k, h3, -⟩ := C120_login_accepted L hu p xs rfl h1 hs hm hf hk (fun hc => ⟨by
      have := hset hc
      rw [events_two] at this
      exact settled_prefix this, by omega⟩)
    exact ⟨k, h3⟩

/-! ### One host -/

/-- Inside the process: a host that is alone and whose reports are dealt with one at a time is told what the
authenticator answers to its requests, one after the other. -/
theorem one_host (pre : List Overlap.Event) (hpre : OneAtATime E cfg (Overlap.boot E cfg) pre)
    (hfree : ∀ t ∈ ((Overlap.boot E cfg).run E cfg pre).threads, busy t = false)
    (levs1 levs2 : List Live.Event) {s1 s : Live.State}
    (hrun1 : (Live.State.start ((Overlap.boot E cfg).run E cfg pre)).run E cfg grow levs1 = some s1)
    (hrun : (Live.State.start ((Overlap.boot E cfg).run E cfg pre)).run E cfg grow (levs1 ++ levs2) = some s)
    (hser : Mac.Serial E cfg grow (.start ((Overlap.boot E cfg).run E cfg pre)) (levs1 ++ levs2))
    (hapi : ∀ op, Live.Event.api op ∉ levs1 ++ levs2) (hcr : s.hid.crashed = false)
    (h64 : ∀ m ∈ (levs1 ++ levs2).filterMap reportOf, m.length ≤ 64)
    (hcount : ((levs1 ++ levs2).filterMap reportOf).length < 4294967295) (hidle : Idle s)
    {cid : UInt32} (hcid : cid ≠ 0xFFFFFFFF) (hann : Live.Announced s1 cid) (hnew : onChannel cid (levs1.filterMap reportOf) = [])
    (halone : ∀ m ∈ (levs1 ++ levs2).filterMap reportOf, channelOf m = some cid ∨ channelOf m = some 0xFFFFFFFF)
    (qs : List Request) (hq : ∀ q ∈ qs, q.WellSent cid)
    (hin : onChannel cid (levs2.filterMap reportOf) = qs.flatMap (·.packets))
    (hsize : ∀ op a, (op, .answer a) ∈ Spec.Overlap.results s.proc → a ≠ [] ∧ a.length ≤ 7609) :
    talk qs cid s.hid.out = events E cfg (Device.after E cfg (Device.boot E cfg) (operations pre)) (requested qs) ∧
    sequential s.proc.mem = (Device.after E cfg (Device.boot E cfg) (operations pre ++ requested qs)).world ∧
    Spec.Overlap.results ((Overlap.boot E cfg).run E cfg pre) ++ talk qs cid s.hid.out =
      (events E cfg (Device.boot E cfg) (operations pre ++ requested qs)).filter isResult := by
  obtain ⟨handled, refused, calls, acc, hnot, hord, -, hans, hres, h1, -, h2⟩ :=
    Mac.sequential_of_serial pre hpre hfree _ hrun hser hapi hcr h64 hcount hidle
  have hone : Live.OneByOne E cfg grow ((Overlap.boot E cfg).run E cfg pre) (levs1 ++ levs2) cid :=
    fun a b l m heq hr _ r hm _ => (Mac.Serial.at (by rw [← heq]; exact hser) hr) r hm
  have hask : asked (callsOn cid calls) = wanted qs := by
    refine Live.C103_all_heard acc hcid qs hq ?_
    have href : onChannel cid refused = [] := hnot.2 levs1 levs2 s1 cid rfl hrun1 hann hnew
    have hsub := (hord cid hone).1
    have hperm := acc.once
    rw [List.append_nil] at hperm
    have hlen : (onChannel cid (handled ++ refused)).length = (onChannel cid ((levs1 ++ levs2).filterMap reportOf)).length :=
      (hperm.filter _).length_eq
    rw [Live.onChannel_append, href, List.append_nil] at hlen
    rw [hsub.eq_of_length hlen, List.filterMap_append, Live.onChannel_append, hnew, hin, List.nil_append]
  have hall : callsOn cid calls = calls := by
    unfold callsOn
    rw [List.filter_eq_self]
    intro k hk
    have hch := acc.sameChannel k hk
    obtain ⟨m, hm, hmc⟩ := Option.bind_eq_some_iff.1 hch
    rcases halone m (List.mem_of_getElem? hm) with h | h
    · rw [hmc] at h
      simpa using Option.some.inj h
    · rw [hmc] at h
      obtain ⟨_, _, -, hb⟩ := acc.requests 0xFFFFFFFF
      rw [if_pos rfl] at hb
      have : k ∈ callsOn 0xFFFFFFFF calls := List.mem_filter.2 ⟨hk, by simpa using Option.some.inj h⟩
      unfold asked at hb
      rw [List.map_eq_nil_iff.1 hb] at this
      cases this
  rw [hall] at hask
  have hsz : ∀ k ∈ calls, ∀ a, k.answer = some a → a ≠ [] ∧ a.length ≤ 7609 := by
    intro k hk a ha
    exact hsize _ a (List.mem_filterMap.2 ⟨_, List.mem_of_getElem? (acc.ownResult k hk a ha), rfl⟩)
  have hans2 := hres hsz cid
  rw [hall] at hans2
  have hresults : results calls = calls.map fun k => (k.command, k.answer.getD []) := by
    clear hask hall hsz hans2 h1 h2 acc hres hnot hord
    induction calls with
    | nil => rfl
    | cons k calls ih =>
      obtain ⟨a, ha⟩ := Option.isSome_iff_exists.1 (hans k (List.mem_cons_self ..))
      have h := ih (fun k hk => hans k (List.mem_cons_of_mem _ hk))
      unfold results at h ⊢
      rw [List.filterMap_cons, ha, List.map_cons, ← h, ha]
      rfl
  have htalk : talk qs cid s.hid.out = calls.map fun k => (opFor k.command k.payload, .answer (k.answer.getD [])) := by
    unfold talk
    rw [hans2, ← hask, hresults]
    unfold asked
    rw [List.zip_map', List.map_map]
    rfl
  have hreq : requested qs = calls.map fun k => opFor k.command k.payload := by
    unfold requested
    rw [← hask]
    unfold asked
    rw [List.map_map]
    rfl
  have hpre2 := (C93_sequential pre hpre hfree).2.2
  rw [← htalk, ← hreq] at h2
  refine ⟨?_, by rw [hreq]; exact h1, h2⟩
  · rw [events_two, List.filter_append, ← hpre2] at h2
    have h3 := List.append_cancel_left h2
    rw [h3]
    refine List.filter_eq_self.2 fun e he => ?_
    have hlen : ((events E cfg (Device.after E cfg (Device.boot E cfg) (operations pre)) (requested qs)).filter isResult).length =
        (events E cfg (Device.after E cfg (Device.boot E cfg) (operations pre)) (requested qs)).length := by
      rw [← h3, htalk, events_count, hreq, List.length_map, List.length_map]
    exact List.length_filter_eq_length_iff.1 hlen e he

/-- A host on macOS: it gets a channel, in `evs1`, and then, in `evs2`, sends requests on it, at any pace, but so that the
driver has room for every report.  It is the only one, the embedding program does not call the API, and the device has come to rest. -/
structure OnMac (E : Env) (cfg : Client.Config) (grow : Nat → Nat → Nat) (pre : List Overlap.Event) (evs1 evs2 : List Mac.Event)
    (s1 s : Mac.State) (cid : UInt32) (qs : List Request) : Prop where
  run1 : (Mac.State.start ((Overlap.boot E cfg).run E cfg pre)).run E cfg grow evs1 = some s1
  run : s1.run E cfg grow evs2 = some s
  api : Spec.Mac.NoApi (evs1 ++ evs2)
  calm : s.live.hid.crashed = false ∧ s.live.proc.alive = true
  short : ∀ m ∈ Spec.Mac.sent (evs1 ++ evs2), m.length ≤ 64
  few : (Spec.Mac.sent (evs1 ++ evs2)).length < 4294967295
  paced : Spec.Mac.Paced E cfg grow (.start ((Overlap.boot E cfg).run E cfg pre)) (evs1 ++ evs2)
  rest : Spec.Mac.AtRest E cfg grow s
  channel : cid ≠ 0xFFFFFFFF ∧ ∃ nonce : Bytes, nonce.length = 8 ∧ initAnswer nonce cid ∈ s1.input
  new : onChannel cid (Spec.Mac.sent evs1) = []
  alone : ∀ m ∈ Spec.Mac.sent (evs1 ++ evs2), channelOf m = some cid ∨ channelOf m = some 0xFFFFFFFF
  wellSent : ∀ q ∈ qs, q.WellSent cid
  sent : onChannel cid (Spec.Mac.sent evs2) = qs.flatMap (·.packets)
  sizes : ∀ op a, (op, .answer a) ∈ Spec.Overlap.results s.live.proc → a ≠ [] ∧ a.length ≤ 7609

/-- A client over USB/IP: it gets a channel, in `acts1`, and then, in `acts2`, sends requests on it; the server reads each
report when those before it have been dealt with.  It is the only one, the embedding program does not call the API, the
device has come to rest and the client has fetched all reports. -/
structure OverUsbIp (E : Env) (cfg : Client.Config) (grow : Nat → Nat → Nat) (pre : List Overlap.Event) (net : UsbIp.Net)
    (cmds : List Cmd) (acts1 acts2 : List Server.Act) (c1 c : Server.Conn) (cid : UInt32) (qs : List Request) : Prop where
  driver : Server.Driver net cmds
  run1 : Server.exec net E cfg grow acts1 (Spec.Server.start cmds ((Overlap.boot E cfg).run E cfg pre)) = some c1
  run : Server.exec net E cfg grow (acts1 ++ acts2) (Spec.Server.start cmds ((Overlap.boot E cfg).run E cfg pre)) = some c
  api : ∀ op, Server.Act.inside (.api op) ∉ acts1 ++ acts2
  calm : c.dev.crashed = false
  waits : Waits net E cfg grow (Spec.Server.start cmds ((Overlap.boot E cfg).run E cfg pre)) (acts1 ++ acts2)
  rest : Spec.Server.AtRest net E cfg grow c
  fetched : Spec.Server.held c = []
  channel : cid ≠ 0xFFFFFFFF ∧ cid ≠ 0 ∧ Spec.Server.Announced cmds c1 cid
  new : onChannel cid (Spec.Server.given c1) = []
  alone : ∀ m ∈ Spec.Server.given c, channelOf m = some cid ∨ channelOf m = some 0xFFFFFFFF
  wellSent : ∀ q ∈ qs, q.WellSent cid
  sent : onChannel cid (Spec.Server.given c) = qs.flatMap (·.packets)
  sizes : ∀ op a, (op, .answer a) ∈ Spec.Overlap.results c.dev.hid.proc → a ≠ [] ∧ a.length ≤ 7609

theorem mac_host {pre : List Overlap.Event} (hpre : OneAtATime E cfg (Overlap.boot E cfg) pre)
    (hfree : ∀ t ∈ ((Overlap.boot E cfg).run E cfg pre).threads, busy t = false) {evs1 evs2 : List Mac.Event} {s1 s : Mac.State}
    {cid : UInt32} {qs : List Request} (h : OnMac E cfg grow pre evs1 evs2 s1 s cid qs) :
    talk qs cid s.input = events E cfg (Device.after E cfg (Device.boot E cfg) (operations pre)) (requested qs) ∧
    sequential s.live.proc.mem = (Device.after E cfg (Device.boot E cfg) (operations pre ++ requested qs)).world ∧
    Spec.Overlap.results ((Overlap.boot E cfg).run E cfg pre) ++ talk qs cid s.input =
      (events E cfg (Device.boot E cfg) (operations pre ++ requested qs)).filter isResult := by
  obtain ⟨hrun1, hrun, hapi, ⟨hcr, halive⟩, h64, hcount, hpaced, hrest, ⟨hcid, hann⟩, hnew, halone, hq, hin, hsize⟩ := h
  have hrun12 : (Mac.State.start ((Overlap.boot E cfg).run E cfg pre)).run E cfg grow (evs1 ++ evs2) = some s := by
    rw [Mac.run_append, hrun1]; exact hrun
  obtain ⟨hidle, -, hsaved, -⟩ := Mac.C107_at_rest pre _ hrun12 hcr halive h64 hcount hrest
  obtain ⟨hp1, hp2⟩ := Mac.paced_append hpaced hrun1
  obtain ⟨levs1, i1⟩ := Mac.inner evs1 hrun1
  obtain ⟨levs2, i2⟩ := Mac.inner evs2 hrun
  have e1 : levs1.filterMap reportOf ++ s1.saved = Spec.Mac.sent evs1 := i1.paced hp1
  have e2 : levs2.filterMap reportOf = s1.saved ++ Spec.Mac.sent evs2 := by
    have := i2.paced hp2
    rw [hsaved, List.append_nil] at this
    exact this
  have e : (levs1 ++ levs2).filterMap reportOf = Spec.Mac.sent (evs1 ++ evs2) := by
    rw [List.filterMap_append, e2, ← List.append_assoc, e1]
    simp [Spec.Mac.sent]
  have r12 : (Live.State.start ((Overlap.boot E cfg).run E cfg pre)).run E cfg grow (levs1 ++ levs2) = some s.live := by
    rw [Live.run_append, show (Live.State.start ((Overlap.boot E cfg).run E cfg pre)).run E cfg grow levs1 = _ from i1.run]
    exact i2.run
  have ser := i1.serial.append i1.run i2.serial
  have hcr1 : s1.live.hid.crashed = false := Mac.crashed_prefix i2.run hcr
  have hsub1 : levs1.filterMap reportOf <+ Spec.Mac.sent (evs1 ++ evs2) := by
    rw [← e, List.filterMap_append]; exact List.sublist_append_left _ _
  have hin1 : s1.input = s1.live.hid.out := Mac.input_eq i1.run hcr1 (fun m hm => h64 m (hsub1.subset hm))
    (Nat.lt_of_le_of_lt hsub1.length_le hcount)
  have hinp : s.input = s.live.hid.out := Mac.input_eq r12 hcr (by rw [e]; exact h64) (by rw [e]; exact hcount)
  rw [hin1] at hann
  have hn1 : onChannel cid (levs1.filterMap reportOf) = [] :=
    Mac.onChannel_sub (by rw [← e1]; exact List.sublist_append_left _ _) hnew
  have hn2 : onChannel cid s1.saved = [] :=
    Mac.onChannel_sub (by rw [← e1]; exact List.sublist_append_right _ _) hnew
  rw [hinp]
  refine one_host pre hpre hfree levs1 levs2 i1.run r12 ser ?_ hcr (by rw [e]; exact h64) (by rw [e]; exact hcount) hidle hcid
    hann hn1 (by rw [e]; exact halone) qs hq (by rw [e2, Live.onChannel_append, hn2, List.nil_append]; exact hin) hsize
  intro op hm
  refine hapi op ?_
  rcases List.mem_append.1 hm with hm | hm
  · exact List.mem_append_left _ (i1.api op hm)
  · exact List.mem_append_right _ (i2.api op hm)

theorem serial_of {levs : List Live.Event} : ∀ {s : Live.State}, (∀ a b l m, levs = a ++ .report m :: b →
    s.run E cfg grow a = some l → ∀ r ∈ l.hid.routines, r.phase = .done) → Mac.Serial E cfg grow s levs := by
  induction levs with
  | nil => exact fun _ => trivial
  | cons e levs ih =>
    intro s h
    refine ⟨fun m he => h [] levs s m (by rw [he]; rfl) rfl, fun s' hs => ih fun a b l m heq hr => ?_⟩
    refine h (e :: a) b l m (by rw [heq]; rfl) ?_
    rw [Live.State.run, hs]
    exact hr

theorem usbip_host {pre : List Overlap.Event} (hpre : OneAtATime E cfg (Overlap.boot E cfg) pre)
    (hfree : ∀ t ∈ ((Overlap.boot E cfg).run E cfg pre).threads, busy t = false) {net : UsbIp.Net} {cmds : List Cmd}
    {acts1 acts2 : List Server.Act} {c1 c : Server.Conn} {cid : UInt32} {qs : List Request}
    (h : OverUsbIp E cfg grow pre net cmds acts1 acts2 c1 c cid qs) :
    talk qs cid (Spec.Server.seen cmds c) =
      events E cfg (Device.after E cfg (Device.boot E cfg) (operations pre)) (requested qs) ∧
    sequential c.dev.hid.proc.mem = (Device.after E cfg (Device.boot E cfg) (operations pre ++ requested qs)).world ∧
    Spec.Overlap.results ((Overlap.boot E cfg).run E cfg pre) ++ talk qs cid (Spec.Server.seen cmds c) =
      (events E cfg (Device.boot E cfg) (operations pre ++ requested qs)).filter isResult := by
  obtain ⟨k, hexec1, hexec, hapi, hcr, hwaits, hrest, hheld, ⟨hcid, h0, hann⟩, hnew, halone, hq, hin, hsize⟩ := h
  obtain ⟨hidle, -, -⟩ := Server.C112_at_rest pre k _ hexec hcr hrest
  obtain ⟨levs, i, hpref⟩ := k.inner _ hexec
  obtain ⟨levs1, levs2, rfl, hr⟩ := hpref acts1 acts2 c1 rfl hexec1
  obtain ⟨h64, hcount⟩ := i.short k
  have hg1 : onChannel cid (levs1.filterMap reportOf) = [] := by
    rw [Spec.Server.given, Mac.grown_run levs1 hr] at hnew
    exact hnew
  have hg := Server.given_eq i
  rw [hg, List.filterMap_append, Live.onChannel_append, hg1, List.nil_append] at hin
  rw [hg] at halone
  have hser : Mac.Serial E cfg grow (.start ((Overlap.boot E cfg).run E cfg pre)) (levs1 ++ levs2) := by
    refine serial_of fun a b l m heq hra => ?_
    obtain ⟨b1, b2, d1, d2, g1, g2, g3, g4, rfl⟩ := i.origin a b l m heq hra
    exact hwaits b1 b2 d1 d2 m g1 g2 g3 g4
  have heq : talk qs cid (Spec.Server.seen cmds c) = talk qs cid c.dev.hid.hid.out := by
    unfold talk
    rw [(Server.seen_prefix k _ hexec cid).2 hheld h0]
  rw [heq]
  exact one_host pre hpre hfree levs1 levs2 hr i.run hser (fun op hm => hapi op (i.api op hm)) (i.alive hcr).1 h64 hcount hidle
    hcid (Server.announced_out k acts1 hexec1 hann) hg1 halone qs hq hin hsize

/-- **On macOS** a host is told what the sequential device of C87 to C92 answers to its requests, one after the other, and
leaves the device in the state after them. -/
theorem C131_mac {pre : List Overlap.Event} (hpre : OneAtATime E cfg (Overlap.boot E cfg) pre)
    (hfree : ∀ t ∈ ((Overlap.boot E cfg).run E cfg pre).threads, busy t = false) {evs1 evs2 : List Mac.Event} {s1 s : Mac.State}
    {cid : UInt32} {qs : List Request} (h : OnMac E cfg grow pre evs1 evs2 s1 s cid qs) :
    talk qs cid s.input = events E cfg (Device.after E cfg (Device.boot E cfg) (operations pre)) (requested qs) ∧
    sequential s.live.proc.mem = (Device.after E cfg (Device.boot E cfg) (operations pre ++ requested qs)).world :=
  ⟨(mac_host hpre hfree h).1, (mac_host hpre hfree h).2.1⟩

/-- **Over USB/IP** likewise. -/
theorem C131_usbip {pre : List Overlap.Event} (hpre : OneAtATime E cfg (Overlap.boot E cfg) pre)
    (hfree : ∀ t ∈ ((Overlap.boot E cfg).run E cfg pre).threads, busy t = false) {net : UsbIp.Net} {cmds : List Cmd}
    {acts1 acts2 : List Server.Act} {c1 c : Server.Conn} {cid : UInt32} {qs : List Request}
    (h : OverUsbIp E cfg grow pre net cmds acts1 acts2 c1 c cid qs) :
    talk qs cid (Spec.Server.seen cmds c) =
      events E cfg (Device.after E cfg (Device.boot E cfg) (operations pre)) (requested qs) ∧
    sequential c.dev.hid.proc.mem = (Device.after E cfg (Device.boot E cfg) (operations pre ++ requested qs)).world :=
  ⟨(usbip_host hpre hfree h).1, (usbip_host hpre hfree h).2.1⟩

/-! ### What relying parties make of it -/

theorem requested_not_restart {qs : List Request} : ∀ op ∈ requested qs, op ≠ .restart := by
  intro op ho
  obtain ⟨m, -, rfl⟩ := List.mem_map.1 ho
  unfold opFor
  split <;> exact fun h => nomatch h

theorem both_not_restart {pre : List Overlap.Event} (hno : ∀ op ∈ operations pre, op ≠ .restart) {qs : List Request} :
    ∀ op ∈ operations pre ++ requested qs, op ≠ .restart := by
  intro op ho
  rcases List.mem_append.1 ho with ho | ho
  · exact hno op ho
  · exact requested_not_restart op ho

theorem count_both {f : Op → Bool} {pre : List Overlap.Event} {qs : List Request}
    (h : (operations pre).length + (wanted qs).length + 1 < 2 ^ 32) :
    (operations pre ++ requested qs).countP f + 1 < 2 ^ 32 := by
  have : (operations pre ++ requested qs).countP f ≤ _ := List.countP_le_length
  rw [List.length_append] at this
  have h2 : (requested qs).length = (wanted qs).length := List.length_map _
  omega

/-- **WebAuthn on macOS**: a relying party that checks everything and was shown all there was since the process started
accepts every successful answer the host read. -/
theorem C131_mac_accepted (L : Laws E) (hu : Usable E cfg) (hat : CanAttest E (Device.boot E cfg).world.client)
    {pre : List Overlap.Event} (hpre : OneAtATime E cfg (Overlap.boot E cfg) pre)
    (hfree : ∀ t ∈ ((Overlap.boot E cfg).run E cfg pre).threads, busy t = false) (hno : ∀ op ∈ operations pre, op ≠ .restart)
    {evs1 evs2 : List Mac.Event} {s1 s : Mac.State} {cid : UInt32} {qs : List Request}
    (h : OnMac E cfg grow pre evs1 evs2 s1 s cid qs) (hfew : (operations pre).length + (wanted qs).length + 1 < 2 ^ 32)
    (p : Spec.RelyingParty.Party) (hanchor : Cose.publicOf cfg.certKey = .ok p.anchor) (hpuv : p.demandsUV = false)
    (hdraws : DistinctDraws E (sequential s.live.proc.mem).rnd) :
    Accepts E p (Spec.Overlap.results ((Overlap.boot E cfg).run E cfg pre) ++ talk qs cid s.input) := by
  obtain ⟨-, h2, h3⟩ := mac_host hpre hfree h
  rw [h2] at hdraws
  rw [h3]
  exact accepts_filter (accepts_history L hu hat p hanchor hpuv _ (both_not_restart hno) hdraws
    (Nat.lt_of_succ_lt (count_both hfew)))

/-- **WebAuthn over USB/IP.** -/
theorem C131_usbip_accepted (L : Laws E) (hu : Usable E cfg) (hat : CanAttest E (Device.boot E cfg).world.client)
    {pre : List Overlap.Event} (hpre : OneAtATime E cfg (Overlap.boot E cfg) pre)
    (hfree : ∀ t ∈ ((Overlap.boot E cfg).run E cfg pre).threads, busy t = false) (hno : ∀ op ∈ operations pre, op ≠ .restart)
    {net : UsbIp.Net} {cmds : List Cmd} {acts1 acts2 : List Server.Act} {c1 c : Server.Conn} {cid : UInt32} {qs : List Request}
    (h : OverUsbIp E cfg grow pre net cmds acts1 acts2 c1 c cid qs)
    (hfew : (operations pre).length + (wanted qs).length + 1 < 2 ^ 32)
    (p : Spec.RelyingParty.Party) (hanchor : Cose.publicOf cfg.certKey = .ok p.anchor) (hpuv : p.demandsUV = false)
    (hdraws : DistinctDraws E (sequential c.dev.hid.proc.mem).rnd) :
    Accepts E p (Spec.Overlap.results ((Overlap.boot E cfg).run E cfg pre) ++ talk qs cid (Spec.Server.seen cmds c)) := by
  obtain ⟨-, h2, h3⟩ := usbip_host hpre hfree h
  rw [h2] at hdraws
  rw [h3]
  exact accepts_filter (accepts_history L hu hat p hanchor hpuv _ (both_not_restart hno) hdraws
    (Nat.lt_of_succ_lt (count_both hfew)))

/-- **U2F on macOS**: here the process may have been restarted before, if the party checks counters only when something
was saved after the last authentication. -/
theorem C131_mac_u2f_accepted (L : Laws E) (hu : Usable E cfg) (hat : CanAttest E (Device.boot E cfg).world.client)
    {pre : List Overlap.Event} (hpre : OneAtATime E cfg (Overlap.boot E cfg) pre)
    (hfree : ∀ t ∈ ((Overlap.boot E cfg).run E cfg pre).threads, busy t = false)
    {evs1 evs2 : List Mac.Event} {s1 s : Mac.State} {cid : UInt32} {qs : List Request}
    (h : OnMac E cfg grow pre evs1 evs2 s1 s cid qs) (hfew : (operations pre).length + (wanted qs).length + 1 < 2 ^ 32)
    (p : Spec.U2fParty.Party) (hanchor : Cose.publicOf cfg.certKey = .ok p.anchor)
    (hset : p.checksCounter = true → Spec.U2fParty.Settled false (events E cfg (Device.boot E cfg) (operations pre)))
    (hnonces : Spec.U2fParty.DistinctNonces E (sequential s.live.proc.mem).rnd) :
    U2fAccepts E p (Spec.Overlap.results ((Overlap.boot E cfg).run E cfg pre) ++ talk qs cid s.input) := by
  obtain ⟨-, h2, h3⟩ := mac_host hpre hfree h
  rw [h2] at hnonces
  rw [h3]
  exact u2fAccepts_filter (u2fAccepts_history L hu hat p hanchor _ (fun hc => settled_requested (hset hc)) hnonces (count_both hfew))

/-- **U2F over USB/IP.** -/
theorem C131_usbip_u2f_accepted (L : Laws E) (hu : Usable E cfg) (hat : CanAttest E (Device.boot E cfg).world.client)
    {pre : List Overlap.Event} (hpre : OneAtATime E cfg (Overlap.boot E cfg) pre)
    (hfree : ∀ t ∈ ((Overlap.boot E cfg).run E cfg pre).threads, busy t = false)
    {net : UsbIp.Net} {cmds : List Cmd} {acts1 acts2 : List Server.Act} {c1 c : Server.Conn} {cid : UInt32} {qs : List Request}
    (h : OverUsbIp E cfg grow pre net cmds acts1 acts2 c1 c cid qs)
    (hfew : (operations pre).length + (wanted qs).length + 1 < 2 ^ 32)
    (p : Spec.U2fParty.Party) (hanchor : Cose.publicOf cfg.certKey = .ok p.anchor)
    (hset : p.checksCounter = true → Spec.U2fParty.Settled false (events E cfg (Device.boot E cfg) (operations pre)))
    (hnonces : Spec.U2fParty.DistinctNonces E (sequential c.dev.hid.proc.mem).rnd) :
    U2fAccepts E p (Spec.Overlap.results ((Overlap.boot E cfg).run E cfg pre) ++ talk qs cid (Spec.Server.seen cmds c)) := by
  obtain ⟨-, h2, h3⟩ := usbip_host hpre hfree h
  rw [h2] at hnonces
  rw [h3]
  exact u2fAccepts_filter (u2fAccepts_history L hu hat p hanchor _ (fun hc => settled_requested (hset hc)) hnonces (count_both hfew))

end VF.Props
