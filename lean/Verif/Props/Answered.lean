import Verif.Proofs.LiveReadable
import Verif.Props.Live
import Verif.Props.Harmless

/-!
# C129: hosts that behave are answered

C128 on the whole device: reports are handled by goroutines, requests overlap in the authenticator, and nothing ends the
process.
-/

namespace VF.Props

open VF.Fido VF.Live VF.Spec.History VF.Spec.Readable VF.Spec.Harmless VF.Spec.Ctaphid VF.Spec.Live VF.Spec.Calls
open VF.Spec.Overlap (opOf)
open VF.Spec.Stack (onChannel)
open VF.Spec.Service
open VF.Spec.Client VF.Spec.U2f

variable {E : Env} {cfg : Client.Config} {grow : Nat → Nat → Nat}

/-- Reports the device understands never make the HID server panic, however many hosts send them, in whatever order they
come in and are dealt with, and whatever the requests in them are. -/
theorem C129_reports (pre : List Overlap.Event) (evs : List Live.Event) {s : Live.State}
    (hrun : (State.start ((Overlap.boot E cfg).run E cfg pre)).run E cfg grow evs = some s)
    (hread : ∀ m ∈ evs.filterMap reportOf, Readable m) (hcount : (evs.filterMap reportOf).length < 4294967295) :
    s.hid.crashed = false := (live_fine evs hrun hread hcount).2

/-- The operations the authenticator has been given since the device was started. -/
def given (p0 : Overlap.Process) (s : Live.State) : List Op := (s.proc.threads.map opOf).drop p0.threads.length

theorem few_appended {key : Bytes} {pre oevs : List Overlap.Event} (hpre : Behaves E key pre)
    (hh : ∀ op ∈ oevs.filterMap beginning, Harmless E key op)
    (hn : ∀ before between, pre = before ++ between → .restart ∉ between →
      between.countP (beginsTry E) + (oevs.filterMap beginning).countP (tries E) ≤ 7) : Behaves E key (pre ++ oevs) where
  harmless := by
    intro op ho
    rcases List.mem_append.1 ho with ho | ho
    · exact hpre.harmless op ho
    · exact hh op (List.mem_filterMap.2 ⟨_, ho, rfl⟩)
  few := by
    have hc : ∀ l : List Overlap.Event, l.countP (beginsTry E) = (l.filterMap beginning).countP (tries E) := by
      intro l
      induction l with
      | nil => rfl
      | cons e l ih =>
        cases e with
        | begin op =>
          show List.countP (beginsTry E) (.begin op :: l) = List.countP (tries E) (op :: l.filterMap beginning)
          rw [List.countP_cons, List.countP_cons, ih]
          rfl
        | turn i =>
          show List.countP (beginsTry E) (.turn i :: l) = List.countP (tries E) (l.filterMap beginning)
          rw [List.countP_cons, ih]
          rfl
        | restart =>
          show List.countP (beginsTry E) (.restart :: l) = List.countP (tries E) (l.filterMap beginning)
          rw [List.countP_cons, ih]
          rfl
    intro x y z he hr
    rw [List.append_assoc] at he
    have h0 := hn pre [] (by simp) (by simp)
    rw [← hc] at h0
    rcases List.append_eq_append_iff.1 he with ⟨a, h1, h2⟩ | ⟨a, h1, h2⟩
    · have := congrArg (List.countP (beginsTry E)) h2
      rw [List.countP_append, List.countP_append] at this
      simp only [List.countP_nil] at h0
      omega
    · rcases List.append_eq_append_iff.1 h2 with ⟨b, h3, h4⟩ | ⟨b, h3, h4⟩
      · exact hpre.few x y b (by rw [h1, h3, List.append_assoc]) hr
      · have h5 := hn x a h1 (fun h => hr (by rw [h3]; simp [h]))
        rw [← hc] at h5
        have := congrArg (List.countP (beginsTry E)) h4
        rw [List.countP_append] at this
        rw [h3, List.countP_append]
        omega

/-- Hosts that behave: what the authenticator is given is harmless, and there are no more than seven attempts at a PIN
since the process was started. -/
structure HostsBehave (E : Env) (cfg : Client.Config) (pre : List Overlap.Event) (s : Live.State) : Prop where
  before : Behaves E cfg.deviceKey pre
  harmless : ∀ op ∈ given ((Overlap.boot E cfg).run E cfg pre) s, Harmless E cfg.deviceKey op
  few : ∀ before between, pre = before ++ between → .restart ∉ between →
    between.countP (beginsTry E) + (given ((Overlap.boot E cfg).run E cfg pre) s).countP (tries E) ≤ 7

/-- The process does not end. -/
theorem C129_alive (L : Laws E) (hu : Usable E cfg) (hat : CanAttest E (Device.boot E cfg).world.client)
    (hk : aesKeyOk cfg.deviceKey = true) (pre : List Overlap.Event) (evs : List Live.Event) {s : Live.State}
    (hrun : (State.start ((Overlap.boot E cfg).run E cfg pre)).run E cfg grow evs = some s)
    (hread : ∀ m ∈ evs.filterMap reportOf, Readable m) (hcount : (evs.filterMap reportOf).length < 4294967295)
    (hb : HostsBehave E cfg pre s) : s.hid.crashed = false ∧ s.proc.alive = true := by
  refine ⟨C129_reports pre evs hrun hread hcount, ?_⟩
  obtain ⟨oevs, h1, -, h3⟩ := live_ops evs hrun
  have hg : given ((Overlap.boot E cfg).run E cfg pre) s = oevs.filterMap beginning := by
    unfold given
    rw [h3]
    exact List.drop_left' (by simp)
  have h4 := hb.harmless
  have h5 := hb.few
  rw [hg] at h4 h5
  rw [h1, ← Overlap.run_append]
  exact C128_alive L hu hat hk _ (few_appended hb.before h4 h5)

/-- So, when no further step is possible, which all orders of steps come to (C104), every report has been dealt with and
every request in them has been answered. -/
theorem C129_all_answered (L : Laws E) (hu : Usable E cfg) (hat : CanAttest E (Device.boot E cfg).world.client)
    (hk : aesKeyOk cfg.deviceKey = true) (pre : List Overlap.Event) (evs : List Live.Event) {s : Live.State}
    (hrun : (State.start ((Overlap.boot E cfg).run E cfg pre)).run E cfg grow evs = some s)
    (hread : ∀ m ∈ evs.filterMap reportOf, Readable m) (hcount : (evs.filterMap reportOf).length < 4294967295)
    (hb : HostsBehave E cfg pre s) (hstuck : Stuck E cfg grow s) :
    ∃ handled refused calls, Account (evs.filterMap reportOf) s.hid.out s.proc.threads handled refused [] calls ∧
      NotRefused E cfg grow ((Overlap.boot E cfg).run E cfg pre) evs refused ∧
      (∀ k ∈ calls, k.answer.isSome = true) ∧
      ((∀ k ∈ calls, ∀ a, k.answer = some a → a ≠ [] ∧ a.length ≤ 7609) →
        ∀ cid, answers (onChannel cid s.hid.out) = results (callsOn cid calls)) := by
  obtain ⟨h1, h2⟩ := C129_alive L hu hat hk pre evs hrun hread hcount hb
  exact C104_all_answered pre evs hrun h1 h2 (fun m hm => Nat.le_of_eq (hread m hm).1) hcount hstuck

/-- On a channel that was announced before its first report, if every report comes in when those before it have been dealt
with: the host is sent the result of every request it sent for the authenticator, in order. -/
theorem C129_in_order (L : Laws E) (hu : Usable E cfg) (hat : CanAttest E (Device.boot E cfg).world.client)
    (hk : aesKeyOk cfg.deviceKey = true) (pre : List Overlap.Event) (evs1 evs2 : List Live.Event) {s1 s : Live.State}
    (hrun1 : (State.start ((Overlap.boot E cfg).run E cfg pre)).run E cfg grow evs1 = some s1)
    (hrun : (State.start ((Overlap.boot E cfg).run E cfg pre)).run E cfg grow (evs1 ++ evs2) = some s)
    (hread : ∀ m ∈ (evs1 ++ evs2).filterMap reportOf, Readable m)
    (hcount : ((evs1 ++ evs2).filterMap reportOf).length < 4294967295)
    (hb : HostsBehave E cfg pre s) (hstuck : Stuck E cfg grow s) {cid : UInt32} (hcid : cid ≠ 0xFFFFFFFF)
    (hann : Announced s1 cid) (hnew : onChannel cid (evs1.filterMap reportOf) = [])
    (hone : OneByOne E cfg grow ((Overlap.boot E cfg).run E cfg pre) (evs1 ++ evs2) cid)
    (qs : List Request) (hq : ∀ q ∈ qs, q.WellSent cid)
    (hin : onChannel cid (evs2.filterMap reportOf) = qs.flatMap (·.packets)) :
    ∃ handled refused calls,
      Account ((evs1 ++ evs2).filterMap reportOf) s.hid.out s.proc.threads handled refused [] calls ∧
      asked (callsOn cid calls) = wanted qs ∧ (∀ k ∈ calls, k.answer.isSome = true) ∧
      ((∀ k ∈ calls, ∀ a, k.answer = some a → a ≠ [] ∧ a.length ≤ 7609) →
        answers (onChannel cid s.hid.out) = results (callsOn cid calls)) := by
  obtain ⟨h1, h2⟩ := C129_alive L hu hat hk pre _ hrun hread hcount hb
  have h64 : ∀ m ∈ (evs1 ++ evs2).filterMap reportOf, m.length ≤ 64 := fun m hm => Nat.le_of_eq (hread m hm).1
  obtain ⟨hidle, -⟩ := C104_no_deadlock pre _ hrun h1 h2 h64 hcount hstuck
  exact C103_in_order evs1 evs2 hrun1 hrun h1 h64 hcount hidle hcid hann hnew hone qs hq hin

/-! ### The condition on requests, in terms of reports -/

/-- In whatever order reports are dealt with, and whether or not all of them have been: all that can be made of them is
harmless requests. -/
def SpeakHarmlessly (E : Env) (key : Bytes) (reports : List Bytes) : Prop :=
  ∀ (cid : UInt32) (l rest : List Bytes) (all : List (UInt8 × Bytes)) (window : List Bytes), cid ≠ 0xFFFFFFFF →
    (l ++ rest).Perm reports → Heard cid (onChannel cid l) all window →
    ∀ m ∈ all, forAuthenticator m.1 = true → Harmless E key (opFor m.1 m.2)

/-- Then the authenticator is given nothing else. -/
theorem C129_spoken (pre : List Overlap.Event) (evs : List Live.Event) {s : Live.State}
    (hrun : (State.start ((Overlap.boot E cfg).run E cfg pre)).run E cfg grow evs = some s)
    (hread : ∀ m ∈ evs.filterMap reportOf, Readable m) (hcount : (evs.filterMap reportOf).length < 4294967295)
    (key : Bytes) (h : SpeakHarmlessly E key (evs.filterMap reportOf)) :
    ∀ op ∈ given ((Overlap.boot E cfg).run E cfg pre) s, Harmless E key op := by
  have hcr := C129_reports pre evs hrun hread hcount
  obtain ⟨handled, refused, pending, calls, acc, -, -, helse, -⟩ := C103_account evs hrun hcr
    (fun m hm => Nat.le_of_eq (hread m hm).1) hcount
  intro op ho
  unfold given at ho
  rw [← List.map_drop] at ho
  obtain ⟨t, ht, rfl⟩ := List.mem_map.1 ho
  obtain ⟨j, hj⟩ := List.getElem?_of_mem ht
  rw [List.getElem?_drop] at hj
  by_cases hmsg : ∃ message, opOf t = .ctap message ∨ opOf t = .u2f message
  · obtain ⟨message, hmsg⟩ := hmsg
    obtain ⟨k, hk, hn⟩ := helse.2 _ t message (Nat.le_add_right _ _) hj hmsg
    obtain ⟨t', h1, h2⟩ := acc.operation k hk
    rw [hn, hj] at h1
    obtain rfl := Option.some.inj h1
    obtain ⟨all, window, h3, h4⟩ := acc.requests k.channel
    have hm : (k.command, k.payload) ∈ asked (callsOn k.channel calls) :=
      List.mem_map.2 ⟨k, List.mem_filter.2 ⟨hk, by simp⟩, rfl⟩
    rw [h4] at hm
    by_cases hc : k.channel = 0xFFFFFFFF
    · rw [if_pos hc] at hm
      cases hm
    · rw [if_neg hc] at hm
      obtain ⟨h5, h6⟩ := List.mem_filter.1 hm
      rw [h2]
      exact h k.channel handled (refused ++ pending) all window hc (by rw [← List.append_assoc]; exact acc.once) h3 _ h5 h6
  · cases hop : opOf t with
    | ctap m => exact absurd ⟨m, .inl hop⟩ hmsg
    | u2f m => exact absurd ⟨m, .inr hop⟩ hmsg
    | _ => trivial

/-- As when every report is a request of its own, harmless if it is for the authenticator, or begins none. -/
theorem C129_single_reports {key : Bytes} {reports : List Bytes}
    (h : ∀ m ∈ reports, ∀ cid, channelOf m = some cid → cid ≠ 0xFFFFFFFF →
      (∃ q : Request, q.WellSent cid ∧ q.packets = [m] ∧
        (forAuthenticator q.command = true → Harmless E key (opFor q.command q.payload))) ∨
      (¬ IsBeginning cid [m] ∧ ∀ cmd payload, Begins cmd → ¬ IsFragmentation cid cmd payload [m])) :
    SpeakHarmlessly E key reports := by
  intro cid l rest all window hcid hperm hheard
  have hl : ∀ m ∈ onChannel cid l, m ∈ reports ∧ channelOf m = some cid := by
    intro m hm
    obtain ⟨h1, h2⟩ := List.mem_filter.1 hm
    exact ⟨hperm.subset (List.mem_append_left _ h1), by simpa using h2⟩
  suffices key : ∀ l all window, Heard cid l all window → (∀ m ∈ l, m ∈ reports ∧ channelOf m = some cid) →
      window = [] ∧ ∀ m ∈ all, forAuthenticator m.1 = true → Harmless E key (opFor m.1 m.2) from (key _ _ _ hheard hl).2
  intro l all window hh
  induction hh with
  | nil => intro _; exact ⟨rfl, fun m hm => by cases hm⟩
  | begun p h0 hb ih =>
    intro hl
    obtain ⟨h1, h2⟩ := ih fun m hm => hl m (List.mem_append_left _ hm)
    subst h1
    obtain ⟨h3, h4⟩ := hl p (by simp)
    exfalso
    rcases h p h3 cid h4 hcid with ⟨q, ⟨-, h5⟩, h6, -⟩ | ⟨h5, -⟩
    · rw [h6] at h5
      exact beginning_incomplete hb h5
    · exact h5 hb
  | request p cmd payload h0 hc hw ih =>
    intro hl
    obtain ⟨h1, h2⟩ := ih fun m hm => hl m (List.mem_append_left _ hm)
    subst h1
    obtain ⟨h3, h4⟩ := hl p (by simp)
    refine ⟨rfl, fun m hm => ?_⟩
    rcases List.mem_append.1 hm with hm | hm
    · exact h2 m hm
    · obtain rfl := List.mem_singleton.1 hm
      rcases h p h3 cid h4 hcid with ⟨q, ⟨-, h5⟩, h6, h7⟩ | ⟨-, h5⟩
      · rw [h6] at h5
        obtain ⟨rfl, rfl⟩ := fragmentation_unique hw h5
        exact h7
      · exact absurd hw (h5 cmd payload hc)
  | nothing p h0 hb hw ih =>
    intro hl
    obtain ⟨-, h2⟩ := ih fun m hm => hl m (List.mem_append_left _ hm)
    exact ⟨rfl, h2⟩

/-! ### Other reports are too much -/

/-- A report of one message with any other command ends the process when it is dealt with (INIT on the host's own channel,
for example, with which the CTAPHID specification has a host begin afresh). -/
theorem C129_unreadable_refuted {s : Live.State} (ha : s.proc.alive = true) (hcr : s.hid.crashed = false) {i p : Nat}
    {r : Reports.Routine} {c : Reports.Chan} (hr : s.hid.routines[i]? = some r) (hp : r.phase = .inside p)
    (hc : s.hid.chans[p]? = some c) (ht : c.transaction = none) {cmd : UInt8} {len : Nat} {d : Bytes} (hd : d.length = 57)
    (hm : r.report = initPacket c.channelId cmd len d) (hlen : len ≤ 57) (h128 : 128 ≤ cmd.toNat) (hn : cmd ≠ 0x91)
    (hk : ¬ Known c.channelId cmd) : ∃ s', s.step E cfg grow (.step i) = some s' ∧ s'.hid.crashed = true := by
  have hcol := Hid.newTransaction_init c.channelId cmd len d (by omega) h128 hn
  rw [if_pos (show len ≤ d.length by omega)] at hcol
  have hs : s.hid.turn grow i s.proc.threads.length r = some (s.hid.handle grow i p s.proc.threads.length c r.report) := by
    unfold Reports.State.turn
    rw [hp]
    dsimp only
    rw [hc]
  have hcrash : (s.hid.handle grow i p s.proc.threads.length c r.report).crashed = true := by
    unfold Reports.State.handle Reports.collect
    rw [ht, hm]
    dsimp only
    rw [hcol]
    dsimp only
    rw [if_pos rfl, if_neg (by simp), if_neg (by simp)]
    unfold Known at hk
    split
    · rename_i hb
      rw [if_pos (show c.channelId = 0xFFFFFFFF from hb)] at hk
      unfold Reports.State.broadcast
      dsimp only
      rw [if_neg (show ¬ cmd = Hid.cmdInit from fun h => hk (.inl h)), if_neg (show ¬ cmd = Hid.cmdPing from fun h => hk (.inr h))]
      rfl
    · rename_i hb
      rw [if_neg (show ¬ c.channelId = 0xFFFFFFFF from hb)] at hk
      unfold Reports.State.data
      dsimp only
      rw [if_neg (show ¬ cmd = Hid.cmdMsg from fun h => hk (.inl h)),
        if_neg (show ¬ cmd = Hid.cmdCBOR from fun h => hk (.inr (.inl h))),
        if_neg (show ¬ cmd = Hid.cmdPing from fun h => hk (.inr (.inr h)))]
      rfl
  refine ⟨({ s with hid := s.hid.handle grow i p s.proc.threads.length c r.report } : Live.State).enter E cfg i, ?_, ?_⟩
  · unfold State.step
    rw [if_pos ha]
    dsimp only
    unfold Reports.State.step
    rw [hcr]
    dsimp only
    rw [hr]
    simp only [Bool.false_eq_true, if_false, hs, Option.map_some]
  · rw [enter_hid]
    exact hcrash

/-- CTAPHID_WINK on the broadcast channel. -/
def winkReport : Bytes := initPacket 0xFFFFFFFF 0x88 0 (List.replicate 57 0)

/-- There is such a state: a report has come in and its goroutine has the channel's lock. -/
theorem C129_unreadable_case : ∃ (E : Env) (cfg : Client.Config) (grow : Nat → Nat → Nat) (s : Live.State) (r : Reports.Routine)
    (c : Reports.Chan), (State.start (Overlap.boot E cfg)).run E cfg grow [.report winkReport, .step 0, .step 0] = some s ∧
    s.proc.alive = true ∧ s.hid.crashed = false ∧ s.hid.routines[0]? = some r ∧ r.phase = .inside 0 ∧
    s.hid.chans[0]? = some c ∧ c.transaction = none ∧ r.report = initPacket c.channelId 0x88 0 (List.replicate 57 0) ∧
    ¬ Known c.channelId 0x88 := by
  refine ⟨Toy.toy Toy.agree, Toy.config false, Live.Example.grow0, _, _, _, rfl, rfl, rfl, rfl, rfl, rfl, rfl, rfl, ?_⟩
  rintro (h | h) <;> cases h

/-- Hosts that behave, dealt with to the end: the example of C103–C105, five reports on three channels. -/
theorem C129_case : ∃ (E : Env) (cfg : Client.Config) (grow : Nat → Nat → Nat) (evs : List Live.Event) (s : Live.State), Laws E ∧
    Usable E cfg ∧ CanAttest E (Device.boot E cfg).world.client ∧ aesKeyOk cfg.deviceKey = true ∧
    (State.start ((Overlap.boot E cfg).run E cfg [])).run E cfg grow evs = some s ∧
    (∀ m ∈ evs.filterMap reportOf, Readable m) ∧ (evs.filterMap reportOf).length = 5 ∧ HostsBehave E cfg [] s ∧
    Stuck E cfg grow s ∧ given ((Overlap.boot E cfg).run E cfg []) s = [.ctap [4], .u2f [0, 3, 0, 0, 0, 0, 0]] := by
  obtain ⟨s, hs, h⟩ := Option.map_eq_some_iff.mp Live.Example.summary
  simp only [Prod.mk.injEq] at h
  obtain ⟨h1, h2, h3, h4⟩ := h
  have hg : given ((Overlap.boot (Toy.toy Toy.agree) (Toy.config false)).run (Toy.toy Toy.agree) (Toy.config false) []) s =
      [.ctap [4], .u2f [0, 3, 0, 0, 0, 0, 0]] := by
    have hd : (Live.Example.at' (Live.Example.opening ++ Live.Example.ending)).map (fun s => s.proc.threads.map opOf) =
        some [.ctap [4], .u2f [0, 3, 0, 0, 0, 0, 0]] := by decide +kernel
    rw [hs] at hd
    exact Option.some.inj hd
  refine ⟨Toy.toy Toy.agree, Toy.config false, Live.Example.grow0, Live.Example.opening ++ Live.Example.ending, s,
    Toy.toy_laws Toy.agree, Toy.config_usable _ _, Toy.boot_attests _ _, by decide +kernel, hs, ?_, by decide, ?_,
    C104_rest (Live.Example.ended_idle h1) ?_, hg⟩
  · have key : ∀ (m : Bytes) (cid : UInt32) (cmd : UInt8), m.length = 64 → channelOf m = some cid → commandOf m = some cmd →
        (cmd = 0x91 ∨ Known cid cmd) → Readable m := by
      intro m cid cmd h1 h2 h3 h4
      refine ⟨h1, fun cid' cmd' g1 g2 _ => ?_⟩
      rw [h2] at g1
      rw [h3] at g2
      cases g1
      cases g2
      exact h4
    have hl : (Live.Example.opening ++ Live.Example.ending).filterMap reportOf = [Live.Example.initReport, Live.Example.initReport,
      Live.Example.infoReport, Live.Example.versionReport, Live.Example.cancelReport] := rfl
    rw [hl]
    simp only [List.mem_cons, List.not_mem_nil, or_false, forall_eq_or_imp, forall_eq]
    have hi := key Live.Example.initReport 0xFFFFFFFF 0x86 (by decide +kernel) (by decide +kernel) (by decide +kernel)
      (.inr (.inl rfl))
    exact ⟨hi, hi, key _ 1 0x90 (by decide +kernel) (by decide +kernel) (by decide +kernel) (.inr (.inr (.inl rfl))),
      key _ 2 0x83 (by decide +kernel) (by decide +kernel) (by decide +kernel) (.inr (.inl rfl)),
      key _ 1 0x91 (by decide +kernel) (by decide +kernel) (by decide +kernel) (.inl rfl)⟩
  · refine ⟨⟨fun op h => (by cases h), ?_⟩, ?_, ?_⟩
    · intro x y z h _
      have := congrArg List.length h
      simp only [List.length_nil, List.length_append] at this
      obtain rfl := List.length_eq_zero_iff.1 (show y.length = 0 by omega)
      simp
    · rw [hg]
      intro op ho
      simp only [List.mem_cons, List.not_mem_nil, or_false] at ho
      rcases ho with rfl | rfl
      · exact .getInfo []
      · exact .version (p1 := 0) (data := []) .answerLength
    · rw [hg]
      intro x y h _
      have := congrArg List.length h
      simp only [List.length_nil, List.length_append] at this
      obtain rfl := List.length_eq_zero_iff.1 (show y.length = 0 by omega)
      decide
  · intro t ht
    have := List.all_eq_true.mp h4 t ht
    simpa using this

end VF.Props
