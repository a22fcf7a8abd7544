import Verif.Proofs.MacSequential
import Verif.Props.Live

/-!
# Properties C107 and C108: the device on macOS

On macOS the process deals with one report at a time.
-/

namespace VF.Mac

open Fido Spec.Mac Spec.Calls Hid Spec.Service Spec.Live Spec.Ctaphid
open Spec.Stack (onChannel)
open Spec.Overlap (busy OneAtATime operations sequential isResult)
open Live (reportOf Idle)
open scoped List

variable {E : Env} {cfg : Client.Config} {grow : Nat → Nat → Nat} {p0 : Overlap.Process}

/-! ## C107: reports on macOS -/

theorem given_eq {s : State} {levs : List Live.Event} (h : (Live.State.start p0).run E cfg grow levs = some s.live) :
    given s = levs.filterMap reportOf := grown_run levs h

/-- The process is given reports in the order in which they were sent; those it has not yet been given wait in the
driver, at most seventeen, and the process has been notified of them.  Of reports that are sent
when at most sixteen wait, none is lost. -/
theorem C107_reports_in_order (evs : List Event) {s : State} (hrun : (State.start p0).run E cfg grow evs = some s) :
    given s ++ s.saved <+ sent evs ∧ s.saved.length ≤ 17 ∧ s.saved.length ≤ s.notices ∧
    (Paced E cfg grow (.start p0) evs → given s ++ s.saved = sent evs) := by
  obtain ⟨levs, i⟩ := inner evs hrun
  rw [given_eq i.run]
  exact ⟨i.order, i.held (Nat.zero_le _), i.noticed (Nat.zero_le _), i.paced⟩

theorem run_append (evs1 evs2 : List Event) : ∀ s : State, s.run E cfg grow (evs1 ++ evs2) =
    (s.run E cfg grow evs1).bind fun s' => s'.run E cfg grow evs2 := by
  induction evs1 with
  | nil => intro s; rfl
  | cons e evs1 ih =>
    intro s
    show (s.step E cfg grow e).bind (fun s' => s'.run E cfg grow (evs1 ++ evs2)) = _
    rw [State.run]
    rcases s.step E cfg grow e with _ | s'
    · rfl
    · exact ih s'

/-- The driver has room for seventeen reports. -/
theorem fill (ms : List Bytes) : ∀ s : State, s.saved.length + ms.length ≤ 17 → s.run E cfg grow (ms.map .setReport) =
    some { s with saved := s.saved ++ ms, notices := s.notices + ms.length } := by
  induction ms with
  | nil => intro s _; simp [State.run]
  | cons m ms ih =>
    intro s h
    rw [List.length_cons] at h
    have h1 : s.setReport m = { s with saved := s.saved ++ [m], notices := s.notices + 1 } := by
      unfold State.setReport maxSavedFrames
      rw [if_neg (by omega)]
    rw [List.map_cons, State.run]
    show (some (s.setReport m)).bind _ = _
    rw [h1]
    show State.run E cfg grow _ _ = _
    rw [ih _ (by dsimp only; rw [List.length_append, List.length_singleton]; omega)]
    simp [Nat.add_assoc, Nat.add_comm 1]

/-- An eighteenth report that comes in while the process is busy makes the driver forget the first. -/
theorem C107_oldest_lost (p0 : Overlap.Process) (first : Bytes) (others : List Bytes) (h : others.length = 17) :
    ∃ s, (State.start p0).run E cfg grow ((first :: others).map .setReport) = some s ∧ given s = [] ∧ s.saved = others := by
  obtain ⟨ms, m, rfl⟩ : ∃ ms m, others = ms ++ [m] := by
    rcases List.eq_nil_or_concat others with rfl | ⟨ms, m, h'⟩
    · cases h
    · exact ⟨ms, m, by rw [h', List.concat_eq_append]⟩
  rw [List.length_append] at h
  rw [← List.cons_append, List.map_append, run_append, fill (first :: ms) _ (by
    show 0 + (first :: ms).length ≤ 17
    rw [List.length_cons]
    simp at h
    omega)]
  refine ⟨_, rfl, rfl, ?_⟩
  show (if ([] ++ (first :: ms)).length > maxSavedFrames then ([] ++ (first :: ms)).tail else _) ++ [m] = ms ++ [m]
  rw [if_pos]
  · rfl
  · show 16 < (first :: ms).length
    rw [List.length_cons]
    simp at h
    omega

/-- A report is only looked at when all those before it are done with. -/
theorem C107_one_at_a_time (evs : List Event) {s : State} (hrun : (State.start p0).run E cfg grow evs = some s)
    (hcr : s.live.hid.crashed = false) {i : Nat} {r : Reports.Routine} (hr : s.live.hid.routines[i]? = some r)
    (hd : r.phase ≠ .done) : i + 1 = (given s).length := by
  obtain ⟨levs, inn⟩ := inner evs hrun
  have := lastBusy_run levs (fun j x hj => by cases hj) inn.run hcr inn.serial i r hr hd
  unfold given
  rw [List.length_map]
  exact this

/-- The device works without end only if hosts keep sending reports or the embedding program keeps calling the API. -/
theorem C107_no_endless_work (f : Nat → State) :
    ¬ ∀ n, (f n).step E cfg grow .notice = some (f (n + 1)) ∨
      ∃ e, Live.internal e = true ∧ (f n).step E cfg grow (.inside e) = some (f (n + 1)) := by
  intro hf
  have key : ∀ (k : Nat) (l : Live.State), Acc (Live.Follows E cfg grow) l → ∀ n, (f n).notices = k → (f n).live ≠ l := by
    intro k
    induction k using Nat.strongRecOn with
    | ind k ihk =>
      intro l hl
      induction hl with
      | intro l hl ih =>
        intro n hk hn
        rcases hf n with h | ⟨e, he, h⟩
        · replace h : (f n).notice E cfg grow = some (f (n + 1)) := h
          have hlt : (f (n + 1)).notices < (f n).notices := by
            unfold State.notice at h
            split at h
            · cases h
            · rename_i hc
              simp only [not_or] at hc
              split at h
              · rw [← Option.some.inj h]; dsimp only; omega
              · obtain ⟨l', -, h'⟩ := Option.map_eq_some_iff.mp h
                rw [← h']; dsimp only; omega
          exact ihk _ (by rw [hk] at hlt; exact hlt) _ (Live.acc_follows E cfg grow _) (n + 1) rfl rfl
        · unfold State.step at h
          dsimp only at h
          split at h
          · cases h
          · obtain ⟨l', h1, h'⟩ := Option.map_eq_some_iff.mp h
            refine ih l' ⟨e, he, by rw [← hn]; exact h1⟩ (n + 1) ?_ ?_
            · rw [← h']; exact hk
            · rw [← h']
  exact key _ _ (Live.acc_follows E cfg grow _) 0 rfl rfl

theorem crashed_prefix {evs : List Live.Event} {s s' : Live.State} (h : s.run E cfg grow evs = some s')
    (hcr : s'.hid.crashed = false) : s.hid.crashed = false := by
  cases evs with
  | nil => cases h; exact hcr
  | cons e evs =>
    obtain ⟨s1, h1, -⟩ := Option.bind_eq_some_iff.mp h
    exact (Live.step_crashed h1).1

/-- When nothing more happens by itself, and no panic ended the process, all reports that were sent, and not lost in
the driver, have been dealt with. -/
theorem C107_at_rest (pre : List Overlap.Event) (evs : List Event) {s : State}
    (hrun : (State.start ((Overlap.boot E cfg).run E cfg pre)).run E cfg grow evs = some s)
    (hcr : s.live.hid.crashed = false) (halive : s.live.proc.alive = true) (h64 : ∀ m ∈ sent evs, m.length ≤ 64)
    (hcount : (sent evs).length < 4294967295) (hrest : AtRest E cfg grow s) :
    Idle s.live ∧ (∀ t ∈ s.live.proc.threads, busy t = false) ∧ s.saved = [] ∧ s.notices = 0 := by
  obtain ⟨levs, i⟩ := inner evs hrun
  have hsub : levs.filterMap reportOf <+ sent evs := (List.sublist_append_left _ _).trans i.order
  have hstuck : Live.Stuck E cfg grow s.live := by
    intro e he
    have := hrest.2 e (fun op h => by rw [h] at he; cases he) (fun i h => by rw [h] at he; cases he)
    unfold State.step at this
    dsimp only at this
    rw [if_neg (by intro h; cases e <;> first | (cases he; done) | cases h)] at this
    rcases h : s.live.step E cfg grow e with _ | l
    · rfl
    · rw [h] at this; cases this
  obtain ⟨hidle, hb⟩ := Live.C104_no_deadlock pre levs i.run hcr halive (fun m hm => h64 m (hsub.subset hm))
    (Nat.lt_of_le_of_lt hsub.length_le hcount) hstuck
  have hnot := hrest.1
  replace hnot : s.notice E cfg grow = none := hnot
  have hw : s.waits = true := (waits_iff s).mpr hidle
  have hn0 : s.notices = 0 := by
    unfold State.notice at hnot
    split at hnot
    · rename_i h
      rcases h with h | h
      · exact h
      · rw [hw] at h; cases h
    · exfalso
      split at hnot
      · cases hnot
      · rename_i frame rest _
        have : s.live.step E cfg grow (.report frame) ≠ none := by
          unfold Live.State.step
          rw [if_pos halive]
          dsimp only
          unfold Reports.State.step
          rw [if_neg (by rw [hcr]; decide)]
          simp
        rcases h : s.live.step E cfg grow (.report frame) with _ | l
        · exact this h
        · rw [h] at hnot; cases hnot
  refine ⟨hidle, hb, ?_, hn0⟩
  have := i.noticed (Nat.zero_le _)
  rw [hn0] at this
  exact List.length_eq_zero_iff.mp (by omega)

/-- Conversely, then nothing more happens by itself. -/
theorem C107_rest {s : State} (h : Idle s.live) (hb : ∀ t ∈ s.live.proc.threads, busy t = false) (hn : s.notices = 0) :
    AtRest E cfg grow s := by
  refine ⟨?_, ?_⟩
  · show s.notice E cfg grow = none
    unfold State.notice
    rw [if_pos (.inl hn)]
  · intro e h1 h2
    unfold State.step
    dsimp only
    split
    · rfl
    · rename_i hr
      rw [Live.C104_rest h hb e (by
        cases e with
        | report => exact absurd rfl hr
        | api op => exact absurd rfl (h1 op)
        | keepalive i => exact absurd rfl (h2 i)
        | _ => rfl)]
      rfl

/-- Everything the process sends arrives. -/
theorem input_eq {levs : List Live.Event} {l : Live.State} (hrun : (Live.State.start p0).run E cfg grow levs = some l)
    (hcr : l.hid.crashed = false) (h64 : ∀ m ∈ levs.filterMap reportOf, m.length ≤ 64)
    (hcount : (levs.filterMap reportOf).length < 4294967295) : l.hid.out.filterMap sendFrame = l.hid.out := by
  obtain ⟨_, _, _, _, _, inv, -⟩ := Live.live_run levs hrun hcr h64 hcount
  exact filterMap_id fun p hp => sendFrame_64 (packet_length inv p hp)

theorem paced_append {s s1 : State} {evs1 evs2 : List Event} (h : Paced E cfg grow s (evs1 ++ evs2))
    (h1 : s.run E cfg grow evs1 = some s1) : Paced E cfg grow s evs1 ∧ Paced E cfg grow s1 evs2 := by
  refine ⟨fun a b s2 m heq hr => h a (b ++ evs2) s2 m (by rw [heq]; simp) hr, fun a b s2 m heq hr => ?_⟩
  refine h (evs1 ++ a) b s2 m (by rw [heq]; simp) ?_
  rw [run_append, h1]
  exact hr

theorem onChannel_sub {cid : UInt32} {l l' : List Bytes} (h : l <+ l') (h' : onChannel cid l' = []) : onChannel cid l = [] := by
  have := h.filter (fun m => channelOf m == some cid)
  unfold onChannel at h' ⊢
  rw [h'] at this
  exact List.sublist_nil.mp this

/-- On a channel that was announced before the first report on it was sent, all requests of a host that keeps to the
CTAPHID specification, however they are split into reports and however fast the reports follow each other as long as the
driver has room for them, are given to the authenticator in the order in which they were sent; and when nothing more
happens by itself, the host has received exactly the results, in this order. -/
theorem C107_all_answered (pre : List Overlap.Event) (evs1 evs2 : List Event) {s1 s : State}
    (hrun1 : (State.start ((Overlap.boot E cfg).run E cfg pre)).run E cfg grow evs1 = some s1)
    (hrun : s1.run E cfg grow evs2 = some s)
    (hcr : s.live.hid.crashed = false) (halive : s.live.proc.alive = true)
    (h64 : ∀ m ∈ sent (evs1 ++ evs2), m.length ≤ 64) (hcount : (sent (evs1 ++ evs2)).length < 4294967295)
    (hpaced : Paced E cfg grow (.start ((Overlap.boot E cfg).run E cfg pre)) (evs1 ++ evs2)) (hrest : AtRest E cfg grow s)
    {cid : UInt32} (hcid : cid ≠ 0xFFFFFFFF)
    (hann : ∃ nonce : Bytes, nonce.length = 8 ∧ initAnswer nonce cid ∈ s1.input) (hnew : onChannel cid (sent evs1) = [])
    (qs : List Request) (hq : ∀ q ∈ qs, q.WellSent cid) (hin : onChannel cid (sent evs2) = qs.flatMap (·.packets)) :
    ∃ handled refused calls,
      Account (sent (evs1 ++ evs2)) s.input s.live.proc.threads handled refused [] calls ∧
      asked (callsOn cid calls) = wanted qs ∧ (∀ k ∈ calls, k.answer.isSome = true) ∧
      ((∀ k ∈ calls, ∀ a, k.answer = some a → a ≠ [] ∧ a.length ≤ 7609) →
        answers (onChannel cid s.input) = results (callsOn cid calls)) := by
  have hrun12 : (State.start ((Overlap.boot E cfg).run E cfg pre)).run E cfg grow (evs1 ++ evs2) = some s := by
    rw [run_append, hrun1]; exact hrun
  obtain ⟨hidle, -, hsaved, -⟩ := C107_at_rest pre _ hrun12 hcr halive h64 hcount hrest
  obtain ⟨hp1, hp2⟩ := paced_append hpaced hrun1
  obtain ⟨levs1, i1⟩ := inner evs1 hrun1
  obtain ⟨levs2, i2⟩ := inner evs2 hrun
  have e1 : levs1.filterMap reportOf ++ s1.saved = sent evs1 := i1.paced hp1
  have e2 : levs2.filterMap reportOf = s1.saved ++ sent evs2 := by
    have := i2.paced hp2
    rw [hsaved, List.append_nil] at this
    exact this
  have e : (levs1 ++ levs2).filterMap reportOf = sent (evs1 ++ evs2) := by
    rw [List.filterMap_append, e2, ← List.append_assoc, e1]
    simp [sent]
  have r12 : (Live.State.start ((Overlap.boot E cfg).run E cfg pre)).run E cfg grow (levs1 ++ levs2) = some s.live := by
    rw [Live.run_append, show (Live.State.start ((Overlap.boot E cfg).run E cfg pre)).run E cfg grow levs1 = _ from i1.run]
    exact i2.run
  have ser := i1.serial.append i1.run i2.serial
  have hcr1 : s1.live.hid.crashed = false := crashed_prefix i2.run hcr
  have hsub1 : levs1.filterMap reportOf <+ sent (evs1 ++ evs2) := by
    rw [← e, List.filterMap_append]; exact List.sublist_append_left _ _
  have hin1 : s1.input = s1.live.hid.out := input_eq i1.run hcr1 (fun m hm => h64 m (hsub1.subset hm))
    (Nat.lt_of_le_of_lt hsub1.length_le hcount)
  have hinp : s.input = s.live.hid.out := input_eq r12 hcr (by rw [e]; exact h64) (by rw [e]; exact hcount)
  rw [hin1] at hann
  have hn1 : onChannel cid (levs1.filterMap reportOf) = [] :=
    onChannel_sub (by rw [← e1]; exact List.sublist_append_left _ _) hnew
  have hn2 : onChannel cid s1.saved = [] :=
    onChannel_sub (by rw [← e1]; exact List.sublist_append_right _ _) hnew
  have := Live.C103_in_order levs1 levs2 i1.run r12 hcr (by rw [e]; exact h64) (by rw [e]; exact hcount) hidle hcid hann hn1
    (fun a b l m heq hr _ r hm _ => (Serial.at (by rw [← heq]; exact ser) hr) r hm) qs hq
    (by rw [e2, Live.onChannel_append, hn2, List.nil_append]; exact hin)
  rw [e, ← hinp] at this
  exact this

/-! ## C108: requests do not overlap on macOS -/

/-- What happens inside a process that is given reports one at a time, each when those before it are done with, and where
the embedding program does not call the API: the authenticator is the sequential device. -/
theorem sequential_of_serial_all (pre : List Overlap.Event) (hpre : OneAtATime E cfg (Overlap.boot E cfg) pre)
    (hfree : ∀ t ∈ ((Overlap.boot E cfg).run E cfg pre).threads, busy t = false)
    (levs : List Live.Event) {s : Live.State}
    (hrun : (Live.State.start ((Overlap.boot E cfg).run E cfg pre)).run E cfg grow levs = some s)
    (hser : Serial E cfg grow (.start ((Overlap.boot E cfg).run E cfg pre)) levs) (hapi : ∀ op, Live.Event.api op ∉ levs)
    (hcr : s.hid.crashed = false) (h64 : ∀ m ∈ levs.filterMap reportOf, m.length ≤ 64)
    (hcount : (levs.filterMap reportOf).length < 4294967295) (hidle : Idle s) :
    ∃ handled refused calls,
      Account (levs.filterMap reportOf) s.hid.out s.proc.threads handled refused [] calls ∧
      Live.NotRefused E cfg grow ((Overlap.boot E cfg).run E cfg pre) levs refused ∧
      Live.OrderKept E cfg grow ((Overlap.boot E cfg).run E cfg pre) levs handled refused ∧
      (calls.map (·.report)).Pairwise (· < ·) ∧
      (∀ k ∈ calls, k.answer.isSome = true) ∧
      ((∀ k ∈ calls, ∀ a, k.answer = some a → a ≠ [] ∧ a.length ≤ 7609) →
        ∀ cid, answers (onChannel cid s.hid.out) = results (callsOn cid calls)) ∧
      sequential s.proc.mem = (Device.after E cfg (Device.boot E cfg)
        (operations pre ++ calls.map fun k => opFor k.command k.payload)).world ∧
      s.proc.alive = (Device.after E cfg (Device.boot E cfg)
        (operations pre ++ calls.map fun k => opFor k.command k.payload)).alive ∧
      Spec.Overlap.results ((Overlap.boot E cfg).run E cfg pre) ++
          calls.map (fun k => (opFor k.command k.payload, .answer (k.answer.getD []))) =
        (Spec.History.events E cfg (Device.boot E cfg)
          (operations pre ++ calls.map fun k => opFor k.command k.payload)).filter isResult ∧
      Spec.Overlap.results s.proc = Spec.Overlap.results ((Overlap.boot E cfg).run E cfg pre) ++
        calls.map (fun k => (opFor k.command k.payload, .answer (k.answer.getD []))) := by
  obtain ⟨handled, refused, pending, calls, acc, hnot, hord, only, ranked, hid⟩ := Live.C103_account levs hrun hcr h64 hcount
  obtain ⟨rfl, hans, hres⟩ := hid hidle
  obtain ⟨oevs, l⟩ := lone_run levs (lone_start hfree) hrun hcr hser hapi
  have hb : ∀ t ∈ s.proc.threads, busy t = false := by
    intro t ht
    obtain ⟨k, hk⟩ := List.mem_iff_getElem?.mp ht
    rcases h : busy t with _ | _
    · rfl
    · obtain ⟨i', r, p, cid, cmd, payload, h1, h2⟩ := l.working k t hk h
      rw [hidle r (List.mem_of_getElem? h1)] at h2; cases h2
  have hnr : ∀ e ∈ oevs, e ≠ .restart := fun e he h => (l.requests .restart (by
    subst h; exact Overlap.restart_operations oevs he)).2 rfl
  have hnum : calls.map (·.number) = List.range' ((Overlap.boot E cfg).run E cfg pre).threads.length
      (s.proc.threads.length - ((Overlap.boot E cfg).run E cfg pre).threads.length) := by
    refine eq_of_increasing acc.ownOperation (List.pairwise_lt_range' 1) (fun n => ?_)
    rw [List.mem_range'_1]
    constructor
    · intro hn
      obtain ⟨c, hc, rfl⟩ := List.mem_map.mp hn
      obtain ⟨t, ht, -⟩ := acc.operation c hc
      have h1 := (List.getElem?_eq_some_iff.mp ht).1
      have h2 := only.1 c hc
      omega
    · rintro ⟨h1, h2⟩
      have hlt : n < s.proc.threads.length := by omega
      have ht := List.getElem?_eq_getElem hlt
      have hop : Spec.Overlap.opOf s.proc.threads[n] ∈ operations oevs := by
        have h3 := congrArg (·[n]?) l.ops
        simp only [List.getElem?_map] at h3
        rw [ht, List.getElem?_append_right (by simpa using h1)] at h3
        exact List.mem_of_getElem? h3.symm
      obtain ⟨h4, h5⟩ := l.requests _ hop
      obtain ⟨message, h6⟩ : ∃ message, Spec.Overlap.opOf s.proc.threads[n] = .ctap message ∨
          Spec.Overlap.opOf s.proc.threads[n] = .u2f message := by
        revert h4 h5
        cases Spec.Overlap.opOf s.proc.threads[n] with
        | ctap m => exact fun _ _ => ⟨m, .inl rfl⟩
        | u2f m => exact fun _ _ => ⟨m, .inr rfl⟩
        | restart => exact fun _ h => absurd rfl h
        | _ => exact fun h => by cases h
      obtain ⟨c, hc, h7⟩ := only.2 n _ message h1 ht h6
      exact List.mem_map.mpr ⟨c, hc, h7⟩
  have hthreads : s.proc.threads = ((Overlap.boot E cfg).run E cfg pre).threads ++
      calls.map fun k => Overlap.Thread.ready (opFor k.command k.payload) (.answer (k.answer.getD [])) := by
    have hge : ((Overlap.boot E cfg).run E cfg pre).threads.length ≤ s.proc.threads.length := by
      have := congrArg List.length l.ops
      simp at this
      omega
    have hcl : calls.length = s.proc.threads.length - ((Overlap.boot E cfg).run E cfg pre).threads.length := by
      have := congrArg List.length hnum
      simpa using this
    apply List.ext_getElem?
    intro n
    by_cases hn : n < ((Overlap.boot E cfg).run E cfg pre).threads.length
    · rw [List.getElem?_append_left hn, List.getElem?_eq_getElem hn, l.run]
      exact Overlap.run_fixed oevs hnr (List.getElem?_eq_getElem hn) (hfree _ (List.getElem_mem hn))
    · rw [List.getElem?_append_right (by omega), List.getElem?_map]
      by_cases hn2 : n < s.proc.threads.length
      · have hk : n - ((Overlap.boot E cfg).run E cfg pre).threads.length < calls.length := by omega
        rw [List.getElem?_eq_getElem hk]
        have hnk := congrArg (·[n - ((Overlap.boot E cfg).run E cfg pre).threads.length]?) hnum
        simp only [List.getElem?_map] at hnk
        rw [List.getElem?_eq_getElem hk, List.getElem?_range' (by omega)] at hnk
        replace hnk := Option.some.inj hnk
        dsimp only at hnk
        have hmem := List.getElem_mem hk
        generalize calls[n - ((Overlap.boot E cfg).run E cfg pre).threads.length] = c at hnk hmem
        obtain ⟨a, ha⟩ := Option.isSome_iff_exists.mp (hans c hmem)
        have := acc.ownResult c hmem a ha
        rw [hnk] at this
        rw [Option.map_some, ha]
        rw [show ((Overlap.boot E cfg).run E cfg pre).threads.length + 1 *
          (n - ((Overlap.boot E cfg).run E cfg pre).threads.length) = n by omega] at this
        exact this
      · rw [List.getElem?_eq_none (by omega), List.getElem?_eq_none (by omega)]
        rfl
  have hops : operations oevs = calls.map fun k => opFor k.command k.payload := by
    have h := l.ops
    rw [hthreads, List.map_append, List.map_map] at h
    exact (List.append_cancel_left h).symm
  have hrun2 : s.proc = (Overlap.boot E cfg).run E cfg (pre ++ oevs) := by
    rw [Overlap.run_append]; exact l.run
  have h93 := Props.C93_sequential (pre ++ oevs) (Overlap.one_append pre oevs _ hpre l.one) (by rw [← hrun2]; exact hb)
  rw [← hrun2, Overlap.operations_append, hops] at h93
  obtain ⟨g1, g2, g3⟩ := h93
  refine ⟨handled, refused, calls, acc, hnot, hord, ranked fun a b s1 m heq hr => Serial.at (by rw [← heq]; exact hser) hr, hans,
    hres, g1, g2, ?_⟩
  rw [← g3]
  suffices h : Spec.Overlap.results s.proc = Spec.Overlap.results ((Overlap.boot E cfg).run E cfg pre) ++
      calls.map (fun k => (opFor k.command k.payload, .answer (k.answer.getD []))) from ⟨h.symm, h⟩
  unfold Spec.Overlap.results
  rw [hthreads, List.filterMap_append, List.filterMap_map]
  congr 1
  rw [← List.filterMap_eq_map]
  rfl

theorem sequential_of_serial (pre : List Overlap.Event) (hpre : OneAtATime E cfg (Overlap.boot E cfg) pre)
    (hfree : ∀ t ∈ ((Overlap.boot E cfg).run E cfg pre).threads, busy t = false)
    (levs : List Live.Event) {s : Live.State}
    (hrun : (Live.State.start ((Overlap.boot E cfg).run E cfg pre)).run E cfg grow levs = some s)
    (hser : Serial E cfg grow (.start ((Overlap.boot E cfg).run E cfg pre)) levs) (hapi : ∀ op, Live.Event.api op ∉ levs)
    (hcr : s.hid.crashed = false) (h64 : ∀ m ∈ levs.filterMap reportOf, m.length ≤ 64)
    (hcount : (levs.filterMap reportOf).length < 4294967295) (hidle : Idle s) :
    ∃ handled refused calls,
      Account (levs.filterMap reportOf) s.hid.out s.proc.threads handled refused [] calls ∧
      Live.NotRefused E cfg grow ((Overlap.boot E cfg).run E cfg pre) levs refused ∧
      Live.OrderKept E cfg grow ((Overlap.boot E cfg).run E cfg pre) levs handled refused ∧
      (calls.map (·.report)).Pairwise (· < ·) ∧
      (∀ k ∈ calls, k.answer.isSome = true) ∧
      ((∀ k ∈ calls, ∀ a, k.answer = some a → a ≠ [] ∧ a.length ≤ 7609) →
        ∀ cid, answers (onChannel cid s.hid.out) = results (callsOn cid calls)) ∧
      sequential s.proc.mem = (Device.after E cfg (Device.boot E cfg)
        (operations pre ++ calls.map fun k => opFor k.command k.payload)).world ∧
      s.proc.alive = (Device.after E cfg (Device.boot E cfg)
        (operations pre ++ calls.map fun k => opFor k.command k.payload)).alive ∧
      Spec.Overlap.results ((Overlap.boot E cfg).run E cfg pre) ++
          calls.map (fun k => (opFor k.command k.payload, .answer (k.answer.getD []))) =
        (Spec.History.events E cfg (Device.boot E cfg)
          (operations pre ++ calls.map fun k => opFor k.command k.payload)).filter isResult := by
  obtain ⟨handled, refused, calls, h1, h2, h3, h4, h5, h6, h7, h8, h9, -⟩ :=
    sequential_of_serial_all pre hpre hfree levs hrun hser hapi hcr h64 hcount hidle
  exact ⟨handled, refused, calls, h1, h2, h3, h4, h5, h6, h7, h8, h9⟩

/-- Where the embedding program does not call the API meanwhile, the authenticator on macOS is the sequential device:
when all reports the process was given are done with, its state is the one after all requests, in the order in which the
reports that completed them were sent, one after the other, and their answers, the ones hosts receive, are the
answers of the sequential device. -/
theorem C108_sequential (pre : List Overlap.Event) (hpre : OneAtATime E cfg (Overlap.boot E cfg) pre)
    (hfree : ∀ t ∈ ((Overlap.boot E cfg).run E cfg pre).threads, busy t = false)
    (evs : List Event) {s : State} (hrun : (State.start ((Overlap.boot E cfg).run E cfg pre)).run E cfg grow evs = some s)
    (hapi : NoApi evs) (hcr : s.live.hid.crashed = false) (h64 : ∀ m ∈ sent evs, m.length ≤ 64)
    (hcount : (sent evs).length < 4294967295) (hidle : Idle s.live) :
    ∃ handled refused calls,
      Account (given s) s.input s.live.proc.threads handled refused [] calls ∧
      (calls.map (·.report)).Pairwise (· < ·) ∧
      (∀ k ∈ calls, k.answer.isSome = true) ∧
      ((∀ k ∈ calls, ∀ a, k.answer = some a → a ≠ [] ∧ a.length ≤ 7609) →
        ∀ cid, answers (onChannel cid s.input) = results (callsOn cid calls)) ∧
      sequential s.live.proc.mem = (Device.after E cfg (Device.boot E cfg)
        (operations pre ++ calls.map fun k => opFor k.command k.payload)).world ∧
      s.live.proc.alive = (Device.after E cfg (Device.boot E cfg)
        (operations pre ++ calls.map fun k => opFor k.command k.payload)).alive ∧
      Spec.Overlap.results ((Overlap.boot E cfg).run E cfg pre) ++
          calls.map (fun k => (opFor k.command k.payload, .answer (k.answer.getD []))) =
        (Spec.History.events E cfg (Device.boot E cfg)
          (operations pre ++ calls.map fun k => opFor k.command k.payload)).filter isResult := by
  obtain ⟨levs, i⟩ := inner evs hrun
  have hsub : levs.filterMap reportOf <+ sent evs := (List.sublist_append_left _ _).trans i.order
  have h64' : ∀ m ∈ levs.filterMap reportOf, m.length ≤ 64 := fun m hm => h64 m (hsub.subset hm)
  have hcount' : (levs.filterMap reportOf).length < 4294967295 := Nat.lt_of_le_of_lt hsub.length_le hcount
  have hinp : s.input = s.live.hid.out := input_eq i.run hcr h64' hcount'
  rw [given_eq i.run, hinp]
  obtain ⟨handled, refused, calls, acc, -, -, h⟩ := sequential_of_serial pre hpre hfree levs i.run i.serial
    (fun op hm => hapi op (i.api op hm)) hcr h64' hcount' hidle
  exact ⟨handled, refused, calls, acc, h⟩

/-! ## An example

A host gets a channel and sends a GetInfo request of two reports, and a U2F version request, without waiting. -/

namespace Example

open Live.Example (grow0 initReport)

def infoPayload : Bytes := 4 :: List.replicate 60 0
def infoPackets : List Bytes := hostPackets 1 0x90 infoPayload (List.replicate 55 0)
def versionPackets : List Bytes := hostPackets 1 0x83 [0, 3, 0, 0, 0, 0, 0] (List.replicate 50 0)
def requests : List Request := [⟨0x90, infoPayload, infoPackets⟩, ⟨0x83, [0, 3, 0, 0, 0, 0, 0], versionPackets⟩]

def steps (i n : Nat) : List Event := List.replicate n (.inside (.step i))

def hello : List Event := [.setReport initReport, .notice] ++ steps 0 6

def work : List Event :=
  (infoPackets ++ versionPackets).map .setReport ++
  [.notice] ++ steps 1 3 ++ [.notice] ++ steps 2 3 ++ [.inside (.keepalive 2), .inside (.work 0), .inside (.return 2)] ++ steps 2 3 ++
  [.notice] ++ steps 3 3 ++ [.inside (.return 3)] ++ steps 3 3

noncomputable def boot : State := .start (Overlap.boot (Toy.toy Toy.agree) (Toy.config false))

noncomputable def at' (evs : List Event) : Option State := boot.run (Toy.toy Toy.agree) (Toy.config false) grow0 evs

theorem summary : (at' (hello ++ work)).map (fun s =>
    ((Live.Example.ended s.live, s.live.hid.crashed, s.live.proc.alive),
      (s.saved.length, s.notices, (given s).length, s.live.proc.threads.all fun t => !busy t))) =
      some ((true, false, true), (0, 0, 4, true)) := by decide +kernel

theorem paced_of_few {evs : List Event} (h : (sent evs).length ≤ 17) : Paced E cfg grow (.start p0) evs := by
  intro evs1 evs2 s1 m heq hr
  obtain ⟨h1, -⟩ := C107_reports_in_order evs1 hr
  have h2 := h1.length_le
  rw [heq] at h
  simp [sent, sentOf] at h h2
  omega

/-- The hypotheses of C107 and C108 hold: four reports, three of them of requests on channel 1. -/
example : ∃ s1 s, at' hello = some s1 ∧ s1.run (Toy.toy Toy.agree) (Toy.config false) grow0 work = some s ∧
    s.live.hid.crashed = false ∧ s.live.proc.alive = true ∧ (∀ m ∈ sent (hello ++ work), m.length ≤ 64) ∧
    Paced (Toy.toy Toy.agree) (Toy.config false) grow0 boot (hello ++ work) ∧ NoApi (hello ++ work) ∧
    AtRest (Toy.toy Toy.agree) (Toy.config false) grow0 s ∧
    (∃ nonce : Bytes, nonce.length = 8 ∧ initAnswer nonce 1 ∈ s1.input) ∧
    onChannel 1 (sent hello) = [] ∧ (∀ q ∈ requests, q.WellSent 1) ∧
    onChannel 1 (sent work) = requests.flatMap (·.packets) := by
  have h1 : (at' hello).map (fun s => s.input.elem (initAnswer [1, 2, 3, 4, 5, 6, 7, 8] 1)) = some true := by decide +kernel
  obtain ⟨s1, hs1, h1⟩ := Option.map_eq_some_iff.mp h1
  obtain ⟨s, hs, h⟩ := Option.map_eq_some_iff.mp summary
  simp only [Prod.mk.injEq] at h
  obtain ⟨⟨g1, g2, g3⟩, -, g4, -, g5⟩ := h
  refine ⟨s1, s, hs1, ?_, g2, g3, by decide +kernel, paced_of_few (by decide +kernel), ?_,
    C107_rest (Live.Example.ended_idle g1) ?_ g4, ⟨[1, 2, 3, 4, 5, 6, 7, 8], rfl, List.elem_iff.mp h1⟩, by decide +kernel, ?_,
    by decide +kernel⟩
  · have e : at' (hello ++ work) = (at' hello).bind fun s' => s'.run (Toy.toy Toy.agree) (Toy.config false) grow0 work :=
      run_append hello work boot
    rw [hs1, Option.bind_some] at e
    rw [← e]
    exact hs
  · intro op h
    have : ∀ e ∈ hello ++ work, (match e with | .inside (.api _) => false | _ => true) = true := by decide +kernel
    have := this _ h
    cases this
  · intro t ht
    have := List.all_eq_true.mp g5 t ht
    simpa using this
  · intro q hq
    simp only [requests, List.mem_cons, List.not_mem_nil, or_false] at hq
    rcases hq with rfl | rfl
    · exact ⟨by unfold Begins; decide, 4 :: List.replicate 56 0, [List.replicate 59 0], by decide +kernel, by decide, by decide,
        by decide +kernel, by decide, by decide⟩
    · exact ⟨by unfold Begins; decide, [0, 3, 0, 0, 0, 0, 0] ++ List.replicate 50 0, [], by decide +kernel, by decide, by decide,
        by decide, by decide, by simp⟩

/-- Inside the process, reports come in one by one, as C103_in_order asks for. -/
example : ∃ levs s, (Live.State.start (Overlap.boot (Toy.toy Toy.agree) (Toy.config false))).run
      (Toy.toy Toy.agree) (Toy.config false) grow0 levs = some s ∧ Idle s ∧
    Live.OneByOne (Toy.toy Toy.agree) (Toy.config false) grow0 (Overlap.boot (Toy.toy Toy.agree) (Toy.config false)) levs 1 ∧
    onChannel 1 (levs.filterMap reportOf) = requests.flatMap (·.packets) := by
  obtain ⟨s, hs, h⟩ := Option.map_eq_some_iff.mp summary
  simp only [Prod.mk.injEq] at h
  obtain ⟨⟨g1, -⟩, g2, -⟩ := h
  obtain ⟨levs, i⟩ := inner (hello ++ work) (s := boot) hs
  have e : levs.filterMap reportOf = sent (hello ++ work) := by
    have := i.paced (paced_of_few (by decide +kernel))
    rw [List.length_eq_zero_iff.mp g2, List.append_nil] at this
    exact this
  refine ⟨levs, s.live, i.run, Live.Example.ended_idle g1,
    fun a b l m heq hr _ r hm _ => (Serial.at (by rw [← heq]; exact i.serial) hr) r hm, ?_⟩
  rw [e]
  decide +kernel

/-- What the host receives. -/
example : (at' (hello ++ work)).map (fun s =>
    (((answers (onChannel 1 s.input)).map (·.1), ((answers (onChannel 1 s.input)).map (·.2))[1]?))) =
      some ([0x90, 0x83], some [0x55, 0x32, 0x46, 0x5F, 0x56, 0x32, 0x90, 0x00]) := by decide +kernel

/-- Before the device was started nothing was at work. -/
example : OneAtATime (Toy.toy Toy.agree) (Toy.config false) (Overlap.boot (Toy.toy Toy.agree) (Toy.config false)) [] ∧
    ∀ t ∈ ((Overlap.boot (Toy.toy Toy.agree) (Toy.config false)).run (Toy.toy Toy.agree) (Toy.config false) []).threads,
      busy t = false := ⟨trivial, fun t h => by cases h⟩

/-- The hypotheses of C107_one_at_a_time: a report is being dealt with. -/
example : (at' (hello ++ work.take 5)).map (fun s =>
    (s.live.hid.crashed, s.live.hid.routines.length, (s.live.hid.routines[1]?).map (·.phase.taken), s.saved.length)) =
      some (false, 2, some false, 2) := by decide +kernel

end Example

end VF.Mac
