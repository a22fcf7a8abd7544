import Verif.Spec.Live
import Verif.Proofs.LiveConsent
import Verif.Proofs.LiveEnds
import Verif.Proofs.LiveTold
import Verif.Proofs.Heard
import Verif.Props.Overlap
import Verif.Proofs.OverlapToy

/-!
# Properties C103–C106: the device at work

Reports are handled by goroutines that interleave in any order, and so do the operations of the
authenticator they call.
-/

namespace VF.Live

open Fido Spec.Calls Hid Spec.Service Spec.Live Spec.Ctaphid
open Spec.Stack (onChannel)
open Spec.Overlap (opOf Finished Faithful)
open Spec.Approval (claims agreed)

variable {E : Env} {cfg : Client.Config} {grow : Nat → Nat → Nat} {p0 : Overlap.Process}

/-- All goroutines that handle reports have ended. -/
def Idle (s : State) : Prop := ∀ r ∈ s.hid.routines, r.phase = .done

theorem operation_eq (cmd : UInt8) (payload : Bytes) : operation cmd payload = opFor cmd payload := rfl

theorem proj_eq (cid : UInt32) (l : List Bytes) : proj cid l = onChannel cid l := by
  unfold proj onChannel
  apply List.filter_congr
  intro m _
  rw [Bool.eq_iff_iff]
  simp

/-! ## C103: every channel gets its own answers, however goroutines interleave -/

/-- A channel is announced: the host has been sent an answer to its INIT that names it. -/
def Announced (s : State) (cid : UInt32) : Prop := ∃ nonce : Bytes, nonce.length = 8 ∧ initAnswer nonce cid ∈ s.hid.out

/-- No report is refused on the broadcast channel, nor on a channel whose first report came after it was announced. -/
def NotRefused (E : Env) (cfg : Client.Config) (grow : Nat → Nat → Nat) (p0 : Overlap.Process) (evs : List Event)
    (refused : List Bytes) : Prop :=
  onChannel 0xFFFFFFFF refused = [] ∧
  ∀ evs1 evs2 s1 cid, evs = evs1 ++ evs2 → (State.start p0).run E cfg grow evs1 = some s1 → Announced s1 cid →
    onChannel cid (evs1.filterMap reportOf) = [] → onChannel cid refused = []

/-- Every report on the channel comes in when the goroutines of those before it on the channel have ended. -/
def OneByOne (E : Env) (cfg : Client.Config) (grow : Nat → Nat → Nat) (p0 : Overlap.Process) (evs : List Event)
    (cid : UInt32) : Prop :=
  ∀ evs1 evs2 s1 m, evs = evs1 ++ .report m :: evs2 → (State.start p0).run E cfg grow evs1 = some s1 →
    channelOf m = some cid → ∀ r ∈ s1.hid.routines, channelOf r.report = some cid → r.phase = .done

/-- Reports on such a channel are dealt with in the order in which they come in. -/
def OrderKept (E : Env) (cfg : Client.Config) (grow : Nat → Nat → Nat) (p0 : Overlap.Process) (evs : List Event)
    (handled refused : List Bytes) : Prop :=
  ∀ cid, OneByOne E cfg grow p0 evs cid → (onChannel cid handled).Sublist (onChannel cid (evs.filterMap reportOf)) ∧
    (onChannel cid refused).Sublist (onChannel cid (evs.filterMap reportOf))

/-- The calls are the requests the authenticator has been given since the device was started, and no others. -/
def NothingElse (p0 : Overlap.Process) (s : State) (calls : List Call) : Prop :=
  (∀ c ∈ calls, p0.threads.length ≤ c.number) ∧
  ∀ (k : Nat) (t : Overlap.Thread) (message : Bytes), p0.threads.length ≤ k → s.proc.threads[k]? = some t →
    opOf t = .ctap message ∨ opOf t = .u2f message → ∃ c ∈ calls, c.number = k

/-- If every report comes in when the goroutines of all those before it have ended, requests are given to the authenticator
in the order in which the reports that completed them came in. -/
def Ordered (E : Env) (cfg : Client.Config) (grow : Nat → Nat → Nat) (p0 : Overlap.Process) (evs : List Event)
    (calls : List Call) : Prop :=
  (∀ evs1 evs2 s1 m, evs = evs1 ++ .report m :: evs2 → (State.start p0).run E cfg grow evs1 = some s1 → Idle s1) →
    (calls.map (·.report)).Pairwise (· < ·)

theorem onChannel_nil {cid : UInt32} {l : List Bytes} : onChannel cid l = [] ↔ ∀ m ∈ l, channelOf m ≠ some cid := by
  unfold onChannel
  rw [List.filter_eq_nil_iff]
  simp

/-- In whatever order the goroutines that handle reports, the operations of the authenticator and the calls of the
embedding program take their steps, there is an account of all reports that came in.  When all goroutines have
ended, all reports have been dealt with, all requests have answers, and all answers have been sent. -/
theorem C103_account (evs : List Event) {s : State} (hrun : (State.start p0).run E cfg grow evs = some s)
    (hcr : s.hid.crashed = false) (h64 : ∀ m ∈ evs.filterMap reportOf, m.length ≤ 64)
    (hcount : (evs.filterMap reportOf).length < 4294967295) :
    ∃ handled refused pending calls,
      Account (evs.filterMap reportOf) s.hid.out s.proc.threads handled refused pending calls ∧
      NotRefused E cfg grow p0 evs refused ∧ OrderKept E cfg grow p0 evs handled refused ∧
      NothingElse p0 s calls ∧ Ordered E cfg grow p0 evs calls ∧
      (Idle s → pending = [] ∧ (∀ k ∈ calls, k.answer.isSome = true) ∧
        ((∀ k ∈ calls, ∀ a, k.answer = some a → a ≠ [] ∧ a.length ≤ 7609) →
          ∀ cid, answers (onChannel cid s.hid.out) = results (callsOn cid calls))) := by
  obtain ⟨handled, refused, calls, sent, oevs, inv, tied, wel, ord, only, rank⟩ := live_run evs hrun hcr h64 hcount
  refine ⟨handled, refused, (s.hid.routines.filter fun r => !r.phase.taken).map (·.report), calls, ?_, ?_, ?_, ?_, ?_, ?_⟩
  · refine ⟨?_, tied.reportsNodup, tied.origin, tied.numbers, ?_, ?_, ?_, ?_, ?_⟩
    · rw [← tied.arrived]
      refine (inv.taken.append_right _).trans ?_
      rw [← List.map_append]
      exact (List.filter_append_perm _ _).map _
    · intro k hk
      obtain ⟨-, t, h1, h2, -⟩ := tied.thread k hk
      exact ⟨t, h1, h2⟩
    · intro k hk a ha
      obtain ⟨-, t, h1, -, h3⟩ := tied.thread k hk
      rw [h1, h3 a ha]
      rfl
    · intro cid
      obtain ⟨all, window, h1, h2⟩ := (inv.channel cid).1
      rw [proj_eq] at h1
      exact ⟨all, window, h1, h2⟩
    · intro cid
      exact (inv.channel cid).2.1
    · intro hok cid
      exact (inv.visible hok cid).1.trans (inv.channel cid).2.2.1
  · refine ⟨?_, ?_⟩
    · rw [onChannel_nil]
      exact wel [] evs (.start p0) _ rfl rfl (by show Reports.State.new.table 0xFFFFFFFF ≠ none; decide) (fun m hm => by cases hm)
    · rintro evs1 evs2 s1 cid rfl h1 ⟨nonce, hn, ha⟩ h2
      rw [onChannel_nil] at h2 ⊢
      refine wel evs1 evs2 s1 cid rfl h1 ?_ h2
      have h3 : s1.hid.crashed = false := by
        rw [run_append, h1] at hrun
        replace hrun : s1.run E cfg grow evs2 = some s := hrun
        cases evs2 with
        | nil => cases hrun; exact hcr
        | cons e evs2 =>
          obtain ⟨s2, h3, -⟩ := Option.bind_eq_some_iff.mp hrun
          exact (step_crashed h3).1
      rw [List.filterMap_append] at h64 hcount
      rw [List.length_append] at hcount
      exact (told_run evs1 h1 h3 (fun m hm => h64 m (List.mem_append_left _ hm)) (by omega)).1 _ ha nonce cid hn rfl
  · intro cid hcid
    have := ord cid (fun evs1 evs2 s1 m h1 h2 h3 r hr h4 => by rw [hcid evs1 evs2 s1 m h1 h2 h3 r hr h4]; rfl)
    rw [proj_eq, proj_eq, proj_eq] at this
    exact this
  · refine ⟨fun c hc => (tied.thread c hc).1, ?_⟩
    intro k t message hk ht hop
    obtain ⟨c, hc, h⟩ := List.mem_map.mp (only k t hk ht (by rcases hop with h | h <;> rw [h] <;> rfl))
    exact ⟨c, hc, h⟩
  · intro h
    refine rank fun evs1 evs2 s1 m h1 h2 r hr => ?_
    rw [h evs1 evs2 s1 m h1 h2 r hr]; rfl
  · intro hidle
    refine ⟨?_, ?_, ?_⟩
    · rw [List.map_eq_nil_iff, List.filter_eq_nil_iff]
      intro r hr
      rw [hidle r hr]
      simp [Reports.Phase.taken]
    · intro k hk
      have := ((inv.channel k.channel).2.2.2 hidle).2
      exact this k (List.mem_filter.mpr ⟨hk, by simp⟩)
    · intro hok cid
      have hresp : s.hid.responses = none := by
        rcases h : s.hid.responses with _ | i
        · rfl
        · obtain ⟨r, q, xs, h1, h2⟩ := (inv.resp i).mp h
          rw [hidle r (List.mem_of_getElem? h1)] at h2
          cases h2
      rw [(inv.visible hok cid).2 hresp]
      exact ((inv.channel cid).2.2.2 hidle).1

/-- The requests of an account are determined by the reports dealt with: no other reading of them is possible. -/
theorem C103_requests_determined {cid : UInt32} {reports : List Bytes} {all all' : List (UInt8 × Bytes)}
    {window window' : List Bytes} (h : Heard cid reports all window) (h' : Heard cid reports all' window') :
    all = all' ∧ window = window' := h.unique h'

/-- All requests sent by a host that keeps to the CTAPHID specification are given to the authenticator, in this order,
if their reports are dealt with in the order in which they were sent. -/
theorem C103_all_heard {reports out : List Bytes} {threads : List Overlap.Thread} {handled refused pending : List Bytes}
    {calls : List Call} (acc : Account reports out threads handled refused pending calls) {cid : UInt32}
    (hcid : cid ≠ 0xFFFFFFFF) (qs : List Request) (hq : ∀ q ∈ qs, q.WellSent cid)
    (hin : onChannel cid handled = qs.flatMap (·.packets)) : asked (callsOn cid calls) = wanted qs := by
  obtain ⟨all, window, h1, h2⟩ := acc.requests cid
  rw [if_neg hcid] at h2
  have key : ∀ qs : List Request, (∀ q ∈ qs, q.WellSent cid) →
      Heard cid (qs.flatMap (·.packets)) (qs.map fun q => (q.command, q.payload)) [] := by
    intro qs
    induction qs using Props.snoc_induction with
    | h0 => intro _; exact .nil
    | h1 qs q ih =>
      intro h
      rw [List.flatMap_append, List.map_append]
      have hq := h q (by simp)
      have := (ih fun q' h' => h q' (by simp [h'])).fragments hq.1 hq.2
      simpa using this
  have h3 := key qs hq
  rw [← hin] at h3
  obtain ⟨rfl, -⟩ := h1.unique h3
  exact h2

theorem perm_map {α β : Type} {f : α → β} {l l' : List β} (h : l.Perm l') :
    ∀ xs : List α, l = xs.map f → ∃ ys, l' = ys.map f ∧ xs.Perm ys := by
  induction h with
  | nil => intro xs h; exact ⟨xs, h, .refl _⟩
  | cons x _ ih =>
    intro xs h
    cases xs with
    | nil => cases h
    | cons y xs =>
      obtain ⟨h1, h2⟩ := List.cons.inj h
      obtain ⟨ys, h3, h4⟩ := ih xs h2
      exact ⟨y :: ys, by rw [h1, h3]; rfl, h4.cons y⟩
  | swap x y l =>
    intro xs h
    match xs, h with
    | a :: b :: xs, h =>
      obtain ⟨h1, h⟩ := List.cons.inj h
      obtain ⟨h2, h3⟩ := List.cons.inj h
      exact ⟨b :: a :: xs, by rw [h1, h2, h3]; rfl, .swap b a xs⟩
  | trans _ _ ih1 ih2 =>
    intro xs h
    obtain ⟨ys, h1, h2⟩ := ih1 xs h
    obtain ⟨zs, h3, h4⟩ := ih2 ys h1
    exact ⟨zs, h3, h2.trans h4⟩

/-- If the requests on a channel fit in a report each, and none was sent before the channel was announced, then, in
whatever order everything took place, when nothing is going on any more each of them has been given to the authenticator
exactly once, and the host has been sent exactly the results, in the order in which they were given. -/
theorem C103_each_answered_once (evs1 evs2 : List Event) {s1 s : State} (hrun1 : (State.start p0).run E cfg grow evs1 = some s1)
    (hrun : (State.start p0).run E cfg grow (evs1 ++ evs2) = some s)
    (hcr : s.hid.crashed = false) (h64 : ∀ m ∈ (evs1 ++ evs2).filterMap reportOf, m.length ≤ 64)
    (hcount : ((evs1 ++ evs2).filterMap reportOf).length < 4294967295) (hidle : Idle s)
    {cid : UInt32} (hcid : cid ≠ 0xFFFFFFFF) (hann : Announced s1 cid) (hnew : onChannel cid (evs1.filterMap reportOf) = [])
    (qs : List Request) (hq : ∀ q ∈ qs, q.WellSent cid) (h1 : ∀ q ∈ qs, q.packets.length = 1)
    (hin : onChannel cid (evs2.filterMap reportOf) = qs.flatMap (·.packets)) :
    ∃ handled refused calls,
      Account ((evs1 ++ evs2).filterMap reportOf) s.hid.out s.proc.threads handled refused [] calls ∧
      (asked (callsOn cid calls)).Perm (wanted qs) ∧ (∀ k ∈ calls, k.answer.isSome = true) ∧
      ((∀ k ∈ calls, ∀ a, k.answer = some a → a ≠ [] ∧ a.length ≤ 7609) →
        answers (onChannel cid s.hid.out) = results (callsOn cid calls)) := by
  obtain ⟨handled, refused, pending, calls, acc, hnot, -, -, -, hid⟩ := C103_account _ hrun hcr h64 hcount
  obtain ⟨rfl, h2, h3⟩ := hid hidle
  refine ⟨handled, refused, calls, acc, ?_, h2, fun h => h3 h cid⟩
  have href : onChannel cid refused = [] := hnot.2 evs1 evs2 s1 cid rfl hrun1 hann hnew
  have hone : ∀ qs : List Request, (∀ q ∈ qs, q.packets.length = 1) →
      qs.flatMap (·.packets) = qs.map fun q => q.packets.headD [] := by
    intro qs
    induction qs with
    | nil => intro _; rfl
    | cons q qs ih =>
      intro h
      rw [List.flatMap_cons, List.map_cons, ih fun q' h' => h q' (by simp [h'])]
      obtain ⟨x, hx⟩ := List.length_eq_one_iff.mp (h q (by simp))
      rw [hx]; rfl
  have hperm : (qs.map fun q => q.packets.headD []).Perm (onChannel cid handled) := by
    rw [← hone qs h1, ← hin]
    have := acc.once
    rw [List.append_nil] at this
    have := this.filter fun m => decide (channelOf m = some cid)
    unfold onChannel at href hnew ⊢
    rw [List.filterMap_append, List.filter_append, List.filter_append] at this
    have e : ∀ l : List Bytes, l.filter (fun m => channelOf m == some cid) = l.filter fun m => decide (channelOf m = some cid) := by
      intro l
      apply List.filter_congr
      intro m _
      rw [Bool.eq_iff_iff]
      simp
    simp only [e] at href hnew ⊢
    rw [href, hnew, List.append_nil, List.nil_append] at this
    exact this.symm
  obtain ⟨qs', h4, h5⟩ := perm_map hperm qs rfl
  have hin' : onChannel cid handled = qs'.flatMap (·.packets) := by
    rw [hone qs' fun q h => h1 q (h5.mem_iff.mpr h)]
    exact h4
  rw [C103_all_heard acc hcid qs' (fun q h => hq q (h5.mem_iff.mpr h)) hin']
  exact ((h5.map _).filter _).symm

theorem onChannel_append (cid : UInt32) (a b : List Bytes) : onChannel cid (a ++ b) = onChannel cid a ++ onChannel cid b := by
  simp [onChannel]

/-- If on a channel every report comes in when those before it have been dealt with, and none before the channel was
announced, then, however requests are split into reports, when nothing is going on any more all of them have been
given to the authenticator in the order in which they were sent, and the host has been sent exactly the results, in
this order. -/
theorem C103_in_order (evs1 evs2 : List Event) {s1 s : State} (hrun1 : (State.start p0).run E cfg grow evs1 = some s1)
    (hrun : (State.start p0).run E cfg grow (evs1 ++ evs2) = some s)
    (hcr : s.hid.crashed = false) (h64 : ∀ m ∈ (evs1 ++ evs2).filterMap reportOf, m.length ≤ 64)
    (hcount : ((evs1 ++ evs2).filterMap reportOf).length < 4294967295) (hidle : Idle s)
    {cid : UInt32} (hcid : cid ≠ 0xFFFFFFFF) (hann : Announced s1 cid) (hnew : onChannel cid (evs1.filterMap reportOf) = [])
    (hone : OneByOne E cfg grow p0 (evs1 ++ evs2) cid)
    (qs : List Request) (hq : ∀ q ∈ qs, q.WellSent cid)
    (hin : onChannel cid (evs2.filterMap reportOf) = qs.flatMap (·.packets)) :
    ∃ handled refused calls,
      Account ((evs1 ++ evs2).filterMap reportOf) s.hid.out s.proc.threads handled refused [] calls ∧
      asked (callsOn cid calls) = wanted qs ∧ (∀ k ∈ calls, k.answer.isSome = true) ∧
      ((∀ k ∈ calls, ∀ a, k.answer = some a → a ≠ [] ∧ a.length ≤ 7609) →
        answers (onChannel cid s.hid.out) = results (callsOn cid calls)) := by
  obtain ⟨handled, refused, pending, calls, acc, hnot, hord, -, -, hid⟩ := C103_account _ hrun hcr h64 hcount
  obtain ⟨rfl, h2, h3⟩ := hid hidle
  refine ⟨handled, refused, calls, acc, ?_, h2, fun h => h3 h cid⟩
  refine C103_all_heard acc hcid qs hq ?_
  have href : onChannel cid refused = [] := hnot.2 evs1 evs2 s1 cid rfl hrun1 hann hnew
  have hsub := (hord cid hone).1
  have hperm := acc.once
  rw [List.append_nil] at hperm
  have hlen : (onChannel cid (handled ++ refused)).length = (onChannel cid ((evs1 ++ evs2).filterMap reportOf)).length :=
    (hperm.filter _).length_eq
  rw [onChannel_append, href, List.append_nil] at hlen
  rw [hsub.eq_of_length hlen, List.filterMap_append, onChannel_append, hnew, hin, List.nil_append]

/-- When a goroutine panics, in the HID server or the authenticator, nothing more is sent, then or later. -/
theorem C103_after_panic {s s' : State} {e : Event} (h : s.step E cfg grow e = some s')
    (hp : s'.hid.crashed = true ∨ s'.proc.alive = false) :
    s'.hid.out = s.hid.out ∧ ∀ e', s'.step E cfg grow e' = none := by
  refine ⟨panic_out h hp, ?_⟩
  intro e'
  rcases h2 : s'.step E cfg grow e' with _ | s2
  · rfl
  · obtain ⟨h3, h4⟩ := step_crashed h2
    rcases hp with hp | hp
    · rw [h3] at hp; cases hp
    · rw [h4] at hp; cases hp

/-! ## C104: no deadlock and no endless work -/

/-- No further step of the device itself is possible. -/
def Stuck (E : Env) (cfg : Client.Config) (grow : Nat → Nat → Nat) (s : State) : Prop :=
  ∀ e, internal e = true → s.step E cfg grow e = none

/-- Without new reports and new calls of the embedding program, the device cannot work for ever,
whatever it was doing and in whatever order it goes on. -/
theorem C104_no_endless_work (f : Nat → State) :
    ¬ ∀ n, ∃ e, internal e = true ∧ (f n).step E cfg grow e = some (f (n + 1)) := by
  intro h
  have key : ∀ s, Acc (Follows E cfg grow) s → ∀ n, f n ≠ s := by
    intro s hs
    induction hs with
    | intro s _ ih =>
      intro n hn
      obtain ⟨e, h1, h2⟩ := h n
      exact ih (f (n + 1)) ⟨e, h1, by rw [← hn]; exact h2⟩ (n + 1) rfl
  exact key (f 0) (acc_follows E cfg grow (f 0)) 0 rfl

/-- There is no deadlock: when no further step is possible and no panic ended the process, all goroutines that
handle reports have ended and no operation is at work. -/
theorem C104_no_deadlock (pre : List Overlap.Event) (evs : List Event) {s : State}
    (hrun : (State.start ((Overlap.boot E cfg).run E cfg pre)).run E cfg grow evs = some s)
    (hcr : s.hid.crashed = false) (halive : s.proc.alive = true)
    (h64 : ∀ m ∈ evs.filterMap reportOf, m.length ≤ 64) (hcount : (evs.filterMap reportOf).length < 4294967295)
    (hstuck : Stuck E cfg grow s) : Idle s ∧ ∀ t ∈ s.proc.threads, Spec.Overlap.busy t = false := by
  obtain ⟨handled, refused, calls, sent, oevs, inv, tied, -⟩ := live_run evs hrun hcr h64 hcount
  exact stuck_idle inv tied hcr halive hstuck

/-- The device is at rest exactly when, without a panic, all goroutines have ended and no operation is at work. -/
theorem C104_rest {s : State} (h : Idle s) (hb : ∀ t ∈ s.proc.threads, Spec.Overlap.busy t = false) :
    Stuck E cfg grow s := by
  intro e he
  unfold State.step
  split
  · cases e with
    | step i =>
      dsimp only
      unfold Reports.State.step
      split
      · rfl
      · dsimp only
        rcases hi : s.hid.routines[i]? with _ | r
        · rfl
        · dsimp only
          unfold Reports.State.turn
          rw [h r (List.mem_of_getElem? hi)]
          rfl
    | work k =>
      dsimp only
      rcases hk : s.proc.threads[k]? with _ | t
      · rfl
      · have := hb t (List.mem_of_getElem? hk)
        cases t with
        | working _ _ => cases this
        | _ => rfl
    | «return» i =>
      dsimp only
      rcases hi : s.hid.routines[i]? with _ | r
      · rfl
      · obtain ⟨a, ph, b⟩ := r
        have := h _ (List.mem_of_getElem? hi)
        dsimp only at this
        subst this
        rfl
    | _ => cases he
  · rfl

/-- From every state the device can be in, some order of steps leads to one where no further step is possible … -/
theorem C104_comes_to_rest (s : State) : ∃ evs s', (∀ e ∈ evs, internal e = true) ∧
    s.run E cfg grow evs = some s' ∧ Stuck E cfg grow s' := by
  have hs := acc_follows E cfg grow s
  induction hs with
  | intro s _ ih =>
    by_cases h : Stuck E cfg grow s
    · exact ⟨[], s, by simp, rfl, h⟩
    · obtain ⟨e, he⟩ := Classical.not_forall.mp h
      obtain ⟨h1, h2⟩ := Classical.not_imp.mp he
      obtain ⟨s1, h3⟩ := Option.ne_none_iff_exists'.mp h2
      obtain ⟨evs, s', g1, g2, g3⟩ := ih s1 ⟨e, h1, h3⟩
      refine ⟨e :: evs, s', ?_, ?_, g3⟩
      · intro x hx
        rcases List.mem_cons.mp hx with rfl | hx
        · exact h1
        · exact g1 x hx
      · rw [State.run, h3]
        exact g2

/-- … and then, unless a panic ended the process, every request that came in has been answered and the answers
have been sent: all orders of steps come to this. -/
theorem C104_all_answered (pre : List Overlap.Event) (evs : List Event) {s : State}
    (hrun : (State.start ((Overlap.boot E cfg).run E cfg pre)).run E cfg grow evs = some s)
    (hcr : s.hid.crashed = false) (halive : s.proc.alive = true)
    (h64 : ∀ m ∈ evs.filterMap reportOf, m.length ≤ 64) (hcount : (evs.filterMap reportOf).length < 4294967295)
    (hstuck : Stuck E cfg grow s) :
    ∃ handled refused calls, Account (evs.filterMap reportOf) s.hid.out s.proc.threads handled refused [] calls ∧
      NotRefused E cfg grow ((Overlap.boot E cfg).run E cfg pre) evs refused ∧
      (∀ k ∈ calls, k.answer.isSome = true) ∧
      ((∀ k ∈ calls, ∀ a, k.answer = some a → a ≠ [] ∧ a.length ≤ 7609) →
        ∀ cid, answers (onChannel cid s.hid.out) = results (callsOn cid calls)) := by
  obtain ⟨hidle, -⟩ := C104_no_deadlock pre evs hrun hcr halive h64 hcount hstuck
  obtain ⟨handled, refused, pending, calls, acc, hn, -, -, -, h⟩ := C103_account evs hrun hcr h64 hcount
  obtain ⟨rfl, h1, h2⟩ := h hidle
  exact ⟨handled, refused, calls, acc, hn, h1, h2⟩

/-! ## C105: consent behind what hosts read -/

/-- However everything interleaves, and with whatever happened before the device was started (restarts and
panics included): what hosts read on all channels together claims the user's consent to an action no more often than
the user gave it; and every successful answer a host reads is about its own request, signed for it, with flags
that are true of it, and with the consent it claims. -/
theorem C105_consent_behind_answers (L : Laws E) (hu : Spec.History.Usable E cfg) (pre : List Overlap.Event) (evs : List Event)
    {s : State} (hrun : (State.start ((Overlap.boot E cfg).run E cfg pre)).run E cfg grow evs = some s)
    (hcr : s.hid.crashed = false) (h64 : ∀ m ∈ evs.filterMap reportOf, m.length ≤ 64)
    (hcount : (evs.filterMap reportOf).length < 4294967295)
    {handled refused pending : List Bytes} {calls : List Call}
    (acc : Account (evs.filterMap reportOf) s.hid.out s.proc.threads handled refused pending calls)
    (hok : ∀ k ∈ calls, ∀ a, k.answer = some a → a ≠ [] ∧ a.length ≤ 7609) :
    (∀ (cids : List UInt32) (a : Action), cids.Nodup →
      (cids.flatMap (exchanges s.hid.out calls)).countP (fun x => claims x == some a) ≤
        s.proc.mem.world.asks.countP (agreed a)) ∧
    (∀ cid, ∀ x ∈ exchanges s.hid.out calls cid, ∃ history i q m,
      s.proc = (Overlap.boot E cfg).run E cfg history ∧ Finished E cfg history i m ∧
      Faithful E x.1 x.2 q m ∧ (∀ a, q = some a → a ∈ s.proc.mem.world.asks)) := by
  obtain ⟨_, _, calls', _, oevs, -, tied, -⟩ := live_run evs hrun hcr h64 hcount
  have hproc : s.proc = (Overlap.boot E cfg).run E cfg (pre ++ oevs) := by
    rw [tied.run, Overlap.run_append]
  refine ⟨?_, ?_⟩
  · intro cids a hn
    refine Nat.le_trans (count_exchanges acc hok cids hn _) ?_
    have := Props.C94_one_approval_each (cfg := cfg) L hu (pre ++ oevs) a
    rw [← hproc] at this
    exact this
  · intro cid x hx
    obtain ⟨i, hi⟩ := exchange_operation acc hok hx
    rw [hproc] at hi
    obtain ⟨q, m, h1, h2, h3⟩ := Props.C95_own_answer L hu (pre ++ oevs) i x.1 x.2 hi
    refine ⟨pre ++ oevs, i, q, m, hproc, h1, h2, ?_⟩
    rw [hproc]
    exact h3

/-! ## C106: nothing on the channel reaches a request that is at work -/

/-- While a request of a channel is with the authenticator, the other reports of this channel that have come in,
a CANCEL included, are not looked at: the goroutine of such a report can at most look up its channel and wait.
It changes nothing else: not what is sent, not the authenticator, not the request. -/
theorem C106_no_report_reaches_it (evs : List Event) {s s' : State}
    (hrun : (State.start p0).run E cfg grow evs = some s) (h64 : ∀ m ∈ evs.filterMap reportOf, m.length ≤ 64)
    (hcount : (evs.filterMap reportOf).length < 4294967295) {i p k : Nat} {cid : UInt32} {cmd : UInt8} {payload : Bytes}
    {r : Reports.Routine} (hi : s.hid.routines[i]? = some r) (hp : r.phase = .calling p k cid cmd payload)
    {j : Nat} {r2 : Reports.Routine} (hj : s.hid.routines[j]? = some r2) (hnew : r2.phase.taken = false)
    (hch : channelOf r2.report = some cid) (hstep : s.step E cfg grow (.step j) = some s') :
    s' = { s with hid := s.hid.goes j (.waiting p) } ∧ s'.hid.routines[i]? = some r ∧
      s'.step E cfg grow (.step j) = none := by
  obtain ⟨hc0, ha0⟩ := step_crashed hstep
  obtain ⟨handled, refused, calls, sent, oevs, inv, -, -⟩ := live_run evs hrun hc0 h64 hcount
  obtain ⟨c, hc, h1, h2, h3⟩ := inv.holds_holder hi (p := p) (by rw [hp]; rfl)
  have hcid : c.channelId = cid := by
    have := (inv.calling_mem hi hp).2
    rw [h1] at this
    exact Option.some.inj this
  have hij : i ≠ j := by
    rintro rfl
    rw [hi] at hj
    cases hj
    rw [hp] at hnew; cases hnew
  have htable : s.hid.table cid = some p := (inv.table_iff cid p).mpr ⟨c, hc, hcid⟩
  have hread : ∃ rest, Util.readLE32 r2.report = .ok (cid, rest) := by
    exact channelOf_eq_iff.mp hch
  have hsame : ∀ q, r2.phase.about = some q → q = p := by
    intro q hq
    obtain ⟨c2, g1, g2⟩ := inv.about j r2 q hj hq
    rw [hch] at g2
    have := (inv.table_iff cid q).mpr ⟨c2, g1, (Option.some.inj g2).symm⟩
    rw [htable] at this
    exact (Option.some.inj this).symm
  unfold State.step at hstep
  rw [if_pos ha0] at hstep
  obtain ⟨h', hst, rfl⟩ := Option.map_eq_some_iff.mp hstep
  unfold Reports.State.step at hst
  rw [if_neg (by rw [hc0]; decide)] at hst
  dsimp only at hst
  rw [hj] at hst
  dsimp only at hst
  unfold Reports.State.turn at hst
  rcases hph : r2.phase with _ | q | q | _ | _ | _ | _ <;> rw [hph] at hst hnew <;> try (cases hnew; done)
  · obtain ⟨rest, hread⟩ := hread
    dsimp only at hst
    rw [hread] at hst
    dsimp only at hst
    rw [htable] at hst
    obtain rfl : s.hid.goes j (.waiting p) = h' := Option.some.inj hst
    have hget : (s.hid.goes j (.waiting p)).routines[j]? = some { r2 with phase := .waiting p } := by
      rw [Reports.goes_eq hj]
      exact Reports.get_set_self hj
    have hent : ({ s with hid := s.hid.goes j (.waiting p) } : State).enter E cfg j =
        { s with hid := s.hid.goes j (.waiting p) } := by
      unfold State.enter
      dsimp only
      rw [hget]
    refine ⟨hent, ?_, ?_⟩
    · rw [hent, Reports.goes_eq hj]
      exact (Reports.get_set_ne (Ne.symm hij)).trans hi
    · rw [hent]
      unfold State.step
      rw [if_pos ha0]
      unfold Reports.State.step
      dsimp only
      rw [if_neg (show ¬ (s.hid.goes j (.waiting p)).crashed = true by
        show ¬ s.hid.crashed = true
        rw [hc0]; decide), hget]
      unfold Reports.State.turn
      dsimp only
      rw [show (s.hid.goes j (.waiting p)).chans = s.hid.chans from rfl, hc]
      dsimp only
      rw [h2]
      rfl
  · obtain rfl : q = p := hsame q (by rw [hph]; rfl)
    dsimp only at hst
    rw [hc] at hst
    dsimp only at hst
    rw [h2] at hst
    cases hst
  · obtain rfl : q = p := hsame q (by rw [hph]; rfl)
    have := (inv.hold q c j hc).mpr ⟨r2, hj, by rw [hph]; rfl⟩
    rw [h2] at this
    exact absurd (Option.some.inj this) hij

/-- Whatever else happens, the request stays with the authenticator until the authenticator returns its
answer, which is the one the host gets (C103). -/
theorem C106_only_its_answer_ends_it (evs : List Event) {s s' : State} (hrun : s.run E cfg grow evs = some s')
    {i p k : Nat} {cid : UInt32} {cmd : UInt8} {payload : Bytes} {r : Reports.Routine}
    (hi : s.hid.routines[i]? = some r) (hp : r.phase = .calling p k cid cmd payload)
    (hno : Event.return i ∉ evs) : s'.hid.routines[i]? = some r := by
  induction evs generalizing s with
  | nil => cases hrun; exact hi
  | cons e evs ih =>
    obtain ⟨s1, h1, h2⟩ := Option.bind_eq_some_iff.mp hrun
    exact ih h2 (calling_stays h1 hi hp (fun h => hno (by rw [h]; simp))) (fun h => hno (by simp [h]))

/-! ## An example

Two hosts get a channel each.  One asks for GetInfo and sends CANCEL while the authenticator is at work; the other
asks for the U2F version.  The goroutines interleave. -/

namespace Example

def grow0 : Nat → Nat → Nat := fun _ n => n
def initReport : Bytes := (hostPackets 0xFFFFFFFF 0x86 [1, 2, 3, 4, 5, 6, 7, 8] (List.replicate 49 0))[0]!
def infoReport : Bytes := (hostPackets 1 0x90 [4] (List.replicate 56 0))[0]!
def cancelReport : Bytes := (hostPackets 1 0x91 [] (List.replicate 57 0))[0]!
def versionReport : Bytes := (hostPackets 2 0x83 [0, 3, 0, 0, 0, 0, 0] (List.replicate 50 0))[0]!

def sixSteps (i : Nat) : List Event := List.replicate 6 (.step i)

/-- up to the moment when the CANCEL has come in and both requests are with the authenticator -/
def opening : List Event :=
  [.report initReport, .report initReport] ++ sixSteps 0 ++ sixSteps 1 ++
  [.report infoReport, .report versionReport, .step 2, .step 3, .step 2, .step 3, .step 2, .step 3, .report cancelReport]

def ending : List Event :=
  [.step 4, .work 0, .return 3, .step 3, .return 2, .step 3, .step 3, .keepalive 2, .step 2, .step 2, .step 2, .step 4,
   .step 4]

noncomputable def boot : State := .start (Overlap.boot (Toy.toy Toy.agree) (Toy.config false))

noncomputable def at' (evs : List Event) : Option State := boot.run (Toy.toy Toy.agree) (Toy.config false) grow0 evs

def ended (s : State) : Bool := s.hid.routines.all fun r => match r.phase with | .done => true | _ => false

theorem ended_idle {s : State} (h : ended s = true) : Idle s := by
  intro r hr
  have := List.all_eq_true.mp h r hr
  cases hp : r.phase <;> rw [hp] at this <;> first | rfl | cases this

theorem summary : (at' (opening ++ ending)).map (fun s =>
    (ended s, s.hid.crashed, s.proc.alive, s.proc.threads.all fun t => !Spec.Overlap.busy t)) =
      some (true, false, true, true) := by decide +kernel

/-- The hypotheses of C103, C104 and C105 hold, with five reports dealt with on three channels. -/
example : ∃ s, at' (opening ++ ending) = some s ∧ s.hid.crashed = false ∧ s.proc.alive = true ∧
    (∀ m ∈ (opening ++ ending).filterMap reportOf, m.length ≤ 64) ∧
    ((opening ++ ending).filterMap reportOf).length = 5 ∧
    Idle s ∧ Stuck (Toy.toy Toy.agree) (Toy.config false) grow0 s := by
  obtain ⟨s, hs, h⟩ := Option.map_eq_some_iff.mp summary
  simp only [Prod.mk.injEq] at h
  obtain ⟨h1, h2, h3, h4⟩ := h
  refine ⟨s, hs, h2, h3, by decide +kernel, by decide, ended_idle h1, C104_rest (ended_idle h1) ?_⟩
  intro t ht
  have := List.all_eq_true.mp h4 t ht
  simpa using this

/-- What was sent: on channel 1 the host reads the answer to its GetInfo, on channel 2 the version; the CANCEL
got nothing. -/
example : (at' (opening ++ ending)).map (fun s =>
    ((answers (onChannel 1 s.hid.out)).map (·.1), answers (onChannel 2 s.hid.out))) =
      some ([0x90], [(0x83, [0x55, 0x32, 0x46, 0x5F, 0x56, 0x32, 0x90, 0x00])]) := by decide +kernel

def hello : List Event := [.report initReport, .report initReport] ++ sixSteps 0 ++ sixSteps 1

def work : List Event :=
  [.report infoReport, .report versionReport, .step 2, .step 3, .step 2, .step 3, .step 2, .step 3, .report cancelReport] ++ ending

/-- The hypotheses of C103_each_answered_once: channel 2 is announced before the version request is sent on it. -/
example : ∃ s1 s, at' hello = some s1 ∧ at' (hello ++ work) = some s ∧ s.hid.crashed = false ∧ Idle s ∧ Announced s1 2 ∧
    onChannel 2 (hello.filterMap reportOf) = [] ∧
    onChannel 2 (work.filterMap reportOf) =
      [(⟨0x83, [0, 3, 0, 0, 0, 0, 0], [versionReport]⟩ : Request)].flatMap (·.packets) ∧
    (⟨0x83, [0, 3, 0, 0, 0, 0, 0], [versionReport]⟩ : Request).WellSent 2 := by
  obtain ⟨s, hs, h⟩ := Option.map_eq_some_iff.mp summary
  simp only [Prod.mk.injEq] at h
  have h1 : (at' hello).map (fun s => s.hid.out.elem (initAnswer [1, 2, 3, 4, 5, 6, 7, 8] 2)) = some true := by decide +kernel
  obtain ⟨s1, hs1, h1⟩ := Option.map_eq_some_iff.mp h1
  refine ⟨s1, s, hs1, ?_, h.2.1, ended_idle h.1, ⟨[1, 2, 3, 4, 5, 6, 7, 8], rfl, List.elem_iff.mp h1⟩,
    by decide +kernel, by decide +kernel, by unfold Begins; decide, [0, 3, 0, 0, 0, 0, 0] ++ List.replicate 50 0, [],
    by decide +kernel, by decide, by decide, by decide, by decide, by simp⟩
  rw [← hs]
  rfl

/-- The hypotheses of C106: GetInfo is with the authenticator (goroutine 2), the CANCEL has come in on the same channel
(goroutine 4) and can take a step. -/
example : ∃ s r r2 s', at' opening = some s ∧ s.hid.routines[2]? = some r ∧ r.phase = .calling 1 0 1 0x90 [4] ∧
    s.hid.routines[4]? = some r2 ∧ r2.phase.taken = false ∧ channelOf r2.report = some 1 ∧
    s.step (Toy.toy Toy.agree) (Toy.config false) grow0 (.step 4) = some s' := by
  have h : ((at' opening).bind fun s =>
      (s.step (Toy.toy Toy.agree) (Toy.config false) grow0 (.step 4)).bind fun _ =>
      (s.hid.routines[2]?).bind fun r => (s.hid.routines[4]?).bind fun r2 =>
      match r.phase with
      | .calling p k cid cmd payload => some ((p, k, cid), (cmd, payload), (r2.phase.taken, channelOf r2.report))
      | _ => none) = some ((1, 0, 1), (0x90, [4]), (false, some 1)) := by decide +kernel
  obtain ⟨s, hs, h⟩ := Option.bind_eq_some_iff.mp h
  obtain ⟨s', hs', h⟩ := Option.bind_eq_some_iff.mp h
  obtain ⟨r, hr, h⟩ := Option.bind_eq_some_iff.mp h
  obtain ⟨r2, hr2, h⟩ := Option.bind_eq_some_iff.mp h
  cases hp : r.phase <;> rw [hp] at h <;> dsimp only at h <;> try (cases h; done)
  simp only [Option.some.injEq, Prod.mk.injEq] at h
  obtain ⟨⟨rfl, rfl, rfl⟩, ⟨rfl, rfl⟩, h1, h2⟩ := h
  exact ⟨s, r, r2, s', hs, hr, hp, hr2, h1, h2, hs'⟩

end Example

end VF.Live
