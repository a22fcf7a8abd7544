import Verif.Model.Concurrency

/-!
# Schedules: C19, C72, C73
-/

namespace VF

/-! ## C19 -/

/-- For every number of senders, every set of responses and every schedule: what was written is a
concatenation of whole responses followed by an initial part of the one in progress; and each
sender's responses come in its own order, none lost. -/
theorem C19_not_interleaved {α : Type} (jobs : Nat → List (List α)) (s : Lock.State α)
    (h : Lock.Reach jobs s) :
    ∃ (whole : List (Nat × List α)) (current : List (Nat × List α)) (part : List α),
      s.out = (whole.map (·.2)).flatten ++ part ∧
      current.length ≤ 1 ∧ (part = [] ∨ ∃ c ∈ current, part <+: c.2) ∧
      ∀ t, ((whole ++ current).filter (fun j => j.1 == t)).map (·.2) ++ s.todo t = jobs t := by
  have key : ∃ (whole : List (Nat × List α)), match s.holder with
      | none => s.out = (whole.map (·.2)).flatten ∧
          ∀ t, (whole.filter (fun j => j.1 == t)).map (·.2) ++ s.todo t = jobs t
      | some (t0, rest) => ∃ part, s.out = (whole.map (·.2)).flatten ++ part ∧
          ∀ t, ((whole ++ [(t0, part ++ rest)]).filter (fun j => j.1 == t)).map (·.2) ++ s.todo t = jobs t := by
    induction h with
    | init => exact ⟨[], by simp⟩
    | @step s s' a _ hs ih =>
      obtain ⟨whole, ih⟩ := ih
      cases a with
      | lock t =>
        simp only [Lock.act] at hs
        split at hs
        · rename_i job rest hh ht
          simp only [Option.some.injEq] at hs
          subst hs
          rw [hh] at ih
          refine ⟨whole, [], by simpa using ih.1, ?_⟩
          intro u
          have := ih.2 u
          by_cases hu : u = t
          · subst hu
            rw [ht] at this
            simp only [List.filter_append, List.map_append, List.nil_append, if_true]
            simpa using this
          · have hne : (t == u) = false := by simp; exact fun hc => hu hc.symm
            simp [List.filter_append, hu, hne, this]
        · simp at hs
      | write =>
        simp only [Lock.act] at hs
        split at hs
        · rename_i t x xs hh
          simp only [Option.some.injEq] at hs
          subst hs
          rw [hh] at ih
          obtain ⟨part, h1, h2⟩ := ih
          refine ⟨whole, part ++ [x], by simp [h1], ?_⟩
          intro u
          have := h2 u
          simpa using this
        · simp at hs
      | unlock =>
        simp only [Lock.act] at hs
        split at hs
        · rename_i t hh
          simp only [Option.some.injEq] at hs
          subst hs
          rw [hh] at ih
          obtain ⟨part, h1, h2⟩ := ih
          refine ⟨whole ++ [(t, part)], by simp [h1], ?_⟩
          intro u
          simpa using h2 u
        · simp at hs
  obtain ⟨whole, hk⟩ := key
  rcases hh : s.holder with _ | ⟨t0, rest⟩
  · rw [hh] at hk
    exact ⟨whole, [], [], by simpa using hk.1, by simp, .inl rfl, by simpa using hk.2⟩
  · rw [hh] at hk
    obtain ⟨part, h1, h2⟩ := hk
    exact ⟨whole, [(t0, part ++ rest)], part, h1, by simp,
      .inr ⟨(t0, part ++ rest), by simp, List.prefix_append _ _⟩, h2⟩

/-- Two senders; the second one interrupted in the middle of its response. -/
example : ∃ s, Lock.Reach (fun t => if t = 0 then [[1, 2]] else if t = 1 then [[3, 4]] else []) s ∧
    s.out = [1, 2, 3] := by
  refine ⟨_, .step (a := .write) (.step (a := .lock 1) (.step (a := .unlock) (.step (a := .write)
    (.step (a := .write) (.step (a := .lock 0) .init rfl) rfl) rfl) rfl) rfl) rfl, rfl⟩

/-! ## C72 -/

open Recurring in
/-- The goroutines the keepalive loop has started and not yet finished. -/
theorem Recurring.inv {s : State} (h : Reach s) :
    s.sleeping + s.sending + s.trigger =
      (match s.main with | .top => 0 | .select => 1 | .inF => 0 | .done => 1) ∧
    s.stop ≤ 1 ∧ (s.stopped = false → s.stop = 0 ∧ s.main ≠ .done) ∧
    (s.stopped = true → s.main ≠ .done → s.stop = 1) := by
  induction h with
  | init => simp [State.init]
  | @step s s' a _ hs ih =>
    obtain ⟨h1, h2, h3, h4⟩ := ih
    cases a <;> simp only [act] at hs <;> split at hs <;> simp only [Option.some.injEq, reduceCtorEq] at hs <;>
      subst hs <;> rename_i hc <;> simp only
    · rw [hc] at h1 h4
      refine ⟨by simp only at h1; omega, h2, fun h => ⟨(h3 h).1, by simp⟩, fun h _ => h4 h (by simp)⟩
    · exact ⟨by omega, h2, h3, h4⟩
    · exact ⟨by omega, h2, h3, h4⟩
    · rw [hc.1] at h1 h4
      exact ⟨by simp only at h1; omega, h2, fun h => ⟨(h3 h).1, by simp⟩, fun h _ => h4 h (by simp)⟩
    · rw [hc.1] at h1
      refine ⟨by simpa using h1, by omega, fun h => ?_, by simp⟩
      have := (h3 h).1; omega
    · rw [hc] at h1 h4
      exact ⟨by simpa using h1, h2, fun h => ⟨(h3 h).1, by simp⟩, fun h _ => h4 h (by simp)⟩
    · have := h3 hc
      exact ⟨h1, by omega, by simp, fun _ _ => by omega⟩
    · exact ⟨h1, h2, h3, h4⟩

open Recurring in
/-- In every schedule: (1) at most one helper goroutine exists at any time, and a helper that wants
to send can always send, so none ever blocks or is leaked; (2) after the stop signal the loop can
always reach its end within three of its own steps without any further run of the function beyond
the one in progress. -/
theorem C72_no_leak (s : State) (h : Reach s) :
    (s.sleeping + s.sending ≤ 1 ∧ (0 < s.sending → s.trigger = 0 ∧ (act .send s).isSome)) ∧
    (s.stopped = true → s.main ≠ .done →
      ∃ acts : List Act, acts.length ≤ 3 ∧ ∃ s', acts.foldlM (fun x a => act a x) s = some s' ∧
        s'.main = .done ∧ s'.after ≤ s.after + 1 ∧ (s.main ≠ .inF → s'.after = s.after)) := by
  obtain ⟨h1, h2, h3, h4⟩ := Recurring.inv h
  have hle : s.sleeping + s.sending + s.trigger ≤ 1 := by
    rcases hm : s.main <;> rw [hm] at h1 <;> simp only at h1 <;> omega
  refine ⟨⟨by omega, fun hs => ⟨by omega, ?_⟩⟩, ?_⟩
  · simp only [act]
    rw [if_pos ⟨hs, by omega⟩]
    rfl
  · intro hst hd
    have h5 := h4 hst hd
    rcases hm : s.main
    · refine ⟨[.spawn, .recvStop], by simp, { s with main := .done, sleeping := s.sleeping + 1, stop := 0 }, ?_⟩
      simp [List.foldlM, act, hm, h5]
    · refine ⟨[.recvStop], by simp, { s with main := .done, stop := 0 }, ?_⟩
      simp [List.foldlM, act, hm, h5]
    · refine ⟨[.endF, .spawn, .recvStop], by simp, { s with main := .done, sleeping := s.sleeping + 1, stop := 0, after := s.after + 1, log := s.log ++ [.keepalive] }, ?_⟩
      simp [List.foldlM, act, hm, h5, hst]
    · exact absurd hm hd

open Recurring in
/-- One step of a schedule in which, whenever the loop goroutine arrives at the select and the stop
signal is there, the 50 ms of the helper started just before have not elapsed yet: then it takes the
stop signal. -/
inductive Recurring.PromptStep : State → State → Prop
  | step {s s' : State} {a : Act} (hs : act a s = some s') (ha : a ≠ .spawn) : PromptStep s s'
  | spawn {s s' : State} (hs : act .spawn s = some s') (hstop : s.stop = 0) : PromptStep s s'
  | spawnStop {s s' s'' : State} (hs : act .spawn s = some s') (hstop : 0 < s.stop)
      (hs' : act .recvStop s' = some s'') : PromptStep s s''

open Recurring in
/-- States reachable by such schedules. -/
inductive Recurring.PromptReach : State → Prop
  | init : PromptReach State.init
  | next {s s' : State} (h : PromptReach s) (hs : PromptStep s s') : PromptReach s'

open Recurring in
theorem Recurring.prompt_inv {s : State} (h : PromptReach s) :
    Reach s ∧ (s.stopped = false → s.after = 0) ∧
      (s.stopped = true → s.after + (match s.main with | .select => 1 | .inF => 1 | _ => 0) ≤ 1) := by
  induction h with
  | init => exact ⟨.init, by simp [State.init], by simp [State.init]⟩
  | @next s s' _ hstep ih =>
    obtain ⟨hr, i1, i2⟩ := ih
    rcases hstep with ⟨hs, ha⟩ | ⟨hs, hstop⟩ | ⟨hs, hstop, hs'⟩
    · refine ⟨.step hr hs, ?_⟩
      rename_i a
      cases a <;> simp only [act] at hs <;> split at hs <;>
        simp only [Option.some.injEq, reduceCtorEq] at hs <;> subst hs <;> rename_i hc <;> simp only
      · exact absurd rfl ha
      · exact ⟨i1, i2⟩
      · exact ⟨i1, i2⟩
      · rw [hc.1] at i2; exact ⟨i1, i2⟩
      · rw [hc.1] at i2; exact ⟨i1, fun h => by have := i2 h; simp only at this; omega⟩
      · rw [hc] at i2
        refine ⟨fun h => by simpa [h] using i1 h, fun h => ?_⟩
        have := i2 h
        simp only at this
        simp [h]; omega
      · have := i1 hc
        refine ⟨by simp, fun _ => ?_⟩
        rcases hm : s.main <;> simp [this]
      · exact ⟨i1, i2⟩
    · have hinv := Recurring.inv hr
      refine ⟨.step hr hs, ?_⟩
      simp only [act] at hs
      split at hs
      · rename_i hc
        simp only [Option.some.injEq] at hs
        subst hs
        simp only
        refine ⟨i1, fun h => ?_⟩
        have := hinv.2.2.2 h (by rw [hc]; simp)
        omega
      · simp at hs
    · refine ⟨.step (.step hr hs) hs', ?_⟩
      simp only [act] at hs
      split at hs
      · rename_i hc
        simp only [Option.some.injEq] at hs
        subst hs
        simp only [act] at hs'
        split at hs'
        · simp only [Option.some.injEq] at hs'
          subst hs'
          simp only
          refine ⟨i1, fun h => ?_⟩
          have := i2 h
          rw [hc] at this
          simpa using this
        · simp at hs'
      · simp at hs

/-- What is left to do after the stop signal. -/
def Recurring.work (s : Recurring.State) : Nat :=
  3 * s.sleeping + 2 * s.sending + s.trigger +
    (match s.main with | .select => 6 | .inF => 5 | .top => 4 | .done => 0) +
    (if Recurring.Ev.answer ∈ s.log then 0 else 1)

open Recurring in
theorem Recurring.work_decreases {s s' : State} (h : Reach s) (hst : s.stopped = true)
    (hstep : PromptStep s s') : work s' < work s ∧ s'.stopped = true := by
  have hinv := Recurring.inv h
  rcases hstep with ⟨hs, ha⟩ | ⟨hs, hstop⟩ | ⟨hs, hstop, hs'⟩
  · rename_i a
    cases a <;> simp only [act] at hs <;> split at hs <;>
      simp only [Option.some.injEq, reduceCtorEq] at hs <;> subst hs <;> rename_i hc <;>
      simp only [hst, and_true, work]
    · exact absurd rfl ha
    · omega
    · omega
    · simp only [hc.1]; omega
    · simp only [hc.1]; omega
    · simp [hc]
    · rw [hst] at hc; simp at hc
    · simp [hc.2]
  · simp only [act] at hs
    split at hs
    · rename_i hc
      have := hinv.2.2.2 hst (by rw [hc]; simp)
      omega
    · simp at hs
  · simp only [act] at hs
    split at hs
    · rename_i hc
      simp only [Option.some.injEq] at hs
      subst hs
      simp only [act] at hs'
      split at hs'
      · simp only [Option.some.injEq] at hs'
        subst hs'
        simp only [work, hc, hst, and_true]
        omega
      · simp at hs'
    · simp at hs

open Recurring in
/-- Under such schedules the function runs at most once more after the stop signal, every schedule
ends after at most 10 further steps, and when nothing can run any more the loop and all its helpers
have ended and the answer has been sent. -/
theorem C72_stops (s : State) (h : PromptReach s) :
    s.after ≤ 1 ∧
    (s.stopped = true → ∀ (n : Nat) (f : Nat → State), f 0 = s →
      (∀ i < n, PromptStep (f i) (f (i + 1))) → n ≤ 10) ∧
    (s.stopped = true → (∀ s', ¬ PromptStep s s') →
      s.main = .done ∧ s.sleeping = 0 ∧ s.sending = 0 ∧ Ev.answer ∈ s.log) := by
  obtain ⟨hr, i1, i2⟩ := prompt_inv h
  have hinv := Recurring.inv hr
  refine ⟨?_, ?_, ?_⟩
  · by_cases hst : s.stopped = true
    · have := i2 hst; omega
    · have := i1 (by simpa using hst); omega
  · intro hst n f h0 hsteps
    have hw : work s ≤ 10 := by
      unfold work
      have h1 := hinv.1
      rcases hm : s.main <;> rw [hm] at h1 <;> simp only at h1 ⊢ <;> split <;> omega
    have key : ∀ i ≤ n, PromptReach (f i) ∧ (f i).stopped = true ∧ work (f i) + i ≤ work s := by
      intro i
      induction i with
      | zero => intro _; rw [h0]; exact ⟨h, hst, by omega⟩
      | succ i ih =>
        intro hi
        obtain ⟨a1, a2, a3⟩ := ih (by omega)
        have hst' := hsteps i (by omega)
        obtain ⟨b1, b2⟩ := work_decreases (prompt_inv a1).1 a2 hst'
        exact ⟨.next a1 hst', b2, by omega⟩
    have := key n (Nat.le_refl _)
    omega
  · intro hst hstuck
    have hno : ∀ a, a ≠ .spawn → act a s = none := by
      intro a ha
      rcases hact : act a s with _ | s'
      · rfl
      · exact absurd (.step hact ha) (hstuck s')
    have hstop := hinv.2.2.2 hst
    have hdone : s.main = .done := by
      rcases hm : s.main
      · exfalso
        apply hstuck { s with main := .done, sleeping := s.sleeping + 1, stop := s.stop - 1 }
        have hs1 := hstop (by rw [hm]; simp)
        exact .spawnStop (s' := { s with main := .select, sleeping := s.sleeping + 1 })
          (by simp [act, hm]) (by omega) (by simp [act, hs1])
      · have := hno .recvStop (by decide)
        have hs1 := hstop (by rw [hm]; simp)
        simp [act, hm, hs1] at this
      · have := hno .endF (by decide)
        simp [act, hm] at this
      · rfl
    refine ⟨hdone, ?_, ?_, ?_⟩
    · have := hno .wake (by decide)
      simp only [act] at this
      split at this
      · simp at this
      · omega
    · have := hno .send (by decide)
      have h1 := hinv.1
      simp only [act] at this
      split at this
      · simp at this
      · rw [hdone] at h1; simp only at h1
        omega
    · have := hno .answer (by decide)
      simp only [act] at this
      split at this
      · simp at this
      · rename_i hc
        rw [hst] at hc
        simpa using hc

/-- Run a list of steps other than a spawn with the stop signal present. -/
def Recurring.runActs : List Recurring.Act → Recurring.State → Option Recurring.State
  | [], s => some s
  | a :: as, s =>
    if a = .spawn ∧ s.stop ≠ 0 then none else (Recurring.act a s).bind (runActs as)

open Recurring in
theorem Recurring.runActs_reach {as : List Act} {s s' : State} (h : PromptReach s)
    (hr : runActs as s = some s') : PromptReach s' := by
  induction as generalizing s with
  | nil => simp only [runActs, Option.some.injEq] at hr; rw [← hr]; exact h
  | cons a as ih =>
    simp only [runActs] at hr
    split at hr
    · simp at hr
    · rename_i hc
      rcases ha : act a s with _ | s1
      · rw [ha] at hr; simp at hr
      · rw [ha] at hr
        simp only [Option.bind_some] at hr
        refine ih (.next h ?_) hr
        by_cases hsp : a = .spawn
        · subst hsp
          exact .spawn ha (by simpa using hc)
        · exact .step ha hsp

/-- A complete run: one keepalive, stop, the loop ends, the last helper ends. -/
example : ∃ s, Recurring.PromptReach s ∧ s.stopped = true ∧ s.main = .done ∧ s.sleeping + s.sending = 0 ∧
    s.log = [.keepalive, .answer] :=
  ⟨_, Recurring.runActs_reach (as := [.spawn, .wake, .send, .recvTrigger, .endF, .spawn, .signal, .recvStop,
    .wake, .send, .answer]) .init rfl, rfl, rfl, rfl, rfl⟩

/-- A keepalive can follow the final answer. -/
theorem C72_late_keepalive_refuted : ∃ s, Recurring.PromptReach s ∧ s.log = [.answer, .keepalive] :=
  ⟨_, Recurring.runActs_reach (as := [.spawn, .wake, .send, .recvTrigger, .signal, .answer, .endF])
    .init rfl, rfl⟩

/-! ## C73 -/

/-- Two threads that interleave get the same counter. -/
theorem C73_race_refuted (c : UInt32) : ∃ s, Counter.run [0, 1, 0, 0, 1, 1] ⟨c, fun _ => .start⟩ = some s ∧
    s.threads 0 = .returned c ∧ s.threads 1 = .returned c ∧ s.counter = c + 1 + 1 :=
  ⟨_, rfl, rfl, rfl, rfl⟩

/-- A lost update: both see the same counter, and it advances only once. -/
theorem C73_lost_update_refuted (c : UInt32) : ∃ s,
    Counter.run [0, 0, 1, 1, 0, 1] ⟨c, fun _ => .start⟩ = some s ∧
    s.threads 0 = .returned c ∧ s.threads 1 = .returned c ∧ s.counter = c + 1 :=
  ⟨_, rfl, rfl, rfl, rfl⟩

/-- If the calls of `n` threads do not overlap (in any order of the threads), the i-th call returns
the starting counter plus i, so for fewer than 2^32 calls all are different. -/
theorem C73_serial_partial (c : UInt32) (order : List Nat) (hnodup : order.Nodup)
    (hlen : order.length ≤ 2 ^ 32) :
    ∃ s, Counter.run (order.flatMap (fun t => [t, t, t])) ⟨c, fun _ => .start⟩ = some s ∧
      (∀ i, ∀ h : i < order.length, s.threads order[i] = .returned (c + UInt32.ofNat i)) ∧
      (∀ i j, ∀ hi : i < order.length, ∀ hj : j < order.length, i ≠ j →
        s.threads order[i] ≠ s.threads order[j]) := by
  have key : ∀ (order : List Nat) (c : UInt32) (th : Nat → Counter.Phase), order.Nodup →
      (∀ t ∈ order, th t = .start) →
      ∃ s, Counter.run (order.flatMap (fun t => [t, t, t])) ⟨c, th⟩ = some s ∧
        (∀ i, ∀ h : i < order.length, s.threads order[i] = .returned (c + UInt32.ofNat i)) ∧
        (∀ t, t ∉ order → s.threads t = th t) := by
    intro order
    induction order with
    | nil => intro c th _ _; exact ⟨_, rfl, by simp, by simp⟩
    | cons t ts ih =>
      intro c th hnd hst
      rw [List.nodup_cons] at hnd
      have ht : th t = .start := hst t (by simp)
      obtain ⟨s, hrun, hvals, hrest⟩ := ih (c + 1)
        (fun u => if u = t then .returned c else th u) hnd.2 (by
          intro u hu
          have : u ≠ t := by rintro rfl; exact hnd.1 hu
          simp [this, hst u (by simp [hu])])
      refine ⟨s, ?_, ?_, ?_⟩
      · have h3 : ∀ rest, Counter.run (t :: t :: t :: rest) ⟨c, th⟩ =
            Counter.run rest ⟨c + 1, fun u => if u = t then .returned c else th u⟩ := by
          intro rest
          simp only [Counter.run, Counter.act, ht, Option.bind_some, if_true]
          congr 2
          funext u
          by_cases hu : u = t <;> simp [hu]
        simp only [List.flatMap_cons, List.cons_append, List.nil_append]
        rw [h3]
        exact hrun
      · intro i hi
        cases i with
        | zero =>
          simp only [List.getElem_cons_zero]
          rw [hrest t hnd.1]
          simp
        | succ i =>
          simp only [List.getElem_cons_succ]
          rw [hvals i (by simpa using hi)]
          rw [UInt32.ofNat_add, UInt32.add_assoc, UInt32.add_comm 1]
          rfl
      · intro u hu
        simp only [List.mem_cons, not_or] at hu
        rw [hrest u hu.2]
        simp [hu.1]
  obtain ⟨s, hrun, hvals, -⟩ := key order c (fun _ => .start) hnodup (by simp)
  refine ⟨s, hrun, hvals, ?_⟩
  intro i j hi hj hij
  rw [hvals i hi, hvals j hj]
  intro hc
  simp only [Counter.Phase.returned.injEq] at hc
  have h1 : UInt32.ofNat i = UInt32.ofNat j := by
    have := congrArg (fun x => x - c) hc
    simpa [UInt32.add_comm c] using this
  have h2 := congrArg UInt32.toNat h1
  simp only [UInt32.toNat_ofNat'] at h2
  omega

end VF
