import Verif.Model.Live
import Verif.Proofs.ReportsMono
import Verif.Proofs.OverlapPin

/-! # The device at work: calls of the HID server and operations of the authenticator -/

namespace VF.Reports

open Util Hid Spec.Ctaphid Spec.Service Spec.Calls

variable {s : State} {handled refused : List Bytes} {calls : List Call} {sent : List Msg}

/-- A goroutine waiting for the authenticator has a call without an answer. -/
theorem Inv.calling_mem (inv : Inv s handled refused calls sent) {i p ticket : Nat} {cid : UInt32} {cmd : UInt8}
    {payload : Bytes} {r : Routine} (hr : s.routines[i]? = some r)
    (hp : r.phase = .calling p ticket cid cmd payload) :
    (⟨i, ticket, cid, cmd, payload, none⟩ : Call) ∈ calls ∧ channelOf r.report = some cid := by
  obtain ⟨c, hc, hch, hh, hat⟩ := inv.holds_holder hr (p := p) (by rw [hp]; rfl)
  have hconv := inv.conv p c hc
  rw [hat, hp] at hconv
  generalize hcid : c.channelId = id at hconv
  cases hconv with
  | calling ks0 hk hcmd ho ha hss =>
    have : (⟨i, ticket, cid, cmd, payload, none⟩ : Call) ∈ callsOn cid calls := by rw [hk]; simp
    exact ⟨(List.mem_filter.mp this).1, by rw [hch, hcid]⟩

/-- A call without an answer has a goroutine that waits for it. -/
theorem Inv.unanswered (inv : Inv s handled refused calls sent) {k : Call} (hk : k ∈ calls) (ha : k.answer = none) :
    ∃ (r : Routine) (p : Nat), s.routines[k.report]? = some r ∧
      r.phase = .calling p k.number k.channel k.command k.payload := by
  have hmem : k ∈ callsOn k.channel calls := List.mem_filter.mpr ⟨hk, by simp⟩
  have hno : ¬ Answered (callsOn k.channel calls) := by
    intro h
    have := h k hmem
    rw [ha] at this; cases this
  rcases ht : s.table k.channel with _ | p
  · have hc := inv.closed k.channel ht
    cases hc with
    | idle ho ha hss => exact absurd ha hno
  · obtain ⟨c, hc, hid⟩ := (inv.table_iff k.channel p).mp ht
    have hconv := inv.conv p c hc
    rw [hid] at hconv
    rcases hh : c.holder with _ | i
    · rw [hh] at hconv
      cases hconv with
      | idle ho ha hss => exact absurd ha hno
    · obtain ⟨r, hr, hp⟩ := (inv.hold p c i hc).mp hh
      have hat : s.holderAt c.holder = some (i, r.phase) := by rw [hh]; simp [State.holderAt, hr]
      rw [hat] at hconv
      generalize hph : r.phase = ph at hconv
      cases hconv with
      | inside ho ha hss => exact absurd ha hno
      | sending ms h1 h2 h3 ho ha hss => exact absurd ha hno
      | writing ho ha hss => exact absurd ha hno
      | calling ks0 hks hcmd ho ha0 hss =>
        rw [hks, List.mem_append] at hmem
        rcases hmem with h | h
        · have := ha0 k h
          rw [ha] at this; cases this
        · rw [List.mem_singleton] at h
          exact ⟨r, _, by rw [h]; exact hr, by rw [hph, h]⟩

end VF.Reports

namespace VF.Fido.Overlap

open Spec.Overlap

variable {E : Env} {cfg : Client.Config}

/-- A goroutine keeps its place and operation, and a result stays. -/
theorem step_keeps (s : Process) {e : Event} (he : e ≠ .restart) {k : Nat} {t : Thread}
    (h : s.threads[k]? = some t) : ∃ t', (s.step E cfg e).threads[k]? = some t' ∧ opOf t' = opOf t ∧
      ∀ op r, t = .ready op r → t' = t := by
  have hl := (List.getElem?_eq_some_iff.mp h).1
  have key : ∀ (ts : List Thread) (i : Nat) (op : Op) (mem : Mem) (p : Prog Reply), ts[k]? = some t →
      (k = i → opOf t = op ∧ ∀ op' r, t ≠ .ready op' r) →
      ∃ t', (({ s with threads := ts } : Process).moved i op mem p).threads[k]? = some t' ∧ opOf t' = opOf t ∧
        ∀ op r, t = .ready op r → t' = t := by
    intro ts i op mem p hk hi
    have hl := (List.getElem?_eq_some_iff.mp hk).1
    have hset : ∀ u : Thread, opOf u = op → ∃ t', (ts.set i u)[k]? = some t' ∧ opOf t' = opOf t ∧
        ∀ op r, t = .ready op r → t' = t := by
      intro u hu
      rw [List.getElem?_set]
      by_cases h1 : i = k
      · obtain ⟨h2, h3⟩ := hi h1.symm
        exact ⟨u, by simp [h1, hl], by rw [hu, h2], fun op r h4 => absurd h4 (h3 op r)⟩
      · exact ⟨t, by simp [h1, hk], rfl, fun _ _ _ => rfl⟩
    unfold Process.moved
    split
    · obtain ⟨t', h1, h2, h3⟩ := hset (.gone op) rfl
      refine ⟨t'.ended, by dsimp only; rw [List.getElem?_map, h1]; rfl, by rw [opOf_ended, h2], ?_⟩
      intro op r h4
      have h5 := h3 op r h4
      rw [h5, h4]; rfl
    · exact hset _ (opOf_settle op _)
  cases e with
  | restart => exact absurd rfl he
  | begin op =>
    unfold Process.step
    dsimp only
    split
    · refine key _ _ _ _ _ (by rw [List.getElem?_append_left hl, h]) ?_
      intro h1; omega
    · exact ⟨t, h, rfl, fun _ _ _ => rfl⟩
  | turn i =>
    unfold Process.step
    dsimp only
    split
    · rename_i op upd next hw
      split
      · refine key s.threads _ _ _ _ h ?_
        intro h1
        subst h1
        rw [hw] at h
        cases h
        exact ⟨rfl, fun _ _ h => by cases h⟩
      · exact ⟨t, h, rfl, fun _ _ _ => rfl⟩
    · exact ⟨t, h, rfl, fun _ _ _ => rfl⟩

theorem begin_adds (s : Process) {op : Op} (ha : s.alive = true) (ho : op ≠ .restart) :
    ∃ t, (s.step E cfg (.begin op)).threads[s.threads.length]? = some t ∧ opOf t = op := by
  unfold Process.step
  dsimp only
  rw [if_pos ⟨ha, ho⟩]
  unfold Process.moved
  split
  · exact ⟨.gone op, by simp [List.getElem?_append_right, Thread.ended], rfl⟩
  · exact ⟨_, by simp; rfl, opOf_settle op _⟩

theorem moved_length (s : Process) (i : Nat) (op : Op) (mem : Mem) (p : Prog Reply) :
    (s.moved i op mem p).threads.length = s.threads.length := by
  unfold Process.moved
  split <;> simp

/-- Where the operations of goroutines come from. -/
theorem step_from (s : Process) {e : Event} (he : e ≠ .restart) {k : Nat} {t : Thread}
    (h : (s.step E cfg e).threads[k]? = some t) :
    (∃ u, s.threads[k]? = some u ∧ opOf t = opOf u) ∨ (k = s.threads.length ∧ e = .begin (opOf t)) := by
  by_cases hk : k < s.threads.length
  · obtain ⟨t', h1, h2, -⟩ := step_keeps (E := E) (cfg := cfg) s he (List.getElem?_eq_getElem hk)
    rw [h] at h1
    cases h1
    exact .inl ⟨_, List.getElem?_eq_getElem hk, h2⟩
  · have hl := (List.getElem?_eq_some_iff.mp h).1
    cases e with
    | restart => exact absurd rfl he
    | turn i =>
      exfalso
      unfold Process.step at hl
      dsimp only at hl
      split at hl
      · split at hl
        · rw [moved_length] at hl; omega
        · omega
      · omega
    | begin op =>
      by_cases hc : s.alive = true ∧ op ≠ .restart
      · obtain ⟨t', h1, h2⟩ := begin_adds (E := E) (cfg := cfg) s hc.1 hc.2
        have h3 : k = s.threads.length := by
          unfold Process.step at hl
          dsimp only at hl
          rw [if_pos hc, moved_length] at hl
          simp at hl
          omega
        subst h3
        rw [h] at h1
        cases h1
        exact .inr ⟨rfl, by rw [h2]⟩
      · exfalso
        unfold Process.step at hl
        dsimp only at hl
        rw [if_neg hc] at hl
        omega

end VF.Fido.Overlap

namespace VF.Live

open Fido Spec.Overlap Spec.Calls Hid Spec.Service

/-- Reports that came in. -/
def reportOf : Event → Option Bytes
  | .report m => some m
  | _ => none

theorem operation_ne (c : UInt8) (p : Bytes) : operation c p ≠ .restart := by
  unfold operation; split <;> simp

/-- Every call of the HID server has its own operation of the authenticator. -/
structure Tied (E : Env) (cfg : Client.Config) (p0 : Overlap.Process) (s : State) (calls : List Call)
    (reports : List Bytes) (oevs : List Overlap.Event) : Prop where
  run : s.proc = p0.run E cfg oevs
  noRestart : ∀ e ∈ oevs, e ≠ .restart
  thread : ∀ k ∈ calls, p0.threads.length ≤ k.number ∧ ∃ t, s.proc.threads[k.number]? = some t ∧
    opOf t = operation k.command k.payload ∧
    ∀ a, k.answer = some a → t = .ready (operation k.command k.payload) (.answer a)
  more : p0.threads.length ≤ s.proc.threads.length
  numbers : (calls.map (·.number)).Pairwise (· < ·)
  reportsNodup : (calls.map (·.report)).Nodup
  taken : ∀ k ∈ calls, ∃ r, s.hid.routines[k.report]? = some r ∧ r.phase.taken = true
  arrived : s.hid.routines.map (·.report) = reports
  origin : ∀ k ∈ calls, (reports[k.report]?).bind Spec.Ctaphid.channelOf = some k.channel

/-- The authenticator is given nothing but the requests of hosts and the calls of the embedding program. -/
def Only (p0 p : Overlap.Process) (calls : List Call) : Prop :=
  ∀ (k : Nat) (t : Overlap.Thread), p0.threads.length ≤ k → p.threads[k]? = some t → isApi (opOf t) = false →
    k ∈ calls.map (·.number)

theorem Only.turn {E : Env} {cfg : Client.Config} {p0 p : Overlap.Process} {calls : List Call} (h : Only p0 p calls)
    (i : Nat) : Only p0 (p.step E cfg (.turn i)) calls := by
  intro k t hk ht ha
  rcases Overlap.step_from p (by simp) ht with ⟨u, h1, h2⟩ | ⟨-, h2⟩
  · exact h k u hk h1 (by rw [← h2]; exact ha)
  · cases h2

theorem Only.api {E : Env} {cfg : Client.Config} {p0 p : Overlap.Process} {calls : List Call} (h : Only p0 p calls)
    {op : Op} (hop : isApi op = true) : Only p0 (p.step E cfg (.begin op)) calls := by
  intro k t hk ht ha
  rcases Overlap.step_from p (by simp) ht with ⟨u, h1, h2⟩ | ⟨-, h2⟩
  · exact h k u hk h1 (by rw [← h2]; exact ha)
  · cases h2
    rw [hop] at ha; cases ha

theorem Only.call {E : Env} {cfg : Client.Config} {p0 p : Overlap.Process} {calls : List Call} (h : Only p0 p calls)
    {op : Op} (c : Call) (hc : c.number = p.threads.length) : Only p0 (p.step E cfg (.begin op)) (calls ++ [c]) := by
  intro k t hk ht ha
  rw [List.map_append, List.mem_append]
  rcases Overlap.step_from p (by simp) ht with ⟨u, h1, h2⟩ | ⟨h1, -⟩
  · exact .inl (h k u hk h1 (by rw [← h2]; exact ha))
  · right
    simp [h1, hc]

section
variable {E : Env} {cfg : Client.Config} {p0 : Overlap.Process} {s : State} {calls : List Call}
  {reports : List Bytes} {oevs : List Overlap.Event}

theorem Tied.hid (t : Tied E cfg p0 s calls reports oevs) {h : Reports.State} {more : List Bytes}
    (ht : ∀ (j : Nat) (r : Reports.Routine), s.hid.routines[j]? = some r → r.phase.taken = true →
      ∃ r', h.routines[j]? = some r' ∧ r'.phase.taken = true)
    (hr : h.routines.map (·.report) = s.hid.routines.map (·.report) ++ more) :
    Tied E cfg p0 { s with hid := h } calls (reports ++ more) oevs where
  run := t.run
  noRestart := t.noRestart
  thread := t.thread
  more := t.more
  numbers := t.numbers
  reportsNodup := t.reportsNodup
  taken := by
    intro k hk
    obtain ⟨r, h1, h2⟩ := t.taken k hk
    exact ht _ r h1 h2
  arrived := by show h.routines.map _ = _; rw [hr, t.arrived]
  origin := by
    intro k hk
    have h1 := t.origin k hk
    rcases h2 : reports[k.report]? with _ | m
    · rw [h2] at h1; cases h1
    · rw [List.getElem?_append_left (List.getElem?_eq_some_iff.mp h2).1]
      exact h1

theorem Tied.proc (t : Tied E cfg p0 s calls reports oevs) {e : Overlap.Event} (he : e ≠ .restart) :
    Tied E cfg p0 { s with proc := s.proc.step E cfg e } calls reports (oevs ++ [e]) where
  run := by
    show s.proc.step E cfg e = _
    rw [t.run]
    simp [Overlap.Process.run]
  noRestart := by
    intro x hx
    rw [List.mem_append, List.mem_singleton] at hx
    rcases hx with h | h
    · exact t.noRestart x h
    · rw [h]; exact he
  thread := by
    intro k hk
    obtain ⟨h0, u, h1, h2, h3⟩ := t.thread k hk
    obtain ⟨u', g1, g2, g3⟩ := Overlap.step_keeps (E := E) (cfg := cfg) s.proc he h1
    refine ⟨h0, u', g1, by rw [g2, h2], ?_⟩
    intro a ha
    have h4 := h3 a ha
    rw [g3 _ _ h4, h4]
  more := by
    rcases Nat.eq_zero_or_pos s.proc.threads.length with h | h
    · have := t.more; omega
    · have hl : s.proc.threads.length - 1 < s.proc.threads.length := by omega
      obtain ⟨u', g1, -⟩ := Overlap.step_keeps (E := E) (cfg := cfg) s.proc he
        (List.getElem?_eq_some_iff.mpr ⟨hl, rfl⟩)
      have := (List.getElem?_eq_some_iff.mp g1).1
      have := t.more
      show p0.threads.length ≤ (s.proc.step E cfg e).threads.length
      omega
  numbers := t.numbers
  reportsNodup := t.reportsNodup
  taken := t.taken
  arrived := t.arrived
  origin := t.origin

end

/-- At most one request is added, of a report that was not dealt with before. -/
def Added (s : Reports.State) (calls calls' : List Call) : Prop :=
  calls'.map (·.report) = calls.map (·.report) ∨
  ∃ (i : Nat) (r : Reports.Routine), s.routines[i]? = some r ∧ r.phase.taken = false ∧
    calls'.map (·.report) = calls.map (·.report) ++ [i]

/-- One step keeps both. -/
theorem live_step {E : Env} {cfg : Client.Config} {grow : Nat → Nat → Nat} {p0 : Overlap.Process} {s s' : State}
    {e : Event} {handled refused : List Bytes} {calls : List Call} {sent : List Msg} {reports : List Bytes}
    {oevs : List Overlap.Event}
    (inv : Reports.Inv s.hid handled refused calls sent) (tied : Tied E cfg p0 s calls reports oevs)
    (hs : s.step E cfg grow e = some s') (hcr : s'.hid.crashed = false)
    (hsmall : ∀ m, e = .report m → m.length ≤ 64) (hcount : reports.length < 4294967295) :
    ∃ handled' refused' calls' sent' oevs', Reports.Inv s'.hid handled' refused' calls' sent' ∧
      Reports.Taking s.hid s'.hid handled refused handled' refused' ∧
      Tied E cfg p0 s' calls' (reports ++ (reportOf e).toList) oevs' ∧
      (Only p0 s.proc calls → Only p0 s'.proc calls') ∧ Added s.hid calls calls' := by
  have hlen : s.hid.routines.length < 4294967295 := by
    rw [← tied.arrived, List.length_map] at hcount; exact hcount
  unfold State.step at hs
  split at hs
  · rename_i halive
    -- a step of the HID server that is no call
    have plain : ∀ (ev : Reports.Event) (h : Reports.State), s.hid.step grow ev = some h → h.crashed = false →
        (∀ m, ev = .arrive m → m.length ≤ 64) → (∀ i t, ev ≠ .turn i t) → (∀ i a, ev ≠ .answer i a) →
        ∃ handled' refused' calls' sent' oevs', Reports.Inv h handled' refused' calls' sent' ∧
          Reports.Taking s.hid h handled refused handled' refused' ∧
          Tied E cfg p0 { s with hid := h } calls' (reports ++ (Reports.arrival ev).toList) oevs' ∧
          (Only p0 s.proc calls → Only p0 s.proc calls') ∧ Added s.hid calls calls' := by
      intro ev h hst hc hm h1 h2
      obtain ⟨handled', refused', calls', sent', hi, hn, hre⟩ := Reports.inv_step grow inv hst hc hm hlen
      obtain ⟨hr, ht⟩ := Reports.step_mono grow hst
      cases hn with
      | same => exact ⟨handled', refused', calls, sent', oevs, hi, hre, tied.hid ht hr, id, .inl rfl⟩
      | call => exact absurd rfl (h1 _ _)
      | answer => exact absurd rfl (h2 _ _)
    cases e with
    | report m =>
      obtain ⟨h, hst, rfl⟩ := Option.map_eq_some_iff.mp hs
      exact plain _ h hst hcr (fun m' hm => by cases hm; exact hsmall m rfl) (fun _ _ h => by cases h)
        (fun _ _ h => by cases h)
    | keepalive i =>
      obtain ⟨h, hst, rfl⟩ := Option.map_eq_some_iff.mp hs
      exact plain _ h hst hcr (fun m' hm => by cases hm) (fun _ _ h => by cases h) (fun _ _ h => by cases h)
    | step i =>
      obtain ⟨h, hst, rfl⟩ := Option.map_eq_some_iff.mp hs
      have hhid : (({ s with hid := h } : State).enter E cfg i).hid = h := by
        unfold State.enter; split <;> rfl
      rw [hhid] at hcr
      obtain ⟨handled', refused', calls', sent', hi, hn, hre⟩ := Reports.inv_step grow inv hst hcr (fun m' hm => by cases hm) hlen
      obtain ⟨hr, ht⟩ := Reports.step_mono grow hst
      have tied1 := tied.hid ht hr
      cases hn with
      | same =>
        refine ⟨handled', refused', calls, sent', oevs, by rw [hhid]; exact hi, by rw [hhid]; exact hre, ?_⟩
        have hen : ({ s with hid := h } : State).enter E cfg i = { s with hid := h } := by
          unfold State.enter
          dsimp only
          split
          · rename_i rep p ticket cid cmd payload kal hri
            exfalso
            have hmem := (hi.calling_mem hri rfl).1
            obtain ⟨r0, p0', hr0, hp0⟩ := inv.unanswered hmem rfl
            unfold Reports.State.step at hst
            split at hst
            · cases hst
            · dsimp only at hst hr0 hp0
              rw [hr0] at hst
              dsimp only at hst
              unfold Reports.State.turn at hst
              rw [hp0] at hst
              cases hst
          · rfl
        rw [hen]
        exact ⟨tied1, id, .inl rfl⟩
      | @call _ _ p cid cmd payload r r' h0 hta h1 hp =>
        have hen : ({ s with hid := h } : State).enter E cfg i =
            { hid := h, proc := s.proc.step E cfg (.begin (operation cmd payload)) } := by
          obtain ⟨rep, ph, kal⟩ := r'
          dsimp only at hp
          subst hp
          unfold State.enter
          dsimp only
          rw [h1]
        have tied2 := tied1.proc (e := .begin (operation cmd payload)) (by simp)
        dsimp only at tied2
        obtain ⟨t, g1, g2⟩ := Overlap.begin_adds (E := E) (cfg := cfg) s.proc halive (operation_ne cmd payload)
        refine ⟨handled', refused', _, sent', oevs ++ [.begin (operation cmd payload)], by rw [hhid]; exact hi, by rw [hhid]; exact hre, ?_⟩
        rw [hen]
        have hold : ∀ k ∈ calls, k.number < s.proc.threads.length := by
          intro k hk
          obtain ⟨-, t, q, -⟩ := tied.thread k hk
          exact (List.getElem?_eq_some_iff.mp q).1
        refine ⟨⟨tied2.run, tied2.noRestart, ?_, tied2.more, ?_, ?_, ?_, tied2.arrived, ?_⟩, fun ho => ho.call (E := E) (cfg := cfg) _ rfl,
          .inr ⟨i, r, h0, hta, by rw [List.map_append]; rfl⟩⟩
        · intro k hk
          rw [List.mem_append, List.mem_singleton] at hk
          rcases hk with hk | rfl
          · exact tied2.thread k hk
          · exact ⟨tied.more, t, g1, g2, fun a ha => by cases ha⟩
        · rw [List.map_append, List.pairwise_append]
          refine ⟨tied.numbers, by simp, ?_⟩
          intro a ha b hb
          obtain ⟨k, hk, rfl⟩ := List.mem_map.mp ha
          simp at hb
          have := hold k hk
          omega
        · rw [List.map_append, List.nodup_append]
          refine ⟨tied.reportsNodup, by simp, ?_⟩
          intro a ha b hb
          obtain ⟨k, hk, rfl⟩ := List.mem_map.mp ha
          simp at hb
          subst hb
          intro heq
          obtain ⟨r2, q1, q2⟩ := tied.taken k hk
          rw [heq, h0] at q1
          cases q1
          rw [hta] at q2; cases q2
        · intro k hk
          rw [List.mem_append, List.mem_singleton] at hk
          rcases hk with hk | rfl
          · exact tied2.taken k hk
          · exact ⟨r', h1, by rw [hp]; rfl⟩
        · intro k hk
          rw [List.mem_append, List.mem_singleton] at hk
          rcases hk with hk | rfl
          · exact tied2.origin k hk
          · have := (hi.calling_mem h1 hp).2
            have harr : h.routines.map (·.report) = reports ++ [] := tied2.arrived
            show ((reports ++ [])[i]?).bind Spec.Ctaphid.channelOf = some cid
            rw [← harr, List.getElem?_map, h1]
            exact this
    | work k =>
      dsimp only at hs
      split at hs
      · split at hs
        · cases hs
        · cases hs
          have := tied.proc (e := .turn k) (by simp)
          exact ⟨handled, refused, calls, sent, _, inv, .inl ⟨rfl, rfl⟩, by simpa [reportOf] using this, fun ho => ho.turn (E := E) (cfg := cfg) k, .inl rfl⟩
      · cases hs
    | api op =>
      dsimp only at hs
      split at hs
      · rename_i hapi
        cases hs
        have := tied.proc (e := .begin op) (by simp)
        exact ⟨handled, refused, calls, sent, _, inv, .inl ⟨rfl, rfl⟩, by simpa [reportOf] using this,
          fun ho => ho.api (E := E) (cfg := cfg) (by simp at hapi; exact hapi.1), .inl rfl⟩
      · cases hs
    | «return» i =>
      dsimp only at hs
      split at hs
      · rename_i rep p k cid cmd payload kal hri
        split at hs
        · rename_i op bytes hk
          obtain ⟨h, hst, rfl⟩ := Option.map_eq_some_iff.mp hs
          obtain ⟨handled', refused', calls', sent', hi, hn, hre⟩ := Reports.inv_step grow inv hst hcr (fun m' hm => by cases hm) hlen
          obtain ⟨hr, ht⟩ := Reports.step_mono grow hst
          cases hn with
          | same => exact ⟨handled', refused', calls, sent', oevs, hi, hre, tied.hid ht hr, id, .inl rfl⟩
          | @answer _ _ cid' r p' ticket cmd' payload' h0 hp hone hex =>
            have tied1 := tied.hid ht hr
            refine ⟨handled', refused', _, sent', oevs, hi, hre, ?_⟩
            have hsame : ticket = k ∧ cid' = cid ∧ cmd' = cmd ∧ payload' = payload := by
              rw [hri] at h0
              cases h0
              cases hp
              exact ⟨rfl, rfl, rfl, rfl⟩
            obtain ⟨rfl, rfl, rfl, rfl⟩ := hsame
            have hnum : (calls.map fun k => if k.channel = cid' ∧ k.answer = none then { k with answer := some bytes } else k).map
                (·.number) = calls.map (·.number) := by
              rw [List.map_map]
              apply List.map_congr_left
              intro k _
              simp only [Function.comp]
              split <;> rfl
            refine ⟨⟨tied1.run, tied1.noRestart, ?_, tied1.more, ?_, ?_, ?_, tied1.arrived, ?_⟩,
              fun ho k t h1 h2 h3 => by rw [hnum]; exact ho k t h1 h2 h3, .inl (by
                rw [List.map_map]
                apply List.map_congr_left
                intro k _
                simp only [Function.comp]
                split <;> rfl)⟩
            · intro x hx
              obtain ⟨y, hy, rfl⟩ := List.mem_map.mp hx
              split
              · rename_i hc
                have hy' := hone y hy hc.1 hc.2
                obtain ⟨q0, t, q1, q2, q3⟩ := tied1.thread y hy
                refine ⟨q0, t, q1, q2, ?_⟩
                intro a ha
                cases ha
                rw [hy'] at q1 q2 ⊢
                dsimp only at q1 q2 ⊢
                rw [hk] at q1
                cases q1
                rw [← q2]; rfl
              · exact tied1.thread y hy
            · rw [hnum]; exact tied.numbers
            · have : (calls.map fun k => if k.channel = cid' ∧ k.answer = none then { k with answer := some bytes } else k).map
                  (·.report) = calls.map (·.report) := by
                rw [List.map_map]
                apply List.map_congr_left
                intro k _
                simp only [Function.comp]
                split <;> rfl
              rw [this]; exact tied.reportsNodup
            · intro x hx
              obtain ⟨y, hy, rfl⟩ := List.mem_map.mp hx
              have := tied1.taken y hy
              split <;> exact this
            · intro x hx
              obtain ⟨y, hy, rfl⟩ := List.mem_map.mp hx
              have := tied1.origin y hy
              split <;> exact this
        · cases hs
      · cases hs
  · cases hs

end VF.Live
