import Verif.Proofs.LiveRun

/-! # The device at work comes to an end -/

namespace VF.Fido

/-- Whatever the handler returns satisfies `Q`. -/
def Prog.Returns {α : Type} (Q : α → Prop) : Prog α → Prop
  | .ret a => Q a
  | .fail _ => True
  | .act _ next => ∀ m, (next m).Returns Q

theorem Prog.returns_bind {α β : Type} {Q : β → Prop} (p : Prog α) (f : α → Prog β) (h : ∀ a, (f a).Returns Q) :
    (p.bind f).Returns Q := by
  induction p with
  | ret a => exact h a
  | fail c => trivial
  | act upd next ih => exact fun m => ih m

namespace Overlap

open Spec.Overlap Spec.Approval

variable {E : Env} {cfg : Client.Config}

/-- Requests are answered. -/
def Shaped (op : Op) (p : Prog Reply) : Prop := isRequest op = true → p.Returns fun r => ∃ b, r = .answer b

theorem perform_shaped (op : Op) : Shaped op (perform E op) := by
  intro h
  cases op with
  | ctap m => exact Prog.returns_bind _ _ fun b => ⟨b, rfl⟩
  | u2f m => exact Prog.returns_bind _ _ fun b => ⟨b, rfl⟩
  | _ => cases h

/-- A goroutine at work has a step to take, and will have an answer if it handles a request. -/
def Thread.Proper : Thread → Prop
  | .working op p => (∃ upd next, p = .act upd next) ∧ Shaped op p
  | .ready op r => isRequest op = true → ∃ b, r = .answer b
  | .gone _ => True

theorem settle_proper {op : Op} {p : Prog Reply} (h : Shaped op p) : (settle op p).Proper := by
  cases p with
  | ret r => exact h
  | fail c => trivial
  | act u n => exact ⟨⟨u, n, rfl⟩, h⟩

theorem ended_proper {t : Thread} (h : t.Proper) : t.ended.Proper := by
  cases t with
  | working op p => trivial
  | ready op r => exact h
  | gone op => trivial

theorem moved_proper {s : Process} (h : ∀ t ∈ s.threads, t.Proper) {i : Nat} {op : Op} {mem : Mem} {p : Prog Reply}
    (hp : Shaped op p) : ∀ t ∈ (s.moved i op mem p).threads, t.Proper := by
  have hset : ∀ u : Thread, u.Proper → ∀ t ∈ s.threads.set i u, t.Proper := by
    intro u hu t ht
    rcases List.mem_or_eq_of_mem_set ht with h1 | h1
    · exact h t h1
    · rw [h1]; exact hu
  unfold Process.moved
  split
  · intro t ht
    obtain ⟨u, hu, rfl⟩ := List.mem_map.mp ht
    exact ended_proper (hset (.gone op) trivial u hu)
  · exact hset _ (settle_proper hp)

theorem step_proper {s : Process} (h : ∀ t ∈ s.threads, t.Proper) (e : Event) :
    ∀ t ∈ (s.step E cfg e).threads, t.Proper := by
  have hended : ∀ t ∈ s.threads.map Thread.ended, t.Proper := by
    intro t ht
    obtain ⟨u, hu, rfl⟩ := List.mem_map.mp ht
    exact ended_proper (h u hu)
  cases e with
  | begin op =>
    unfold Process.step
    dsimp only
    split
    · refine moved_proper ?_ (perform_shaped op)
      intro t ht
      rcases List.mem_append.mp ht with h1 | h1
      · exact h t h1
      · rw [List.mem_singleton.mp h1]; trivial
    · exact h
  | turn i =>
    unfold Process.step
    dsimp only
    split
    · rename_i op upd next hw
      split
      · refine moved_proper h ?_
        have := (h _ (List.mem_of_getElem? hw)).2
        exact fun hr => this hr _
      · exact h
    · exact h
  | restart =>
    unfold Process.step
    dsimp only
    split
    · exact hended
    · exact hended

theorem run_proper (evs : List Event) : ∀ {s : Process}, (∀ t ∈ s.threads, t.Proper) →
    ∀ t ∈ (s.run E cfg evs).threads, t.Proper := by
  induction evs with
  | nil => intro s h; exact h
  | cons e evs ih => intro s h; exact ih (step_proper h e)

/-- While the process runs, no goroutine started after `n` is gone. -/
def Here (n : Nat) (s : Process) : Prop :=
  s.alive = true → ∀ (i : Nat) t, n ≤ i → s.threads[i]? = some t → ∀ op, t ≠ .gone op

theorem moved_here {s : Process} {n i : Nat} {op : Op} {mem : Mem} {p : Prog Reply}
    (h : s.alive = true → ∀ (j : Nat) t, n ≤ j → j ≠ i → s.threads[j]? = some t → ∀ op, t ≠ .gone op) :
    Here n (s.moved i op mem p) := by
  unfold Process.moved
  split
  · intro h1; cases h1
  · rename_i p' hp
    intro ha j t hj ht op'
    dsimp only at ht ha
    rw [List.getElem?_set] at ht
    by_cases hij : i = j
    · rw [if_pos hij] at ht
      split at ht
      · cases ht
        cases p with
        | ret r => intro h; cases h
        | fail c => exact absurd rfl (hp c)
        | act u n => intro h; cases h
      · cases ht
    · rw [if_neg hij] at ht
      exact h ha j t hj (Ne.symm hij) ht op'

theorem step_here {s : Process} {n : Nat} (h : Here n s) {e : Event} (he : e ≠ .restart) :
    Here n (s.step E cfg e) := by
  cases e with
  | begin op =>
    unfold Process.step
    dsimp only
    split
    · apply moved_here
      intro ha j t hj hne ht
      dsimp only at ht ha
      rw [List.getElem?_append] at ht
      split at ht
      · exact h ha j t hj ht
      · rename_i hl
        have hl2 := (List.getElem?_eq_some_iff.mp ht).1
        simp at hl2
        omega
    · exact h
  | turn i =>
    unfold Process.step
    dsimp only
    split
    · split
      · apply moved_here
        intro ha j t hj _ ht
        exact h ha j t hj ht
      · exact h
    · exact h
  | restart => exact absurd rfl he

theorem run_here (evs : List Event) : ∀ {s : Process} {n : Nat}, Here n s → (∀ e ∈ evs, e ≠ .restart) →
    Here n (s.run E cfg evs) := by
  induction evs with
  | nil => intro s n h _; exact h
  | cons e evs ih =>
    intro s n h hne
    exact ih (step_here h (hne e (by simp))) (fun e' he' => hne e' (by simp [he']))

theorem here_start (s : Process) : Here s.threads.length s := by
  intro _ i t hi ht
  have := (List.getElem?_eq_some_iff.mp ht).1
  omega

/-! ## Steps of operations come to an end -/

/-- A step of one goroutine. -/
def Moves (t' t : Thread) : Prop := ∃ op upd next m, t = .working op (.act upd next) ∧ t' = settle op (next m)

theorem acc_settle (op : Op) (p : Prog Reply) : Acc Moves (settle op p) := by
  induction p with
  | ret r => exact ⟨_, fun t ⟨_, _, _, _, h, _⟩ => by cases h⟩
  | fail c => exact ⟨_, fun t ⟨_, _, _, _, h, _⟩ => by cases h⟩
  | act upd next ih =>
    refine ⟨_, ?_⟩
    rintro t ⟨op', upd', next', m, h, rfl⟩
    cases h
    exact ih m

theorem acc_moves (t : Thread) : Acc Moves t := by
  cases t with
  | working op p =>
    cases p with
    | act u n => exact acc_settle op (.act u n)
    | ret r => exact ⟨_, fun t ⟨_, _, _, _, h, _⟩ => by cases h⟩
    | fail c => exact ⟨_, fun t ⟨_, _, _, _, h, _⟩ => by cases h⟩
  | ready op r => exact ⟨_, fun t ⟨_, _, _, _, h, _⟩ => by cases h⟩
  | gone op => exact ⟨_, fun t ⟨_, _, _, _, h, _⟩ => by cases h⟩

/-- A step of one goroutine among many. -/
def MovesOne (l' l : List Thread) : Prop := ∃ (k : Nat) (t t' : Thread), l[k]? = some t ∧ Moves t' t ∧ l' = l.set k t'

theorem acc_cons {t : Thread} (ht : Acc Moves t) : ∀ {l : List Thread}, Acc MovesOne l → Acc MovesOne (t :: l) := by
  induction ht with
  | intro t _ iht =>
    intro l hl
    induction hl with
    | intro l hl' ihl =>
      refine ⟨_, ?_⟩
      rintro l2 ⟨k, u, u', h1, h2, rfl⟩
      cases k with
      | zero =>
        cases h1
        rw [List.set_cons_zero]
        exact iht u' h2 ⟨_, hl'⟩
      | succ k =>
        rw [List.set_cons_succ]
        exact ihl _ ⟨k, u, u', h1, h2, rfl⟩

theorem acc_movesOne : ∀ l : List Thread, Acc MovesOne l
  | [] => ⟨_, fun l ⟨k, t, t', h, _⟩ => by simp at h⟩
  | t :: l => acc_cons (acc_moves t) (acc_movesOne l)

end Overlap
end VF.Fido

namespace VF.Live

open Fido Spec.Overlap Hid

/-- How far a goroutine of the HID server is from its end. -/
def stage : Reports.Phase → Nat
  | .arrived => 6
  | .waiting _ => 5
  | .inside _ => 4
  | .calling .. => 3
  | .sending .. => 2
  | .writing .. => 1
  | .done => 0

/-- How many packets it has yet to send. -/
def left : Reports.Phase → Nat
  | .writing _ xs => xs.length
  | _ => 0

def stages (s : State) : Nat := (s.hid.routines.map fun r => stage r.phase).sum
def lefts (s : State) : Nat := (s.hid.routines.map fun r => left r.phase).sum

theorem sum_set {l : List Reports.Routine} {i : Nat} {r r' : Reports.Routine} (f : Reports.Routine → Nat)
    (h : l[i]? = some r) : ((l.set i r').map f).sum + f r = (l.map f).sum + f r' := by
  obtain ⟨x, y, rfl, hb⟩ := Reports.split_at h
  rw [hb]
  simp
  omega

/-- A step of the device itself: of a goroutine of the HID server, of an operation, or the return of the authenticator. -/
def internal : Event → Bool
  | .step _ => true
  | .work _ => true
  | .return _ => true
  | _ => false

/-- The goroutine is then nearer to its end. -/
def Nearer (l l' : List Reports.Routine) (i : Nat) (r : Reports.Routine) : Prop :=
  ∃ r' : Reports.Routine, l' = l.set i r' ∧
    (stage r'.phase < stage r.phase ∨ stage r'.phase = stage r.phase ∧ left r'.phase < left r.phase)

section
variable {s s0 : Reports.State} {i : Nat} {r : Reports.Routine}

theorem goes_nearer (h0 : s0.routines = s.routines) (hr : s.routines[i]? = some r) {ph : Reports.Phase}
    (h : stage ph < stage r.phase) : Nearer s.routines (s0.goes i ph).routines i r := by
  have hr0 : s0.routines[i]? = some r := by rw [h0]; exact hr
  rw [Reports.goes_eq hr0]
  exact ⟨{ r with phase := ph }, by rw [← h0], .inl h⟩

theorem leave_nearer (h0 : s0.routines = s.routines) (hr : s.routines[i]? = some r) (q : Option Nat)
    (h : 0 < stage r.phase) : Nearer s.routines (s0.leave i q).routines i r := by
  cases q with
  | none => exact goes_nearer h0 hr h
  | some p => exact goes_nearer (s0 := (s0.setTx p none).setHolder p none) h0 hr h

theorem handle_nearer (grow : Nat → Nat → Nat) (hr : s.routines[i]? = some r) (h : stage r.phase = 4) (p ticket : Nat)
    {c : Reports.Chan} (hc : s.chans[p]? = some c) : (s.handle grow i p ticket c r.report).crashed = true ∨
      Nearer s.routines (s.handle grow i p ticket c r.report).routines i r := by
  unfold Reports.State.handle
  split
  · exact .inl rfl
  · rename_i t _
    split
    · split
      · exact .inr (goes_nearer (s0 := s.setTx p (some t)) (by rfl) hr (by rw [h]; show 2 < 4; decide))
      · split
        · exact .inr (leave_nearer (s0 := s.setTx p (some t)) (by rfl) hr _ (by rw [h]; decide))
        · split
          · exact .inl rfl
          · rename_i result _
            split
            · unfold Reports.State.broadcast
              split
              · split
                · exact .inl rfl
                · exact .inr (goes_nearer (s0 := (s.setTx p (some t)).alloc) (by rfl) hr (by rw [h]; show 2 < 4; decide))
              · split
                · exact .inr (goes_nearer (s0 := s.setTx p (some t)) (by rfl) hr (by rw [h]; show 2 < 4; decide))
                · exact .inl rfl
            · unfold Reports.State.data
              split
              · exact .inr (goes_nearer (s0 := s.setTx p (some t)) (by rfl) hr (by rw [h]; show 3 < 4; decide))
              · split
                · rw [Reports.keeping_goes_eq hr hc]
                  exact .inr ⟨{ r with
                    phase := .calling p ticket result.header.channelID cmdCBOR result.payload.data
                    keepalive := some c.channelId }, rfl, .inl (by rw [h]; show 3 < 4; decide)⟩
                · split
                  · exact .inr (goes_nearer (s0 := s.setTx p (some t)) (by rfl) hr (by rw [h]; show 2 < 4; decide))
                  · exact .inl rfl
    · exact .inr (goes_nearer (s0 := (s.setTx p (some t)).setHolder p none) (by rfl) hr (by rw [h]; decide))

theorem turn_nearer {grow : Nat → Nat → Nat} {s' : Reports.State} {ticket : Nat} (hr : s.routines[i]? = some r)
    (h : s.turn grow i ticket r = some s') : s'.crashed = true ∨ Nearer s.routines s'.routines i r := by
  unfold Reports.State.turn at h
  split at h
  · rename_i hp
    split at h
    · cases h; exact .inl rfl
    · split at h
      · cases h; exact .inr (goes_nearer rfl hr (by rw [hp]; show 2 < 6; decide))
      · cases h; exact .inr (goes_nearer rfl hr (by rw [hp]; show 5 < 6; decide))
  · rename_i p hp
    split at h
    · cases h
    · split at h
      · cases h; exact .inr (goes_nearer (s0 := s.setHolder p (some i)) (by rfl) hr (by rw [hp]; show 4 < 5; decide))
      · cases h
  · rename_i p hp
    split at h
    · cases h
    · rename_i hc
      cases h; exact handle_nearer grow hr (by rw [hp]; rfl) _ _ hc
  · cases h
  · rename_i q packets hp
    split at h
    · cases h
      exact .inr (goes_nearer (s0 := { s with responses := some i }) (by rfl) hr (by rw [hp]; show 1 < 2; decide))
    · cases h
  · rename_i q x xs hp
    cases h
    refine .inr ⟨{ r with phase := .writing q xs }, ?_, .inr ⟨by rw [hp]; rfl, ?_⟩⟩
    · have hr0 : ({ s with out := s.out ++ [x] } : Reports.State).routines[i]? = some r := hr
      rw [Reports.goes_eq hr0]
    · rw [hp]
      show xs.length < (x :: xs).length
      simp
  · rename_i q hp
    cases h
    exact .inr (leave_nearer (s0 := { s with responses := none }) (by rfl) hr _ (by rw [hp]; show 0 < 1; decide))
  · cases h

end

theorem nearer_sums {l l' : List Reports.Routine} {i : Nat} {r : Reports.Routine} (hr : l[i]? = some r)
    (h : Nearer l l' i r) :
    (l'.map fun r => stage r.phase).sum < (l.map fun r => stage r.phase).sum ∨
    ((l'.map fun r => stage r.phase).sum = (l.map fun r => stage r.phase).sum ∧
      (l'.map fun r => left r.phase).sum < (l.map fun r => left r.phase).sum) := by
  obtain ⟨r', rfl, h⟩ := h
  have h1 := sum_set (r' := r') (fun r => stage r.phase) hr
  have h2 := sum_set (r' := r') (fun r => left r.phase) hr
  rcases h with h | ⟨h, h'⟩
  · left; omega
  · right; omega

/-- What a step of the device itself leads to: the end of the process, or nearer to the end. -/
theorem step_nearer {E : Env} {cfg : Client.Config} {grow : Nat → Nat → Nat} {s s' : State} {e : Event}
    (h : s.step E cfg grow e = some s') (he : internal e = true) :
    (s'.hid.crashed = true ∨ s'.proc.alive = false) ∨
    stages s' < stages s ∨ (stages s' = stages s ∧ lefts s' < lefts s) ∨
    (stages s' = stages s ∧ lefts s' = lefts s ∧ Overlap.MovesOne s'.proc.threads s.proc.threads) := by
  obtain ⟨hc0, ha0⟩ := step_crashed h
  unfold State.step at h
  rw [if_pos ha0] at h
  cases e with
  | report m => cases he
  | keepalive m => cases he
  | api m => cases he
  | step i =>
    obtain ⟨h', hst, rfl⟩ := Option.map_eq_some_iff.mp h
    have hhid : (({ s with hid := h' } : State).enter E cfg i).hid = h' := by
      unfold State.enter; split <;> rfl
    unfold Reports.State.step at hst
    rw [if_neg (by rw [hc0]; decide)] at hst
    dsimp only at hst
    rcases hr : s.hid.routines[i]? with _ | r
    · rw [hr] at hst; cases hst
    · rw [hr] at hst
      dsimp only at hst
      rcases turn_nearer hr hst with h1 | h1
      · exact .inl (.inl (by rw [hhid]; exact h1))
      · right
        unfold stages lefts
        rw [hhid]
        rcases nearer_sums hr h1 with h2 | h2
        · exact .inl h2
        · exact .inr (.inl h2)
  | work k =>
    dsimp only at h
    split at h
    · rename_i op upd next hw
      split at h
      · cases h
      · cases h
        dsimp only
        have hst : s.proc.step E cfg (.turn k) = s.proc.moved k op (upd s.proc.mem) (next s.proc.mem) := by
          unfold Overlap.Process.step
          dsimp only
          rw [hw]
          dsimp only
          rw [if_pos ha0]
        rw [hst]
        rcases hn : next s.proc.mem with r | c | ⟨u, n⟩
        · exact .inr (.inr (.inr ⟨rfl, rfl, k, _, _, hw, ⟨op, upd, next, s.proc.mem, rfl, rfl⟩, by rw [hn]; rfl⟩))
        · exact .inl (.inr rfl)
        · exact .inr (.inr (.inr ⟨rfl, rfl, k, _, _, hw, ⟨op, upd, next, s.proc.mem, rfl, rfl⟩, by rw [hn]; rfl⟩))
    · cases h
  | «return» i =>
    dsimp only at h
    split at h
    · rename_i rep p k cid cmd payload kal hri
      split at h
      · obtain ⟨h', hst, rfl⟩ := Option.map_eq_some_iff.mp h
        unfold Reports.State.step at hst
        rw [if_neg (by rw [hc0]; decide)] at hst
        dsimp only at hst
        rw [hri] at hst
        cases hst
        have := goes_nearer (s := s.hid) (s0 := s.hid) rfl hri
          (ph := .sending (some p) (createResponsePackets cid cmd ‹_›)) (by show 2 < 3; decide)
        right
        rcases nearer_sums hri this with h2 | h2
        · exact .inl h2
        · exact .inr (.inl h2)
      · cases h
    · cases h

/-- `s'` follows `s` by a step of the device itself. -/
def Follows (E : Env) (cfg : Client.Config) (grow : Nat → Nat → Nat) (s' s : State) : Prop :=
  ∃ e, internal e = true ∧ s.step E cfg grow e = some s'

/-- No endless work. -/
theorem acc_follows (E : Env) (cfg : Client.Config) (grow : Nat → Nat → Nat) (s : State) :
    Acc (Follows E cfg grow) s := by
  obtain ⟨n, hn⟩ : ∃ n, stages s = n := ⟨_, rfl⟩
  induction n using Nat.strongRecOn generalizing s with
  | ind n ihn =>
    obtain ⟨k, hk⟩ : ∃ k, lefts s = k := ⟨_, rfl⟩
    induction k using Nat.strongRecOn generalizing s with
    | ind k ihk =>
      obtain ⟨l, hl⟩ : ∃ l, s.proc.threads = l := ⟨_, rfl⟩
      have hacc := Overlap.acc_movesOne l
      induction hacc generalizing s with
      | intro l _ ihl =>
        refine ⟨_, ?_⟩
        rintro s' ⟨e, he, hs⟩
        rcases step_nearer hs he with h | h | ⟨h1, h2⟩ | ⟨h1, h2, h3⟩
        · refine ⟨_, ?_⟩
          rintro s2 ⟨e2, -, hs2⟩
          obtain ⟨h3, h4⟩ := step_crashed hs2
          rcases h with h | h
          · rw [h3] at h; cases h
          · rw [h4] at h; cases h
        · exact ihn _ (by omega) s' rfl
        · exact ihk _ (by omega) s' (by omega) rfl
        · exact ihl _ (by rw [← hl]; exact h3) s' (by omega) (by omega) rfl

/-- A goroutine that can take its step. -/
theorem step_some {E : Env} {cfg : Client.Config} {grow : Nat → Nat → Nat} {s : State} (hcr : s.hid.crashed = false)
    (ha : s.proc.alive = true) {i : Nat} {r : Reports.Routine} (hr : s.hid.routines[i]? = some r)
    (h : s.step E cfg grow (.step i) = none) : s.hid.turn grow i s.proc.threads.length r = none := by
  unfold State.step at h
  rw [if_pos ha] at h
  dsimp only at h
  rw [Option.map_eq_none_iff] at h
  unfold Reports.State.step at h
  rw [if_neg (by rw [hcr]; decide)] at h
  dsimp only at h
  rw [hr] at h
  exact h

/-- Where nothing can go on, all is done. -/
theorem stuck_idle {E : Env} {cfg : Client.Config} {grow : Nat → Nat → Nat} {pre : List Overlap.Event} {s : State}
    {handled refused : List Bytes} {calls : List Spec.Calls.Call} {sent : List Msg} {reports : List Bytes}
    {oevs : List Overlap.Event} (inv : Reports.Inv s.hid handled refused calls sent)
    (tied : Tied E cfg ((Overlap.boot E cfg).run E cfg pre) s calls reports oevs)
    (hcr : s.hid.crashed = false) (ha : s.proc.alive = true)
    (hstuck : ∀ e, internal e = true → s.step E cfg grow e = none) :
    (∀ r ∈ s.hid.routines, r.phase = .done) ∧ ∀ t ∈ s.proc.threads, busy t = false := by
  have hproper : ∀ t ∈ s.proc.threads, t.Proper := by
    rw [tied.run]
    exact Overlap.run_proper _ (Overlap.run_proper _ (by intro t ht; cases ht))
  have hhere : Overlap.Here ((Overlap.boot E cfg).run E cfg pre).threads.length s.proc := by
    have := Overlap.run_here (E := E) (cfg := cfg) oevs (Overlap.here_start ((Overlap.boot E cfg).run E cfg pre)) tied.noRestart
    rw [← tied.run] at this
    exact this
  have hbusy : ∀ t ∈ s.proc.threads, busy t = false := by
    intro t ht
    cases t with
    | working op p =>
      exfalso
      obtain ⟨k, hk⟩ := List.mem_iff_getElem?.mp ht
      obtain ⟨⟨upd, next, rfl⟩, -⟩ := hproper _ ht
      have h := hstuck (.work k) rfl
      unfold State.step at h
      rw [if_pos ha] at h
      dsimp only at h
      rw [hk] at h
      dsimp only at h
      rw [if_neg (by rw [hcr]; decide)] at h
      cases h
    | ready op r => rfl
    | gone op => rfl
  refine ⟨?_, hbusy⟩
  have hturn : ∀ (i : Nat) r, s.hid.routines[i]? = some r → s.hid.turn grow i s.proc.threads.length r = none :=
    fun i r hr => step_some hcr ha hr (hstuck (.step i) rfl)
  have hw : ∀ (i : Nat) r, s.hid.routines[i]? = some r → ∀ q xs, r.phase ≠ .writing q xs := by
    intro i r hr q xs hp
    have h := hturn i r hr
    unfold Reports.State.turn at h
    rw [hp] at h
    cases xs <;> cases h
  have hresp : s.hid.responses = none := by
    rcases h : s.hid.responses with _ | i
    · rfl
    · obtain ⟨r, q, xs, h1, h2⟩ := (inv.resp i).mp h
      exact absurd h2 (hw i r h1 q xs)
  have hsend : ∀ (i : Nat) r, s.hid.routines[i]? = some r → ∀ q xs, r.phase ≠ .sending q xs := by
    intro i r hr q xs hp
    have h := hturn i r hr
    unfold Reports.State.turn at h
    rw [hp] at h
    dsimp only at h
    rw [if_pos hresp] at h
    cases h
  have hcall : ∀ (i : Nat) r, s.hid.routines[i]? = some r → ∀ p k cid cmd payload, r.phase ≠ .calling p k cid cmd payload := by
    intro i r hr p k cid cmd payload hp
    obtain ⟨hlo, t, ht, hop, -⟩ := tied.thread _ (inv.calling_mem hr hp).1
    dsimp only at hlo ht hop
    have hmem := List.mem_of_getElem? ht
    have hreq : Spec.Approval.isRequest (opOf t) = true := by
      rw [hop]
      unfold operation
      split <;> rfl
    cases t with
    | working op p => exact absurd (hbusy _ hmem) (by simp [Spec.Overlap.busy])
    | gone op => exact hhere ha k _ hlo ht op rfl
    | ready op rep =>
      obtain ⟨b, rfl⟩ := hproper _ hmem hreq
      have h := hstuck (.return i) rfl
      unfold State.step at h
      rw [if_pos ha] at h
      dsimp only at h
      obtain ⟨m, ph, kal⟩ := r
      dsimp only at hp
      subst hp
      rw [hr] at h
      dsimp only at h
      rw [ht] at h
      dsimp only at h
      rw [Option.map_eq_none_iff] at h
      unfold Reports.State.step at h
      rw [if_neg (by rw [hcr]; decide)] at h
      dsimp only at h
      rw [hr] at h
      cases h
  have hin : ∀ (i : Nat) r, s.hid.routines[i]? = some r → ∀ p, r.phase ≠ .inside p := by
    intro i r hr p hp
    have h := hturn i r hr
    obtain ⟨c, hc, -⟩ := inv.about i r p hr (by rw [hp]; rfl)
    unfold Reports.State.turn at h
    rw [hp] at h
    dsimp only at h
    rw [hc] at h
    cases h
  intro r hmem
  obtain ⟨i, hr⟩ := List.mem_iff_getElem?.mp hmem
  rcases hp : r.phase with _ | p | p | ⟨p, k, cid, cmd, payload⟩ | ⟨q, xs⟩ | ⟨q, xs⟩ | _
  · exfalso
    have h := hturn i r hr
    unfold Reports.State.turn at h
    rw [hp] at h
    dsimp only at h
    split at h
    · cases h
    · split at h <;> cases h
  · exfalso
    have h := hturn i r hr
    obtain ⟨c, hc, -⟩ := inv.about i r p hr (by rw [hp]; rfl)
    unfold Reports.State.turn at h
    rw [hp] at h
    dsimp only at h
    rw [hc] at h
    dsimp only at h
    rcases hh : c.holder with _ | j
    · rw [hh] at h; cases h
    · obtain ⟨r2, h1, h2⟩ := (inv.hold p c j hc).mp hh
      rcases hp2 : r2.phase with _ | p | p | ⟨p, k, cid, cmd, payload⟩ | ⟨q, xs⟩ | ⟨q, xs⟩ | _
      · rw [hp2] at h2; cases h2
      · rw [hp2] at h2; cases h2
      · exact hin j r2 h1 _ hp2
      · exact hcall j r2 h1 _ _ _ _ _ hp2
      · exact hsend j r2 h1 _ _ hp2
      · exact hw j r2 h1 _ _ hp2
      · rw [hp2] at h2; cases h2
  · exact absurd hp (hin i r hr p)
  · exact absurd hp (hcall i r hr _ _ _ _ _)
  · exact absurd hp (hsend i r hr _ _)
  · exact absurd hp (hw i r hr _ _)
  · rfl

end VF.Live
