import Verif.Proofs.Readable
import Verif.Proofs.LiveRun
import Verif.Spec.Harmless

/-! # The device at work, with reports it understands -/

namespace VF.Fido.Overlap

open Spec.Overlap Spec.Harmless

variable {E : Env} {cfg : Client.Config}

theorem set_ops {ts : List Thread} {j : Nat} {t t' : Thread} (hj : ts[j]? = some t) (ho : opOf t' = opOf t) :
    (ts.set j t').map opOf = ts.map opOf := by
  have hjl := (List.getElem?_eq_some_iff.1 hj).1
  apply List.ext_getElem?
  intro i
  rw [List.getElem?_map, List.getElem?_map, List.getElem?_set]
  by_cases hi : j = i
  · subst hi
    rw [if_pos rfl, if_pos hjl, hj]
    simp [ho]
  · rw [if_neg hi]

theorem moved_ops {s : Process} {j : Nat} {op : Op} {t : Thread} (hj : s.threads[j]? = some t) (ho : opOf t = op) (m : Mem)
    (p : Prog Reply) : (s.moved j op m p).threads.map opOf = s.threads.map opOf := by
  cases p with
  | fail c =>
    show ((s.threads.set j (.gone op)).map Thread.ended).map opOf = _
    rw [List.map_map, ← set_ops hj (t' := .gone op) ho.symm]
    exact List.map_congr_left fun x _ => opOf_ended x
  | ret r => exact set_ops hj ho.symm
  | act u k => exact set_ops hj ho.symm

/-- The operations of a process, panic or not. -/
theorem step_ops {s : Process} {e : Event} (h0 : s.alive = true) (hr : e ≠ .restart) (hb : e ≠ .begin .restart) :
    (s.step E cfg e).threads.map opOf = s.threads.map opOf ++ (beginning e).toList := by
  cases e with
  | restart => exact absurd rfl hr
  | begin op =>
    have e : s.step E cfg (.begin op) =
        ({ s with threads := s.threads ++ [Thread.gone op] } : Process).moved s.threads.length op s.mem
          (perform E op) := if_pos ⟨h0, fun h => hb (by rw [h])⟩
    rw [e, moved_ops (op := op) (t := .gone op) (by simp) rfl]
    simp [opOf, beginning]
  | turn j =>
    have hsame : s.threads.map opOf = s.threads.map opOf ++ (beginning (.turn j)).toList := by simp [beginning]
    unfold Process.step
    dsimp only
    split
    · rename_i op upd next hj
      rw [if_pos h0, ← hsame]
      exact moved_ops hj rfl _ _
    · exact hsame

end VF.Fido.Overlap

namespace VF.Live

open Fido Spec.Overlap Spec.Calls Hid Spec.Service Spec.Readable Spec.Harmless

variable {E : Env} {cfg : Client.Config} {grow : Nat → Nat → Nat} {p0 : Overlap.Process}

theorem enter_hid (s : State) (i : Nat) : (s.enter E cfg i).hid = s.hid := by
  unfold State.enter
  split <;> rfl

/-- What a step of the device is to its HID server. -/
theorem step_hid {s s' : State} {e : Event} (h : s.step E cfg grow e = some s') :
    s'.hid = s.hid ∨ ∃ ev, (∀ i, ev ≠ .answer i none) ∧ s.hid.step grow ev = some s'.hid := by
  unfold State.step at h
  split at h
  · cases e with
    | report m =>
      obtain ⟨x, h1, rfl⟩ := Option.map_eq_some_iff.1 h
      exact .inr ⟨_, by simp, h1⟩
    | step i =>
      obtain ⟨x, h1, rfl⟩ := Option.map_eq_some_iff.1 h
      exact .inr ⟨.turn i s.proc.threads.length, by simp, by rw [enter_hid]; exact h1⟩
    | work k =>
      dsimp only at h
      split at h
      · split at h
        · cases h
        · cases h; exact .inl rfl
      · cases h
    | «return» i =>
      dsimp only at h
      split at h
      · split at h
        · obtain ⟨x, h1, rfl⟩ := Option.map_eq_some_iff.1 h
          exact .inr ⟨_, by simp, h1⟩
        · cases h
      · cases h
    | keepalive i =>
      obtain ⟨x, h1, rfl⟩ := Option.map_eq_some_iff.1 h
      exact .inr ⟨_, by simp, h1⟩
    | api op =>
      dsimp only at h
      split at h
      · cases h; exact .inl rfl
      · cases h
  · cases h

theorem live_fine (evs : List Event) : ∀ {s : State}, (State.start p0).run E cfg grow evs = some s →
    (∀ m ∈ evs.filterMap reportOf, Readable m) → (evs.filterMap reportOf).length < 4294967295 → Reports.Fine s.hid := by
  induction evs using Props.snoc_induction with
  | h0 =>
    intro s hs _ _
    cases hs
    refine ⟨?_, rfl⟩
    intro p c hp t ht
    obtain rfl := List.mem_singleton.1 (List.mem_of_getElem? hp)
    cases ht
  | h1 evs e ih =>
    intro s hs hm hcount
    rw [run_snoc] at hs
    obtain ⟨s0, h0, h1⟩ := Option.bind_eq_some_iff.1 hs
    rw [List.filterMap_append] at hm hcount
    rw [List.length_append] at hcount
    have hm0 : ∀ m ∈ evs.filterMap reportOf, Readable m := fun m h => hm m (List.mem_append_left _ h)
    have hf := ih h0 hm0 (by omega)
    obtain ⟨handled, refused, calls, sent, oevs, inv, tied, -⟩ :=
      live_run evs h0 hf.2 (fun m h => Nat.le_of_eq (hm0 m h).1) (by omega)
    rcases step_hid h1 with h2 | ⟨ev, h2, h3⟩
    · rw [h2]; exact hf
    · refine Reports.fine_step grow hf h3 h2 ?_ inv.about
      intro r hr
      refine hm0 _ ?_
      rw [← tied.arrived]
      exact List.mem_map_of_mem hr

/-- What a step of the device is to its authenticator. -/
theorem step_proc {s s' : State} {e : Event} (h : s.step E cfg grow e = some s') :
    s'.proc = s.proc ∨ ∃ ev, ev ≠ .restart ∧ ev ≠ .begin .restart ∧ s'.proc = s.proc.step E cfg ev := by
  unfold State.step at h
  split at h
  · cases e with
    | report m => obtain ⟨x, h1, rfl⟩ := Option.map_eq_some_iff.1 h; exact .inl rfl
    | step i =>
      obtain ⟨x, h1, rfl⟩ := Option.map_eq_some_iff.1 h
      unfold State.enter
      split
      · rename_i command payload _ _
        refine .inr ⟨.begin (operation command payload), by simp, fun h => ?_, rfl⟩
        injection h with h
        unfold operation at h
        split at h <;> cases h
      · exact .inl rfl
    | work k =>
      dsimp only at h
      split at h
      · split at h
        · cases h
        · cases h; exact .inr ⟨.turn k, by simp, by simp, rfl⟩
      · cases h
    | «return» i =>
      dsimp only at h
      split at h
      · split at h
        · obtain ⟨x, h1, rfl⟩ := Option.map_eq_some_iff.1 h; exact .inl rfl
        · cases h
      · cases h
    | keepalive i => obtain ⟨x, h1, rfl⟩ := Option.map_eq_some_iff.1 h; exact .inl rfl
    | api op =>
      dsimp only at h
      split at h
      · rename_i ha
        cases h
        refine .inr ⟨.begin op, by simp, ?_, rfl⟩
        rintro h
        injection h with h
        subst h
        simp [isApi] at ha
      · cases h
  · cases h

/-- The authenticator's part in a history, with the operations it was given. -/
theorem live_ops (evs : List Event) : ∀ {s : State}, (State.start p0).run E cfg grow evs = some s →
    ∃ oevs : List Overlap.Event, s.proc = p0.run E cfg oevs ∧ .restart ∉ oevs ∧
      s.proc.threads.map opOf = p0.threads.map opOf ++ oevs.filterMap beginning := by
  induction evs using Props.snoc_induction with
  | h0 =>
    intro s hs
    cases hs
    exact ⟨[], rfl, by simp, by simp [State.start]⟩
  | h1 evs e ih =>
    intro s hs
    rw [run_snoc] at hs
    obtain ⟨s0, h0, h1⟩ := Option.bind_eq_some_iff.1 hs
    obtain ⟨oevs, g1, g2, g3⟩ := ih h0
    rcases step_proc h1 with h2 | ⟨ev, h2, h3, h4⟩
    · exact ⟨oevs, by rw [h2, g1], g2, by rw [h2, g3]⟩
    · refine ⟨oevs ++ [ev], ?_, ?_, ?_⟩
      · rw [h4, g1, Overlap.run_snoc]
      · simp only [List.mem_append, List.mem_singleton, not_or]
        exact ⟨g2, fun h => h2 h.symm⟩
      · rw [h4, Overlap.step_ops (step_crashed h1).2 h2 h3, g3, List.filterMap_append, List.append_assoc]
        congr 2

end VF.Live
