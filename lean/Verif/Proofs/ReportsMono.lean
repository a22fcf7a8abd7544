import Verif.Proofs.ReportsInside
import Verif.Props.Log

/-! # Reports handled at the same time: what never goes back -/

namespace VF.Reports

open Util Hid Spec.Ctaphid Spec.Service Spec.Calls

/-- The goroutines and their reports stay, and a report dealt with stays so. -/
structure Mono (s s' : State) : Prop where
  reports : s'.routines.map (·.report) = s.routines.map (·.report)
  taken : ∀ (j : Nat) (r : Routine), s.routines[j]? = some r → r.phase.taken = true →
    ∃ r', s'.routines[j]? = some r' ∧ r'.phase.taken = true

theorem Mono.refl {s s' : State} (h : s'.routines = s.routines) : Mono s s' :=
  ⟨by rw [h], fun j r h1 h2 => ⟨r, by rw [h]; exact h1, h2⟩⟩

theorem Mono.trans {a b c : State} (h1 : Mono a b) (h2 : Mono b c) : Mono a c :=
  ⟨h2.reports.trans h1.reports, fun j r hr ht => by
    obtain ⟨r', h3, h4⟩ := h1.taken j r hr ht
    exact h2.taken j r' h3 h4⟩

theorem modify_mono {s : State} (i : Nat) (f : Routine → Routine) (hrep : ∀ r, (f r).report = r.report)
    (ht : ∀ r, s.routines[i]? = some r → r.phase.taken = true → (f r).phase.taken = true) :
    Mono s { s with routines := s.routines.modify i f } := by
  refine ⟨?_, ?_⟩
  · apply List.ext_getElem?
    intro j
    simp only [List.getElem?_map, List.getElem?_modify]
    rcases s.routines[j]? with _ | r
    · split <;> rfl
    · split <;> simp [hrep]
  · intro j r hr h
    dsimp only
    rw [List.getElem?_modify, hr]
    by_cases hij : i = j
    · subst hij
      exact ⟨f r, by simp, ht r hr h⟩
    · exact ⟨r, by simp [hij], h⟩

theorem goes_mono {s s0 : State} (h0 : s0.routines = s.routines) (i : Nat) (ph : Phase)
    (ht : ph.taken = true ∨ ∀ r, s.routines[i]? = some r → r.phase.taken = false) : Mono s (s0.goes i ph) := by
  refine (Mono.refl h0).trans ?_
  refine modify_mono i _ (fun _ => rfl) ?_
  intro r hr hrt
  rcases ht with h | h
  · exact h
  · rw [h0] at hr
    rw [h r hr] at hrt; cases hrt

theorem leave_mono {s s0 : State} (h0 : s0.routines = s.routines) (i : Nat) (q : Option Nat) : Mono s (s0.leave i q) := by
  cases q with
  | none => exact goes_mono h0 i .done (.inl (by rfl))
  | some p =>
    unfold State.leave
    exact goes_mono (s0 := (s0.setTx p none).setHolder p none) h0 i .done (.inl (by rfl))

theorem broadcast_mono {s s0 : State} (h0 : s0.routines = s.routines) (i p : Nat) (header : Header) (payload : Slice) :
    Mono s (s0.broadcast i p header payload) := by
  unfold State.broadcast
  split
  · split
    · exact Mono.refl h0
    · exact goes_mono (s0 := s0.alloc) h0 i _ (.inl (by rfl))
  · split
    · exact goes_mono h0 i _ (.inl (by rfl))
    · exact Mono.refl h0

theorem data_mono {s s0 : State} (h0 : s0.routines = s.routines) (i p ticket : Nat) (cid : UInt32) (header : Header)
    (payload : Slice) : Mono s (s0.data i p ticket cid header payload) := by
  unfold State.data
  split
  · exact goes_mono h0 i _ (.inl (by rfl))
  · split
    · refine (Mono.refl h0).trans ?_
      refine (modify_mono (s := s0) i (fun r => { r with keepalive := some cid }) (fun _ => rfl)
        (fun _ _ h => h)).trans ?_
      exact goes_mono (s := s0.keeping i cid) (by rfl) i _ (.inl (by rfl))
    · split
      · exact goes_mono h0 i _ (.inl (by rfl))
      · exact Mono.refl h0

theorem handle_mono (grow : Nat → Nat → Nat) (s : State) (i p ticket : Nat) (c : Chan) (report : Bytes) :
    Mono s (s.handle grow i p ticket c report) := by
  unfold State.handle
  split
  · exact Mono.refl rfl
  · rename_i t _
    split
    · split
      · exact goes_mono (s0 := s.setTx p (some t)) (by rfl) i _ (.inl (by rfl))
      · split
        · exact leave_mono (s0 := s.setTx p (some t)) (by rfl) i _
        · split
          · exact Mono.refl rfl
          · split
            · exact broadcast_mono (s0 := s.setTx p (some t)) (by rfl) i p _ _
            · exact data_mono (s0 := s.setTx p (some t)) (by rfl) i p ticket _ _ _
    · exact goes_mono (s0 := (s.setTx p (some t)).setHolder p none) (by rfl) i _ (.inl (by rfl))

theorem turn_mono (grow : Nat → Nat → Nat) {s s' : State} {i ticket : Nat} {r : Routine}
    (hr : s.routines[i]? = some r) (h : s.turn grow i ticket r = some s') : Mono s s' := by
  have hold : r.phase.taken = false → ∀ x, s.routines[i]? = some x → x.phase.taken = false := by
    intro ht x hx
    rw [hr] at hx; cases hx; exact ht
  unfold State.turn at h
  split at h
  · rename_i hp
    split at h
    · cases h; exact Mono.refl rfl
    · split at h
      · cases h; exact goes_mono (by rfl) i _ (.inl (by rfl))
      · cases h; exact goes_mono (by rfl) i _ (.inr (hold (by rw [hp]; rfl)))
  · rename_i p hp
    split at h
    · cases h
    · split at h
      · cases h; exact goes_mono (s0 := s.setHolder p (some i)) (by rfl) i _ (.inr (hold (by rw [hp]; rfl)))
      · cases h
  · split at h
    · cases h
    · cases h; exact handle_mono grow s i _ ticket _ _
  · cases h
  · split at h
    · cases h; exact goes_mono (s0 := { s with responses := some i }) (by rfl) i _ (.inl (by rfl))
    · cases h
  · rename_i q x xs hp
    cases h; exact goes_mono (s0 := { s with out := s.out ++ [x] }) (by rfl) i _ (.inl (by rfl))
  · cases h; exact leave_mono (s0 := { s with responses := none }) (by rfl) i _
  · cases h

/-- The report of an event. -/
def arrival : Event → Option Bytes
  | .arrive m => some m
  | _ => none

theorem step_mono (grow : Nat → Nat → Nat) {s s' : State} {e : Event} (h : s.step grow e = some s') :
    s'.routines.map (·.report) = s.routines.map (·.report) ++ (arrival e).toList ∧
    ∀ (j : Nat) (r : Routine), s.routines[j]? = some r → r.phase.taken = true →
      ∃ r', s'.routines[j]? = some r' ∧ r'.phase.taken = true := by
  have key : ∀ {s1}, Mono s s1 → arrival e = none →
      s1.routines.map (·.report) = s.routines.map (·.report) ++ (arrival e).toList ∧
      ∀ (j : Nat) (r : Routine), s.routines[j]? = some r → r.phase.taken = true →
        ∃ r', s1.routines[j]? = some r' ∧ r'.phase.taken = true := by
    intro s1 hm he
    refine ⟨?_, hm.taken⟩
    rw [hm.reports, he]
    simp
  unfold State.step at h
  split at h
  · cases h
  cases e with
  | arrive m =>
    cases h
    refine ⟨by simp [State.arrive, arrival], ?_⟩
    intro j r hr ht
    refine ⟨r, ?_, ht⟩
    show (s.routines ++ _)[j]? = _
    rw [List.getElem?_append_left (List.getElem?_eq_some_iff.mp hr).1, hr]
  | turn i ticket =>
    dsimp only at h
    rcases hr : s.routines[i]? with _ | r
    · rw [hr] at h; cases h
    · rw [hr] at h
      exact key (turn_mono grow hr h) rfl
  | answer i a =>
    dsimp only at h
    split at h
    · split at h
      · cases h; exact key (Mono.refl rfl) rfl
      · cases h; exact key (goes_mono (by rfl) i _ (.inl (by rfl))) rfl
    · cases h
  | keepalive i =>
    dsimp only at h
    split at h
    · split at h
      · cases h; exact key (Mono.refl rfl) rfl
      · cases h
    · cases h

end VF.Reports
