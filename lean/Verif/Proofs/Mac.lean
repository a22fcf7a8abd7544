import Verif.Spec.Mac
import Verif.Proofs.LiveRun
import Verif.Proofs.LiveEnds

/-! # The device on macOS: what the driver and the run loop do with reports -/

namespace VF.Mac

open Fido Hid Spec.Mac
open Live (reportOf)
open scoped List

variable {E : Env} {cfg : Client.Config} {grow : Nat → Nat → Nat}

/-- All goroutines have ended. -/
def Quiet (s : Live.State) : Prop := ∀ r ∈ s.hid.routines, r.phase = .done

theorem waits_iff (s : State) : s.waits = true ↔ Quiet s.live := by
  unfold State.waits Quiet
  rw [List.all_eq_true]
  constructor
  · intro h r hr
    have := h r hr
    cases hp : r.phase <;> rw [hp] at this <;> first | rfl | cases this
  · intro h r hr
    rw [h r hr]

/-- Reports come in one at a time. -/
def Serial (E : Env) (cfg : Client.Config) (grow : Nat → Nat → Nat) : Live.State → List Live.Event → Prop
  | _, [] => True
  | s, e :: es => (∀ m, e = .report m → Quiet s) ∧ ∀ s', s.step E cfg grow e = some s' → Serial E cfg grow s' es

theorem Serial.append {evs evs' : List Live.Event} : ∀ {s s' : Live.State}, Serial E cfg grow s evs →
    s.run E cfg grow evs = some s' → Serial E cfg grow s' evs' → Serial E cfg grow s (evs ++ evs') := by
  induction evs with
  | nil => intro s s' _ h h'; cases h; exact h'
  | cons e evs ih =>
    intro s s' h hr h'
    refine ⟨h.1, ?_⟩
    intro s1 h1
    rw [Live.State.run, h1] at hr
    exact ih (h.2 s1 h1) hr h'

theorem Serial.at {evs1 evs2 : List Live.Event} {m : Bytes} : ∀ {s s1 : Live.State},
    Serial E cfg grow s (evs1 ++ .report m :: evs2) → s.run E cfg grow evs1 = some s1 → Quiet s1 := by
  induction evs1 with
  | nil => intro s s1 h hr; cases hr; exact h.1 m rfl
  | cons e evs1 ih =>
    intro s s1 h hr
    obtain ⟨s2, h2, h3⟩ := Option.bind_eq_some_iff.mp hr
    exact ih (h.2 s2 h2) h3

/-- The part of a history inside the process. -/
structure Inner (E : Env) (cfg : Client.Config) (grow : Nat → Nat → Nat) (s : State) (evs : List Event) (s' : State)
    (levs : List Live.Event) : Prop where
  run : s.live.run E cfg grow levs = some s'.live
  serial : Serial E cfg grow s.live levs
  api : ∀ op, .api op ∈ levs → Event.inside (.api op) ∈ evs
  order : levs.filterMap reportOf ++ s'.saved <+ s.saved ++ sent evs
  paced : Paced E cfg grow s evs → levs.filterMap reportOf ++ s'.saved = s.saved ++ sent evs
  noticed : s.saved.length ≤ s.notices → s'.saved.length ≤ s'.notices
  held : s.saved.length ≤ 17 → s'.saved.length ≤ 17

theorem sent_cons (e : Event) (evs : List Event) : sent (e :: evs) = (sentOf e).toList ++ sent evs := by
  unfold sent
  rw [List.filterMap_cons]
  rcases sentOf e <;> rfl

theorem paced_tail {s s1 : State} {e : Event} {evs : List Event} (h : Paced E cfg grow s (e :: evs))
    (h1 : s.step E cfg grow e = some s1) : Paced E cfg grow s1 evs := by
  intro evs1 evs2 s2 m heq hr
  refine h (e :: evs1) evs2 s2 m (by rw [heq]; rfl) ?_
  rw [State.run, h1]
  exact hr

theorem reportOf_none {e : Live.Event} (h : isReport e = false) : reportOf e = none := by
  cases e <;> first | rfl | cases h

theorem inner (evs : List Event) : ∀ {s s' : State}, s.run E cfg grow evs = some s' →
    ∃ levs, Inner E cfg grow s evs s' levs := by
  induction evs with
  | nil =>
    intro s s' h
    cases h
    exact ⟨[], rfl, trivial, fun op h => (by cases h), (by simp [sent]), fun _ => (by simp [sent]), id, id⟩
  | cons e evs ih =>
    intro s s' h
    obtain ⟨s1, h1, h2⟩ := Option.bind_eq_some_iff.mp h
    obtain ⟨levs, i⟩ := ih h2
    cases e with
    | setReport m =>
      cases h1
      refine ⟨levs, i.run, i.serial, fun op h => List.mem_cons_of_mem _ (i.api op h), ?_, ?_, ?_, ?_⟩
      · refine i.order.trans ?_
        rw [sent_cons]
        show (State.setReport s m).saved ++ sent evs <+ s.saved ++ ([m] ++ sent evs)
        rw [← List.append_assoc]
        refine List.Sublist.append_right ?_ _
        unfold State.setReport
        dsimp only
        refine List.Sublist.append_right ?_ _
        split
        · exact List.tail_sublist _
        · exact List.Sublist.refl _
      · intro hp
        rw [i.paced (paced_tail hp rfl), sent_cons]
        have := hp [] evs s m rfl rfl
        show (State.setReport s m).saved ++ sent evs = s.saved ++ ([m] ++ sent evs)
        unfold State.setReport maxSavedFrames
        dsimp only
        rw [if_neg (by omega), List.append_assoc]
      · intro hn
        refine i.noticed ?_
        unfold State.setReport
        dsimp only
        split
        · simp; omega
        · simp; omega
      · intro hn
        refine i.held ?_
        unfold State.setReport maxSavedFrames
        dsimp only
        split
        · simp; omega
        · simp; omega
    | notice =>
      replace h1 : s.notice E cfg grow = some s1 := h1
      unfold State.notice at h1
      split at h1
      · cases h1
      · rename_i hc
        split at h1
        · rename_i hs
          cases h1
          refine ⟨levs, i.run, i.serial, fun op h => List.mem_cons_of_mem _ (i.api op h), ?_, ?_, ?_, ?_⟩
          · have := i.order
            rw [sent_cons]
            exact this
          · intro hp
            rw [i.paced (paced_tail hp (by
              show s.notice E cfg grow = _
              unfold State.notice
              rw [if_neg hc, hs])), sent_cons]
            rfl
          · intro _
            refine i.noticed ?_
            dsimp only
            rw [hs]; simp
          · exact fun h => i.held h
        · rename_i frame rest hs
          obtain ⟨l, hl, rfl⟩ := Option.map_eq_some_iff.mp h1
          refine ⟨.report frame :: levs, ?_, ?_, ?_, ?_, ?_, ?_, ?_⟩
          · rw [Live.State.run, hl]
            exact i.run
          · refine ⟨fun _ _ => (waits_iff s).mp (by simp at hc; exact hc.2), ?_⟩
            intro s2 h3
            rw [hl] at h3
            cases h3
            exact i.serial
          · intro op h
            rcases List.mem_cons.mp h with h | h
            · cases h
            · exact List.mem_cons_of_mem _ (i.api op h)
          · have := i.order
            rw [sent_cons, hs]
            exact this.cons_cons frame
          · intro hp
            have := i.paced (paced_tail hp (by
              show s.notice E cfg grow = _
              unfold State.notice
              rw [if_neg hc, hs]
              dsimp only
              rw [hl]
              rfl))
            rw [sent_cons, hs]
            exact congrArg (frame :: ·) this
          · intro hn
            refine i.noticed ?_
            rw [hs] at hn
            dsimp only
            simp at hn
            omega
          · intro hn
            refine i.held ?_
            rw [hs] at hn
            dsimp only
            simp at hn
            omega
    | inside le =>
      have h0 := h1
      unfold State.step at h1
      dsimp only at h1
      split at h1
      · cases h1
      · rename_i hrep
        obtain ⟨l, hl, rfl⟩ := Option.map_eq_some_iff.mp h1
        have hro : reportOf le = none := reportOf_none (by simpa using hrep)
        refine ⟨le :: levs, ?_, ?_, ?_, ?_, ?_, i.noticed, i.held⟩
        · rw [Live.State.run, hl]
          exact i.run
        · refine ⟨fun m hm => (by subst hm; cases hro), ?_⟩
          intro s2 h3
          rw [hl] at h3
          cases h3
          exact i.serial
        · intro op h
          rcases List.mem_cons.mp h with h | h
          · rw [h]; simp
          · exact List.mem_cons_of_mem _ (i.api op h)
        · rw [sent_cons, List.filterMap_cons, hro]
          exact i.order
        · intro hp
          rw [sent_cons, List.filterMap_cons, hro]
          exact i.paced (paced_tail hp h0)

theorem grown_run (levs : List Live.Event) : ∀ {s s' : Live.State}, s.run E cfg grow levs = some s' →
    s'.hid.routines.map (·.report) = s.hid.routines.map (·.report) ++ levs.filterMap reportOf := by
  induction levs with
  | nil => intro s s' h; cases h; simp
  | cons e levs ih =>
    intro s s' h
    obtain ⟨s1, h1, h2⟩ := Option.bind_eq_some_iff.mp h
    rw [ih h2, (Live.grown_step h1).reports, List.filterMap_cons]
    rcases reportOf e <;> simp

/-- Every packet sent has 64 bytes. -/
theorem packet_length {s : Live.State} {handled refused : List Bytes} {calls : List Spec.Calls.Call} {sent : List Msg}
    (inv : Reports.Inv s.hid handled refused calls sent) : ∀ p ∈ s.hid.out, p.length = 64 := by
  intro p hp
  have h := inv.outs
  have hm : p ∈ (sent.map Msg.packets).flatten := by rw [← h]; exact List.mem_append_left _ hp
  obtain ⟨l, h1, h2⟩ := List.mem_flatten.mp hm
  obtain ⟨m, -, rfl⟩ := List.mem_map.mp h1
  exact responseLoop_length _ _ _ _ _ p h2

theorem sendFrame_64 {p : Bytes} (h : p.length = 64) : sendFrame p = some p := by
  unfold sendFrame
  rw [h, if_pos (by omega), if_neg (by decide)]
  congr 1
  rw [List.take_of_length_le]
  rw [h]; decide

theorem filterMap_id {α : Type} {f : α → Option α} : ∀ {l : List α}, (∀ a ∈ l, f a = some a) → l.filterMap f = l
  | [], _ => rfl
  | a :: l, h => by
    rw [List.filterMap_cons, h a (by simp)]
    exact congrArg (a :: ·) (filterMap_id fun b hb => h b (by simp [hb]))

end VF.Mac
