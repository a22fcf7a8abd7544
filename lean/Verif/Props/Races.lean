import Verif.Proofs.MacSequential
import Verif.Props.Mac
import Verif.Spec.Races

/-!
# Who uses the table of channels (C111)
-/

namespace VF.Props

open VF VF.Fido VF.Spec.Races VF.Spec.Mac

variable {E : Env} {cfg : Client.Config} {grow : Nat → Nat → Nat} {p0 : Overlap.Process}

theorem handle_table {s : Reports.State} {i p ticket : Nat} {c : Reports.Chan} {report : Bytes}
    (hc : c.channelId ≠ Hid.broadcastChannel) : (s.handle grow i p ticket c report).table = s.table := by
  unfold Reports.State.handle
  split
  · rfl
  · split
    · split
      · rfl
      · split
        · rfl
        · split
          · rfl
          · unfold Reports.State.data
            split
            · rfl
            · split
              · rfl
              · split <;> rfl
    · rfl

/-- Only a goroutine with the lock of the broadcast channel changes the table. -/
theorem changes_inside {s : Live.State} {i : Nat} (h : ChangesTable E cfg grow s i) :
    ∃ r p c, s.hid.routines[i]? = some r ∧ r.phase = .inside p ∧ s.hid.chans[p]? = some c ∧ c.channelId = Hid.broadcastChannel := by
  obtain ⟨s', hs, hne⟩ := h
  unfold Live.State.step at hs
  split at hs
  · obtain ⟨h, hst, rfl⟩ := Option.map_eq_some_iff.mp hs
    have hne : h.table ≠ s.hid.table := by
      intro he
      apply hne
      unfold Live.State.enter
      split <;> exact he
    unfold Reports.State.step at hst
    split at hst
    · cases hst
    · dsimp only at hst
      split at hst
      · cases hst
      · rename_i r hr
        unfold Reports.State.turn at hst
        split at hst
        · split at hst
          · cases hst
            exact absurd rfl hne
          · split at hst <;> (cases hst; exact absurd rfl hne)
        · split at hst
          · cases hst
          · split at hst <;> (cases hst; try exact absurd rfl hne)
        · rename_i p hp
          split at hst
          · cases hst
          · rename_i c hc
            cases hst
            by_cases hb : c.channelId = Hid.broadcastChannel
            · exact ⟨r, p, c, hr, hp, hc, hb⟩
            · exact absurd (handle_table hb) hne
        · cases hst
        · split at hst <;> (cases hst; try exact absurd rfl hne)
        · cases hst
          exact absurd rfl hne
        · rename_i p _
          cases hst
          cases p <;> exact absurd rfl hne
        · cases hst
  · cases hs

/-- Over USB/IP, whatever the order of steps: no two goroutines change the table at the same time. -/
theorem C111_one_writer (evs : List Live.Event) {s : Live.State} (hrun : (Live.State.start p0).run E cfg grow evs = some s)
    (hcr : s.hid.crashed = false) (h64 : ∀ m, .report m ∈ evs → m.length ≤ 64)
    (hcount : (evs.filterMap Live.reportOf).length < 4294967295) {i j : Nat}
    (hi : ChangesTable E cfg grow s i) (hj : ChangesTable E cfg grow s j) : i = j := by
  have h64' : ∀ m ∈ evs.filterMap Live.reportOf, m.length ≤ 64 := by
    intro m hm
    obtain ⟨e, he, h⟩ := List.mem_filterMap.mp hm
    cases e with
    | report b =>
      cases h
      exact h64 _ he
    | _ => cases h
  obtain ⟨handled, refused, calls, sent, oevs, inv, -⟩ := Live.live_run evs hrun hcr h64' hcount
  obtain ⟨r, p, c, h1, h2, h3, h4⟩ := changes_inside hi
  obtain ⟨r', p', c', h1', h2', h3', h4'⟩ := changes_inside hj
  have t1 := (inv.table_iff Hid.broadcastChannel p).2 ⟨c, h3, h4⟩
  have t2 := (inv.table_iff Hid.broadcastChannel p').2 ⟨c', h3', h4'⟩
  rw [t1] at t2
  obtain rfl := Option.some.inj t2
  rw [h3] at h3'
  obtain rfl := Option.some.inj h3'
  have k1 := (inv.hold p c i h3).2 ⟨r, h1, by rw [h2]; rfl⟩
  have k2 := (inv.hold p c j h3).2 ⟨r', h1', by rw [h2']; rfl⟩
  rw [k1] at k2
  exact Option.some.inj k2

theorem handle_routines (s : Reports.State) (rs : List Reports.Routine) (i p ticket : Nat) (c : Reports.Chan) (report : Bytes) :
    (({ s with routines := rs } : Reports.State).handle grow i p ticket c report).table = (s.handle grow i p ticket c report).table := by
  unfold Reports.State.handle
  split
  · rfl
  · split
    · split
      · rfl
      · split
        · rfl
        · split
          · rfl
          · split
            · unfold Reports.State.broadcast
              split
              · split <;> rfl
              · split <;> rfl
            · unfold Reports.State.data
              split
              · rfl
              · split
                · rfl
                · split <;> rfl
    · rfl

/-- Over USB/IP: whenever a goroutine is about to create a channel, a report that comes in has a second goroutine look at
the table at the same time, for which the Go runtime may end the process. -/
theorem C111_race {s : Live.State} {i : Nat} (h : ChangesTable E cfg grow s i) {m : Bytes} (hm : 4 ≤ m.length) :
    ∃ s', s.step E cfg grow (.report m) = some s' ∧ Race E cfg grow s' := by
  obtain ⟨r, p, c, h1, h2, h3, h4⟩ := changes_inside h
  obtain ⟨s1, hs, hne⟩ := h
  unfold Live.State.step at hs
  split at hs
  · rename_i ha
    obtain ⟨h, hst, rfl⟩ := Option.map_eq_some_iff.mp hs
    have hne : h.table ≠ s.hid.table := by
      intro he
      apply hne
      unfold Live.State.enter
      split <;> exact he
    unfold Reports.State.step at hst
    split at hst
    · cases hst
    · rename_i hc
      dsimp only at hst
      rw [h1] at hst
      dsimp only at hst
      unfold Reports.State.turn at hst
      rw [h2] at hst
      dsimp only at hst
      rw [h3] at hst
      dsimp only at hst
      cases hst
      have hl : i < s.hid.routines.length := (List.getElem?_eq_some_iff.mp h1).1
      refine ⟨{ s with hid := s.hid.arrive m }, ?_, i, s.hid.routines.length, by omega, ⟨?_, ?_⟩, Or.inr ?_⟩
      · unfold Live.State.step
        rw [if_pos ha]
        dsimp only
        unfold Reports.State.step
        rw [if_neg hc]
        rfl
      · exact ({ s with hid := (s.hid.arrive m).handle grow i p s.proc.threads.length c r.report } : Live.State).enter E cfg i
      · constructor
        · unfold Live.State.step
          rw [if_pos ha]
          dsimp only
          unfold Reports.State.step
          rw [if_neg (show ¬ (s.hid.arrive m).crashed = true from hc)]
          have e1 : (s.hid.arrive m).routines[i]? = some r := by
            unfold Reports.State.arrive
            dsimp only
            rw [List.getElem?_append_left hl]
            exact h1
          dsimp only
          rw [e1]
          dsimp only
          unfold Reports.State.turn
          rw [h2]
          dsimp only
          rw [show (s.hid.arrive m).chans = s.hid.chans from rfl, h3]
          rfl
        · have e : (({ s with hid := (s.hid.arrive m).handle grow i p s.proc.threads.length c r.report } : Live.State).enter E cfg i).hid =
              (s.hid.arrive m).handle grow i p s.proc.threads.length c r.report := by
            unfold Live.State.enter
            split <;> rfl
          rw [e]
          have e2 := handle_routines (grow := grow) s.hid (s.hid.routines ++ [⟨m, .arrived, none⟩]) i p s.proc.threads.length c r.report
          unfold Reports.State.arrive
          rw [e2]
          exact hne
      · match m, hm with
        | a :: b :: c :: d :: rest, _ =>
          exact ⟨⟨a :: b :: c :: d :: rest, .arrived, none⟩, _, rest, by simp [Reports.State.arrive], rfl, rfl⟩
  · cases hs

/-- On macOS there is no such race, whether or not the embedding program calls the API. -/
theorem C111_mac_no_race (evs : List Mac.Event) {s : Mac.State} (hrun : (Mac.State.start p0).run E cfg grow evs = some s)
    (hcr : s.live.hid.crashed = false) : ¬ Race E cfg grow s.live := by
  rintro ⟨i, j, hij, hi, hj⟩
  obtain ⟨r, p, c, h1, h2, -, -⟩ := changes_inside hi
  have k1 := Mac.C107_one_at_a_time evs hrun hcr h1 (by rw [h2]; simp)
  rcases hj with hj | ⟨r', cid, rest, h1', h2', -⟩
  · obtain ⟨r', p', c', h1', h2', -, -⟩ := changes_inside hj
    have k2 := Mac.C107_one_at_a_time evs hrun hcr h1' (by rw [h2']; simp)
    omega
  · have k2 := Mac.C107_one_at_a_time evs hrun hcr h1' (by rw [h2']; simp)
    omega

/-- On macOS, where the embedding program does not call the API meanwhile, at most one operation is at work in the
authenticator. -/
theorem C111_mac_one_operation (hfree : ∀ t ∈ p0.threads, Spec.Overlap.busy t = false) (evs : List Mac.Event) {s : Mac.State}
    (hrun : (Mac.State.start p0).run E cfg grow evs = some s) (hapi : NoApi evs) (hcr : s.live.hid.crashed = false)
    {i j : Nat} {t u : Overlap.Thread} (hi : s.live.proc.threads[i]? = some t) (hj : s.live.proc.threads[j]? = some u)
    (ht : Spec.Overlap.busy t = true) (hu : Spec.Overlap.busy u = true) : i = j := by
  obtain ⟨levs, inn⟩ := Mac.inner evs hrun
  obtain ⟨oevs, l⟩ := Mac.lone_run levs (Mac.lone_start hfree) inn.run hcr inn.serial (fun op hm => hapi op (inn.api op hm))
  obtain ⟨i', r, p, cid, cmd, payload, h1, h2⟩ := l.working i t hi ht
  obtain ⟨j', r', p', cid', cmd', payload', h1', h2'⟩ := l.working j u hj hu
  have e := l.single i' j' r r' h1 h1' (by rw [h2]; simp) (by rw [h2']; simp)
  subst e
  rw [h1] at h1'
  obtain rfl := Option.some.inj h1'
  rw [h2] at h2'
  injection h2'

/-! ## A host asks for a channel, and another report comes in -/

/-- The hypotheses of `C111_one_writer` and `C111_race` hold: a device just started, and the report that asks for a channel. -/
example : ∃ s, Live.Example.at' [.report Live.Example.initReport, .step 0, .step 0] = some s ∧ s.hid.crashed = false ∧
    ChangesTable (Toy.toy Toy.agree) (Toy.config false) Live.Example.grow0 s 0 := by
  have h : (Live.Example.at' [.report Live.Example.initReport, .step 0, .step 0]).bind (fun s =>
      (s.step (Toy.toy Toy.agree) (Toy.config false) Live.Example.grow0 (.step 0)).map fun s' =>
        (s.hid.crashed, s.hid.table 1, s'.hid.table 1)) = some (false, none, some 1) := by decide +kernel
  obtain ⟨s, hs, h⟩ := Option.bind_eq_some_iff.mp h
  obtain ⟨s', hs', h⟩ := Option.map_eq_some_iff.mp h
  simp only [Prod.mk.injEq] at h
  refine ⟨s, hs, h.1, s', hs', fun he => ?_⟩
  have := congrFun he 1
  rw [h.2.1, h.2.2] at this
  cases this

end VF.Props
