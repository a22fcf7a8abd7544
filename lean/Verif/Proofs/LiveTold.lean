import Verif.Proofs.LiveRun

/-! # The device at work: channels that were announced are open -/

namespace VF.Reports

open Util Hid Spec.Ctaphid Spec.Service Spec.Calls

/-- The packets a goroutine has still to send. -/
def Phase.packets : Phase → List Bytes
  | .sending _ xs => xs
  | .writing _ xs => xs
  | _ => []

/-- No announcement, or one of a channel that is open. -/
def Says (s : State) (x : Bytes) : Prop :=
  ∀ nonce cid, nonce.length = 8 → x = initAnswer nonce cid → s.table cid ≠ none

def Told (s : State) : Prop :=
  (∀ x ∈ s.out, Says s x) ∧ ∀ r ∈ s.routines, ∀ x ∈ r.phase.packets, Says s x

theorem responseLoop_command (cid : UInt32) (cmd : UInt8) (fuel k : Nat) (p : Bytes)
    (hk : p.length ≤ 59 * (128 - k)) :
    ∀ x ∈ responseLoop cid cmd fuel (k : Int) p, ∃ c : UInt8, commandOf x = some c ∧ c.toNat < 128 := by
  induction fuel generalizing k p with
  | zero => intro x hx; simp [responseLoop] at hx
  | succ fuel ih =>
    by_cases hp : p = []
    · subst hp
      rw [responseLoop_nil]
      intro x hx; cases hx
    · have hpos : p.length > 0 := List.length_pos_iff.mpr hp
      rw [responseLoop_cont cid cmd fuel k p hp]
      intro x hx
      rcases List.mem_cons.mp hx with rfl | hx
      · refine ⟨UInt8.ofNat k, by simp [le32, commandOf], ?_⟩
        simp [UInt8.toNat_ofNat']; omega
      · exact ih (k + 1) (p.drop 59) (by simp; omega) x hx

theorem packets_command {cid : UInt32} {cmd : UInt8} {p : Bytes} (hp : p.length ≤ 7609) {x : Bytes}
    (hx : x ∈ createResponsePackets cid cmd p) :
    commandOf x = some cmd ∨ ∃ c : UInt8, commandOf x = some c ∧ c.toNat < 128 := by
  unfold createResponsePackets at hx
  by_cases h0 : p = []
  · subst h0
    rw [responseLoop_nil] at hx; cases hx
  · obtain ⟨fuel, hf⟩ : ∃ fuel, p.length = fuel + 1 :=
      ⟨p.length - 1, by have := List.length_pos_iff.mpr h0; omega⟩
    rw [hf, responseLoop_init cid cmd fuel p h0] at hx
    rcases List.mem_cons.mp hx with rfl | hx
    · left; simp [le32, be16, commandOf]
    · exact .inr (responseLoop_command cid cmd fuel 0 (p.drop 57) (by simp; omega) x hx)

theorem initAnswer_command (nonce : Bytes) (cid : UInt32) : commandOf (initAnswer nonce cid) = some 0x86 := rfl

theorem initAnswer_channel (nonce : Bytes) (cid : UInt32) : channelOf (initAnswer nonce cid) = some 0xFFFFFFFF := by
  simp [initAnswer, channelOf]
  decide

/-- Messages with other commands are no announcements. -/
theorem says_other {s : State} {cid : UInt32} {cmd : UInt8} {p : Bytes} (hp : p.length ≤ 7609) (hc : cmd ≠ 0x86)
    {x : Bytes} (hx : x ∈ createResponsePackets cid cmd p) : Says s x := by
  rintro nonce id - rfl
  rcases packets_command hp hx with h | ⟨c, h, hlt⟩
  · rw [initAnswer_command] at h
    exact absurd (Option.some.inj h).symm hc
  · rw [initAnswer_command] at h
    rw [← Option.some.inj h] at hlt
    exact absurd hlt (by decide)

/-- Nor are messages on other channels. -/
theorem says_elsewhere {s : State} {cid : UInt32} {cmd : UInt8} {p : Bytes} (hb : cid ≠ broadcastChannel)
    {x : Bytes} (hx : x ∈ createResponsePackets cid cmd p) : Says s x := by
  rintro nonce id - rfl
  have : channelOf (initAnswer nonce id) = some cid := responseLoop_channel cid cmd p.length (-1) p _ hx
  rw [initAnswer_channel] at this
  exact absurd (Option.some.inj this).symm hb

theorem says_announcement {s : State} {nonce : Bytes} {id : UInt32} (hn : nonce.length = 8) (ht : s.table id ≠ none)
    {x : Bytes} (hx : x ∈ createResponsePackets broadcastChannel cmdInit (nonce ++ le32 id ++ [2, 0, 0, 1, 4])) :
    Says s x := by
  have hl : (nonce ++ le32 id ++ [2, 0, 0, 1, 4]).length = 17 := by simp [hn]
  rw [createResponsePackets_single _ _ _ (by intro h; rw [h] at hl; cases hl) (by rw [hl]; decide)] at hx
  rw [List.mem_singleton] at hx
  subst hx
  intro nonce' cid hn' he
  have h1 : (nonce ++ le32 id ++ [2, 0, 0, 1, 4]).length = 17 := hl
  rw [hl] at he
  have h2 : nonce ++ le32 id ++ [2, 0, 0, 1, 4] ++ List.replicate 40 (0 : UInt8) =
      nonce' ++ le32 cid ++ [2, 0, 0, 1, 4] ++ List.replicate 40 0 := by
    have := congrArg (List.drop 7) he
    simpa [initAnswer, le32, be16] using this
  have h3 : nonce ++ (le32 id ++ ([2, 0, 0, 1, 4] ++ List.replicate 40 (0 : UInt8))) =
      nonce' ++ (le32 cid ++ ([2, 0, 0, 1, 4] ++ List.replicate 40 0)) := by
    simpa only [List.append_assoc] using h2
  obtain ⟨-, h4⟩ := List.append_inj h3 (by rw [hn, hn'])
  obtain ⟨h5, -⟩ := List.append_inj h4 (by simp)
  have : id = cid := by
    have h6 := congrArg channelOf h5
    simp only [le32, channelOf, ofLe32_le32] at h6
    exact Option.some.inj h6
  rw [← this]
  exact ht

theorem Says.mono {s s' : State} {x : Bytes} (h : Says s x)
    (ht : ∀ cid, s.table cid ≠ none → s'.table cid ≠ none) : Says s' x :=
  fun nonce cid hn hx => ht cid (h nonce cid hn hx)

theorem told_new : Told State.new := by
  refine ⟨?_, ?_⟩
  · intro x hx; cases hx
  · intro r hr; cases hr

/-- What is sent and what goroutines have to send was there before or is no false announcement. -/
theorem Told.next {s s' : State} (h : Told s) (ht : ∀ cid, s.table cid ≠ none → s'.table cid ≠ none)
    (hout : ∀ x ∈ s'.out, x ∈ s.out ∨ (∃ r ∈ s.routines, x ∈ r.phase.packets) ∨ Says s' x)
    (hr : ∀ r ∈ s'.routines, ∀ x ∈ r.phase.packets, (∃ r ∈ s.routines, x ∈ r.phase.packets) ∨ Says s' x) :
    Told s' := by
  refine ⟨?_, ?_⟩
  · intro x hx
    rcases hout x hx with h1 | ⟨r, h1, h2⟩ | h1
    · exact (h.1 x h1).mono ht
    · exact (h.2 r h1 x h2).mono ht
    · exact h1
  · intro r hr' x hx
    rcases hr r hr' x hx with ⟨r, h1, h2⟩ | h1
    · exact (h.2 r h1 x h2).mono ht
    · exact h1

/-- Goroutines after one has gone on. -/
theorem goes_packets {s : State} {i : Nat} {ph : Phase} {r : Routine} (hr : r ∈ (s.goes i ph).routines) {x : Bytes}
    (hx : x ∈ r.phase.packets) : (∃ r ∈ s.routines, x ∈ r.phase.packets) ∨ x ∈ ph.packets := by
  change r ∈ s.routines.modify i _ at hr
  obtain ⟨j, hj⟩ := List.mem_iff_getElem?.mp hr
  rw [List.getElem?_modify] at hj
  obtain ⟨r0, hr0, rfl⟩ := Option.map_eq_some_iff.mp hj
  by_cases hij : i = j
  · right; simpa [hij] using hx
  · left
    exact ⟨r0, List.mem_of_getElem? hr0, by simpa [hij] using hx⟩

theorem keeping_packets {s : State} {i : Nat} {cid : UInt32} {r : Routine} (hr : r ∈ (s.keeping i cid).routines) {x : Bytes}
    (hx : x ∈ r.phase.packets) : ∃ r ∈ s.routines, x ∈ r.phase.packets := by
  change r ∈ s.routines.modify i _ at hr
  obtain ⟨j, hj⟩ := List.mem_iff_getElem?.mp hr
  rw [List.getElem?_modify] at hj
  obtain ⟨r0, hr0, rfl⟩ := Option.map_eq_some_iff.mp hj
  by_cases hij : i = j
  · exact ⟨r0, List.mem_of_getElem? hr0, by simpa [hij] using hx⟩
  · exact ⟨r0, List.mem_of_getElem? hr0, by simpa [hij] using hx⟩

/-- The step of a goroutine that says nothing new, or nothing false. -/
theorem Told.goes {s s1 : State} (h : Told s) (hr : s1.routines = s.routines) (hout : s1.out = s.out)
    (ht : ∀ cid, s.table cid ≠ none → s1.table cid ≠ none) {i : Nat} {ph : Phase}
    (hph : ∀ x ∈ ph.packets, (∃ r ∈ s.routines, x ∈ r.phase.packets) ∨ Says s1 x) : Told (s1.goes i ph) := by
  refine h.next ht (fun x hx => .inl (by rw [← hout]; exact hx)) ?_
  intro r hr' x hx
  rcases goes_packets hr' hx with h1 | h1
  · rw [hr] at h1; exact .inl h1
  · exact hph x h1

theorem told_step (grow : Nat → Nat → Nat) {s s' : State} {handled refused : List Bytes} {calls : List Call}
    {sent : List Msg} (inv : Inv s handled refused calls sent) (told : Told s) {e : Event} (h : s.step grow e = some s')
    (hcr : s'.crashed = false) : Told s' := by
  unfold State.step at h
  split at h
  · cases h
  cases e with
  | arrive m =>
    cases h
    refine told.next (fun _ h => h) (fun x hx => .inl hx) ?_
    intro r hr x hx
    change r ∈ s.routines ++ _ at hr
    rw [List.mem_append, List.mem_singleton] at hr
    rcases hr with hr | rfl
    · exact .inl ⟨r, hr, hx⟩
    · cases hx
  | keepalive i =>
    dsimp only at h
    split at h
    · split at h
      · cases h
        refine told.next (fun _ h => h) ?_ (fun r hr x hx => .inl ⟨r, hr, hx⟩)
        intro x hx
        rw [List.mem_append] at hx
        rcases hx with hx | hx
        · exact .inl hx
        · exact .inr (.inr (says_other (by decide) (by decide) hx))
      · cases h
    · cases h
  | answer i a =>
    dsimp only at h
    split at h
    · rename_i rep p ticket cid cmd payload ka hr
      split at h
      · cases h; cases hcr
      · cases h
        refine told.goes (by rfl) (by rfl) (fun _ h => h) ?_
        intro x hx
        refine .inr (says_elsewhere ?_ hx)
        obtain ⟨c, hc, hch, hh, hat⟩ := inv.holds_holder hr (p := p) (by rfl)
        have hconv := inv.conv p c hc
        rw [hat] at hconv
        generalize hcid : c.channelId = id at hconv
        cases hconv with
        | calling ks0 hk hcmd ho ha hss =>
          obtain ⟨all, window, -, h2, -⟩ := ho
          rintro rfl
          rw [hk, if_pos rfl] at h2
          simp [asked] at h2
    · cases h
  | turn i ticket =>
    dsimp only at h
    rcases hr : s.routines[i]? with _ | r
    · rw [hr] at h; cases h
    · rw [hr] at h
      dsimp only at h
      have hmem := List.mem_of_getElem? hr
      unfold State.turn at h
      split at h
      · split at h
        · cases h; cases hcr
        · split at h
          · cases h
            exact told.goes (by rfl) (by rfl) (fun _ h => h) (fun x hx => .inr (says_other (by decide) (by decide) hx))
          · cases h
            exact told.goes (by rfl) (by rfl) (fun _ h => h) (fun x hx => by cases hx)
      · split at h
        · cases h
        · split at h
          · cases h
            exact told.goes (by rfl) (by rfl) (fun _ h => h) (fun x hx => by cases hx)
          · cases h
      · rename_i p hp
        split at h
        · cases h
        · rename_i c hc
          cases h
          obtain ⟨c0, hc0, hm, hh, hat⟩ := inv.holds_holder hr (p := p) (by rw [hp]; rfl)
          rw [hc] at hc0
          cases hc0
          have hconv := inv.conv p c hc
          rw [hat, hp] at hconv
          cases hconv with
          | inside ho ha hss =>
            have hcases := handle_cases grow s i p ticket c r hm ho.fits
            have hsmall : r.report.length ≤ 64 := inv.small r (List.mem_of_getElem? hr)
            have hproj : ∀ m ∈ proj c.channelId handled, m.length ≤ 64 :=
              fun m hm => handled_small inv m (List.mem_filter.mp hm).1
            generalize s.handle grow i p ticket c r.report = s' at hcases hcr ⊢
            cases hcases with
            | crash h => rw [h] at hcr; cases hcr
            | error t code hno =>
              exact told.goes (by rfl) (by rfl) (fun _ h => h)
                (fun x hx => .inr (says_other (by show 1 ≤ 7609; decide) (by show cmdError ≠ 0x86; decide) hx))
            | cancelled t hno => exact told.goes (by rfl) (by rfl) (fun _ h => h) (fun x hx => by cases hx)
            | more t hopen => exact told.goes (by rfl) (by rfl) (fun _ h => h) (fun x hx => by cases hx)
            | init t payload data hbc hd hfrag =>
              obtain ⟨nonce, hn, rfl⟩ := hd
              refine told.goes (by rfl) (by rfl) ?_ ?_
              · intro cid hcid
                show (if cid = s.maxChannelID + 1 then some _ else s.table cid) ≠ none
                split
                · simp
                · exact hcid
              · intro x hx
                rw [hbc] at hx
                refine .inr (says_announcement hn ?_ hx)
                show (if s.maxChannelID + 1 = s.maxChannelID + 1 then some _ else s.table _) ≠ none
                rw [if_pos rfl]
                simp
            | ping t payload hfrag =>
              exact told.goes (by rfl) (by rfl) (fun _ h => h)
                (fun x hx => .inr (says_other (ho.length hproj hsmall hfrag) (by show cmdPing ≠ 0x86; decide) hx))
            | call t cmd payload hbc hcmd hfrag s1 hs1 =>
              rcases hs1 with rfl | rfl
              · exact told.goes (by rfl) (by rfl) (fun _ h => h) (fun x hx => by cases hx)
              · refine told.next (fun _ h => h) (fun x hx => .inl hx) ?_
                intro r' hr' x hx
                rcases goes_packets hr' hx with ⟨r2, h2, h3⟩ | h1
                · exact .inl (keeping_packets h2 h3)
                · cases h1
      · cases h
      · rename_i q packets hp
        split at h
        · cases h
          exact told.goes (by rfl) (by rfl) (fun _ h => h) (fun x hx => .inl ⟨r, hmem, by rw [hp]; exact hx⟩)
        · cases h
      · rename_i q x xs hp
        cases h
        refine told.next (fun _ h => h) ?_ ?_
        · intro y hy
          change y ∈ s.out ++ [x] at hy
          rw [List.mem_append, List.mem_singleton] at hy
          rcases hy with hy | rfl
          · exact .inl hy
          · exact .inr (.inl ⟨r, hmem, by rw [hp]; simp [Phase.packets]⟩)
        · intro r' hr' y hy
          rcases goes_packets hr' hy with h1 | h1
          · exact .inl h1
          · exact .inl ⟨r, hmem, by rw [hp]; exact List.mem_cons_of_mem _ h1⟩
      · rename_i q hp
        cases h
        cases q with
        | none => exact told.goes (by rfl) (by rfl) (fun _ h => h) (fun x hx => by cases hx)
        | some p => exact told.goes (by rfl) (by rfl) (fun _ h => h) (fun x hx => by cases hx)
      · cases h

end VF.Reports

namespace VF.Live

open Fido Spec.Calls Hid Spec.Service

theorem told_run {E : Env} {cfg : Client.Config} {grow : Nat → Nat → Nat} {p0 : Overlap.Process} (evs : List Event) :
    ∀ {s : State}, (State.start p0).run E cfg grow evs = some s → s.hid.crashed = false →
    (∀ m ∈ evs.filterMap reportOf, m.length ≤ 64) → (evs.filterMap reportOf).length < 4294967295 →
    Reports.Told s.hid := by
  induction evs using Props.snoc_induction with
  | h0 =>
    intro s hs _ _ _
    cases hs
    exact Reports.told_new
  | h1 evs e ih =>
    intro s hs hc h64 hcount
    rw [run_snoc] at hs
    obtain ⟨s1, h1, h2⟩ := Option.bind_eq_some_iff.mp hs
    rw [List.filterMap_append, List.length_append] at hcount
    rw [List.filterMap_append] at h64
    have hc1 := (step_crashed h2).1
    have g64 : ∀ m ∈ evs.filterMap reportOf, m.length ≤ 64 := fun m hm => h64 m (by simp [hm])
    have gc : (evs.filterMap reportOf).length < 4294967295 := by omega
    have told := ih h1 hc1 g64 gc
    obtain ⟨handled, refused, calls, sent, oevs, inv, -, -⟩ := live_run evs h1 hc1 g64 gc
    unfold State.step at h2
    split at h2
    · cases e <;> dsimp only at h2
      · obtain ⟨h, hst, rfl⟩ := Option.map_eq_some_iff.mp h2
        exact Reports.told_step grow inv told hst hc
      · rename_i i
        obtain ⟨h, hst, rfl⟩ := Option.map_eq_some_iff.mp h2
        have e1 : (({ s1 with hid := h } : State).enter E cfg i).hid = h := by
          unfold State.enter; split <;> rfl
        rw [e1] at hc ⊢
        exact Reports.told_step grow inv told hst hc
      · split at h2
        · split at h2
          · cases h2
          · cases h2; exact told
        · cases h2
      · split at h2
        · split at h2
          · obtain ⟨h, hst, rfl⟩ := Option.map_eq_some_iff.mp h2
            exact Reports.told_step grow inv told hst hc
          · cases h2
        · cases h2
      · obtain ⟨h, hst, rfl⟩ := Option.map_eq_some_iff.mp h2
        exact Reports.told_step grow inv told hst hc
      · split at h2
        · cases h2; exact told
        · cases h2
    · cases h2

end VF.Live
