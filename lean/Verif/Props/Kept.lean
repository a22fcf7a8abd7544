import Verif.Proofs.Kept
import Verif.Props.Log

/-!
# What the device keeps in memory (C127)
-/

namespace VF.Props

open Reports Spec.Kept

/-- **C127.** Whatever reports of at most 64 bytes come in and in whatever order the goroutines run, no channel has
more than 7609 bytes of a request, and there are at most as many channels as reports came in, and the broadcast channel. -/
theorem C127_channel_bound (grow : Nat → Nat → Nat) {es : List Event} {s : Reports.State}
    (h : State.new.run grow es = some s) (h64 : ∀ r ∈ arrivals es, r.length ≤ 64) :
    (∀ c ∈ s.chans, collected c ≤ 7609) ∧ s.chans.length ≤ 1 + (arrivals es).length := by
  obtain ⟨k, hl⟩ := keeps_run grow keeps_new h h64
  refine ⟨?_, ?_⟩
  · intro c hc
    unfold collected
    split
    · rename_i t ht
      split
      · rename_i r hr
        exact (k.within c hc t ht r hr).1
      · omega
    · omega
  · have := k.chans
    rw [hl] at this
    simpa [State.new] using this

/-- **C127.** A channel is never given back. -/
theorem C127_channel_stays (grow : Nat → Nat → Nat) {s s' : Reports.State} {es : List Event} (h : s.run grow es = some s')
    {id : UInt32} (hi : s.table id ≠ none) : s'.table id ≠ none :=
  table_run grow h hi

/-- **C127, false:** so the number of channels has no bound but the numbers there are: for every n a host that sends n
reports has n channels, and the device waits for more. -/
theorem C127_channels_refuted (grow : Nat → Nat → Nat) (n : Nat) (hn : n < 2 ^ 32) :
    ∃ es s, State.new.run grow es = some s ∧ (arrivals es).length = n ∧ (∀ r ∈ arrivals es, r.length ≤ 64) ∧
      (∀ id : UInt32, 1 ≤ id.toNat → id.toNat ≤ n → s.table id ≠ none) ∧ s.crashed = false ∧
      ∀ r ∈ s.routines, r.phase = .done := by
  suffices ∃ es s, State.new.run grow es = some s ∧ (arrivals es).length = n ∧ (∀ r ∈ arrivals es, r.length ≤ 64) ∧
      (∀ id : UInt32, 1 ≤ id.toNat → id.toNat ≤ n → s.table id ≠ none) ∧ Idle s ∧ s.maxChannelID.toNat = n ∧
      ∀ r ∈ s.routines, r.phase = .done by
    obtain ⟨es, s, h1, h2, h3, h4, h5, -, h6⟩ := this
    exact ⟨es, s, h1, h2, h3, h4, h5.live, h6⟩
  induction n with
  | zero =>
    refine ⟨[], _, rfl, rfl, (by intro r hr; cases hr), fun id h1 h2 => by omega, ⟨⟨0, rfl, rfl⟩, rfl, rfl⟩, rfl,
      (by intro r hr; cases hr)⟩
  | succ n ih =>
    obtain ⟨es, s, h1, h2, h3, h4, h5, h6, h7⟩ := ih (by omega)
    obtain ⟨s', r1, r2, r3, r4, r5, r6⟩ := init_round grow h5
    have hm : (s.maxChannelID + 1).toNat = n + 1 := by
      rw [UInt32.toNat_add]
      have : (1 : UInt32).toNat = 1 := rfl
      omega
    refine ⟨es ++ initRound s.routines.length, s', ?_, ?_, ?_, ?_, r2, by rw [r3, hm], ?_⟩
    · rw [run_append, h1]
      exact r1
    · simp [arrivals, initRound] at h2 ⊢
      omega
    · intro r hr
      unfold arrivals at hr
      rw [List.filterMap_append] at hr
      rcases List.mem_append.1 hr with hr | hr
      · exact h3 r hr
      · simp [initRound] at hr
        subst hr
        decide
    · intro id i1 i2
      by_cases e : id.toNat = n + 1
      · have : id = s.maxChannelID + 1 := UInt32.toNat_inj.1 (by rw [hm, e])
        rw [this]
        exact r5
      · exact table_run grow r1 (h4 id i1 (by omega))
    · intro r hr
      rcases r6 r hr with h | h
      · exact h7 r h
      · exact h

/-- A level of the log is shown if the history enables it. -/
theorem shown_iff (level : Nat) (ops : List Log.Op) : shown level ops = true ↔ Spec.Log.Enabled level ops := by
  unfold shown Spec.Log.Enabled
  simp only [Bool.or_eq_true, beq_iff_eq, List.any_eq_true]
  refine or_congr Iff.rfl ⟨?_, ?_⟩
  · rintro ⟨op, h1, h2⟩
    cases op with
    | setLevel l => exact ⟨l, h1, by simpa using h2⟩
    | _ => cases h2
  · rintro ⟨l, h1, h2⟩
    exact ⟨_, h1, by simpa using h2⟩

open Log in
theorem flat_lines (l : List (Nat × Bytes)) (h : ∀ x ∈ l, x.1 ≤ 3) :
    (flat l).length = (((l.filter (·.1 == 0)).map (·.2)).flatten).length + (((l.filter (·.1 == 1)).map (·.2)).flatten).length +
      (((l.filter (·.1 == 2)).map (·.2)).flatten).length + (((l.filter (·.1 == 3)).map (·.2)).flatten).length := by
  induction l with
  | nil => rfl
  | cons a l ih =>
    have ih := ih fun x hx => h x (List.mem_cons_of_mem _ hx)
    have ha := h a List.mem_cons_self
    obtain ⟨n, b⟩ := a
    dsimp only at ha
    have : n = 0 ∨ n = 1 ∨ n = 2 ∨ n = 3 := by omega
    unfold flat at ih ⊢
    rcases this with rfl | rfl | rfl | rfl <;> simp at ih ⊢ <;> omega

open Log in
theorem flat_level {l : List (Nat × Bytes)} {n : Nat} (h : ∀ x ∈ l, x.1 = n) :
    (l.filter (·.1 == n)).map (·.2) = l.map (·.2) ∧ ∀ m, m ≠ n → (l.filter (·.1 == m)) = [] := by
  refine ⟨?_, fun m hm => ?_⟩
  · rw [List.filter_eq_self.2]
    intro x hx
    simp [h x hx]
  · rw [List.filter_eq_nil_iff]
    intro x hx
    simp [h x hx, Ne.symm hm]

open Log in
theorem rep_low {s : Log.State} {g : Ghost} (r : Rep s g) : ∀ x ∈ g.all, x.1 ≤ 3 := by
  have h1 : ∀ n, Ok1 s n → n ≤ 3 := by
    rintro n (rfl | ⟨-, rfl⟩) <;> omega
  have h2 : ∀ n, Ok2 s n → n ≤ 3 := by
    rintro n (rfl | ⟨-, h⟩)
    · omega
    · exact h1 n h
  have h3 : ∀ n, Ok3 s n → n ≤ 3 := by
    rintro n (rfl | ⟨-, h⟩)
    · omega
    · exact h2 n h
  intro x hx
  unfold Ghost.all at hx
  simp only [List.mem_append] at hx
  rcases hx with (((hx | hx) | hx) | hx) | hx
  · exact h3 _ (r.lw x hx).1
  · exact h3 _ (r.le x hx).1
  · exact h2 _ (r.ld x hx).1
  · exact h1 _ (r.lt x hx).1
  · rw [(r.lu x hx).1]; omega

/-- **C127.** Nothing that is logged is lost: what was not written to an output is in memory. -/
theorem C127_log_kept {ops : List Log.Op} {s : Log.State} (h : Log.run {} ops = .ok s) :
    buffered s + (Spec.Log.written s).length = volume 0 ops + volume 1 ops + volume 2 ops + volume 3 ops := by
  obtain ⟨g, r, hl, -⟩ := log_history ops h
  have := flat_lines g.all (rep_low r)
  unfold volume
  rw [← hl 0, ← hl 1, ← hl 2, ← hl 3]
  unfold Log.Ghost.lines
  rw [← this]
  unfold buffered Log.Ghost.all
  rw [r.u, r.t, r.d, r.e, r.w]
  simp only [Log.flat_append, List.length_append]
  omega

/-- **C127.** With an output set, the log keeps in memory just the lines of the levels that are not shown, all of them. -/
theorem C127_log_unshown {ops : List Log.Op} {s : Log.State} (h : Log.run {} ops = .ok s)
    (ho : Spec.Log.output ops ≠ none) : buffered s = unshown ops := by
  obtain ⟨g, r, hl, f0, f1, f2, f3⟩ := log_history ops h
  have he : g.e = [] := r.oe (by rw [f3]; exact Option.isSome_iff_ne_none.2 ho)
  have m01 : s.unsafeOut = true → s.traceOut = true := by
    rw [f0, f1]
    rintro ⟨l, h1, h2⟩
    exact ⟨l, h1, by omega⟩
  have m12 : s.traceOut = true → s.debugOut = true := by
    rw [f1, f2]
    rintro ⟨l, h1, h2⟩
    exact ⟨l, h1, by omega⟩
  have s0 : shown 0 ops = s.unsafeOut := by
    rw [Bool.eq_iff_iff, shown_iff, f0]
    simp [Spec.Log.Enabled]
  have s1 : shown 1 ops = s.traceOut := by
    rw [Bool.eq_iff_iff, shown_iff, f1]
    simp [Spec.Log.Enabled]
  have s2 : shown 2 ops = s.debugOut := by
    rw [Bool.eq_iff_iff, shown_iff, f2]
    simp [Spec.Log.Enabled]
  have s3 : shown 3 ops = true := by simp [shown]
  have hu : ∀ x ∈ g.u, x.1 = 0 := fun x hx => (r.lu x hx).1
  have ht : ∀ x ∈ g.t, x.1 = 1 := by
    intro x hx
    rcases (r.lt x hx).1 with h | ⟨h, -⟩
    · exact h
    · rw [r.ot (m01 h)] at hx; cases hx
  have hd : ∀ x ∈ g.d, x.1 = 2 := by
    intro x hx
    rcases (r.ld x hx).1 with h | ⟨h, -⟩
    · exact h
    · rw [r.od (m12 h)] at hx; cases hx
  have v : ∀ lv, volume lv ops = ((g.w.filter (·.1 == lv)).map (·.2)).flatten.length +
      ((g.d.filter (·.1 == lv)).map (·.2)).flatten.length + ((g.t.filter (·.1 == lv)).map (·.2)).flatten.length +
      ((g.u.filter (·.1 == lv)).map (·.2)).flatten.length := by
    intro lv
    unfold volume
    rw [← hl lv]
    unfold Log.Ghost.lines Log.Ghost.all
    rw [he]
    simp only [List.append_nil, List.filter_append, List.map_append, List.flatten_append, List.length_append]
  have hw : ∀ lv, lv < 3 → (lv = 0 → s.unsafeOut = false) → (lv = 1 → s.traceOut = false) → (lv = 2 → s.debugOut = false) →
      g.w.filter (·.1 == lv) = [] := by
    intro lv h3 a0 a1 a2
    rw [List.filter_eq_nil_iff]
    intro x hx hlv
    have hlv : x.1 = lv := by simpa using hlv
    rcases (r.lw x hx).1 with h | ⟨h, h'⟩
    · omega
    · rcases h' with h' | ⟨h1, h'⟩
      · rw [a2 (by omega)] at h; cases h
      · rcases h' with h' | ⟨h2, h'⟩
        · rw [a1 (by omega)] at h1; cases h1
        · rw [a0 (by omega)] at h2; cases h2
  obtain ⟨u1, u2⟩ := flat_level hu
  obtain ⟨t1, t2⟩ := flat_level ht
  obtain ⟨d1, d2⟩ := flat_level hd
  have b0 : s.unsafeBuf.length = if shown 0 ops then 0 else volume 0 ops := by
    rw [s0, r.u]
    split
    · rename_i h; rw [r.ou h]; rfl
    · rename_i h
      rw [v, hw 0 (by omega) (fun _ => by simpa using h) (by omega) (by omega), d2 0 (by omega), t2 0 (by omega), u1]
      simp [Log.flat]
  have b1 : s.traceBuf.length = if shown 1 ops then 0 else volume 1 ops := by
    rw [s1, r.t]
    split
    · rename_i h; rw [r.ot h]; rfl
    · rename_i h
      rw [v, hw 1 (by omega) (by omega) (fun _ => by simpa using h) (by omega), d2 1 (by omega), u2 1 (by omega), t1]
      simp [Log.flat]
  have b2 : s.debugBuf.length = if shown 2 ops then 0 else volume 2 ops := by
    rw [s2, r.d]
    split
    · rename_i h; rw [r.od h]; rfl
    · rename_i h
      rw [v, hw 2 (by omega) (by omega) (by omega) (fun _ => by simpa using h), t2 2 (by omega), u2 2 (by omega), d1]
      simp [Log.flat]
  have b3 : s.enabledBuf.length = 0 := by rw [r.e, he]; rfl
  unfold buffered unshown
  rw [b0, b1, b2, b3]
  have : List.range 4 = [0, 1, 2, 3] := rfl
  rw [this]
  simp only [List.filter_cons, List.filter_nil, s3]
  cases shown 0 ops <;> cases shown 1 ops <;> cases shown 2 ops <;> simp <;> omega

/-- A line of level Trace, as for every command of USB/IP (usbip_server.go:12 and 106). -/
def traceLine : Log.Op := .print 1 (ascii "[USBIP] ") (ascii "[MESSAGE HEADER]")

/-- The output is set and then the level Debug, as in the demo; then `n` lines of level Trace. -/
def traced (n : Nat) : List Log.Op := [.setOutput (some 0), .setLevel 2] ++ List.replicate n traceLine

/-- **C127, false:** so what the log keeps has no bound: at level Debug, as in the demo, each line of level Trace is
kept for ever. -/
theorem C127_log_refuted (n : Nat) : ∃ s, Log.run {} (traced n) = .ok s ∧ n ≤ buffered s := by
  have hp : ∀ (s : Log.State) (k : Nat), ∃ s', Log.run s (List.replicate k traceLine) = .ok s' := by
    intro s k
    induction k generalizing s with
    | zero => exact ⟨s, rfl⟩
    | succ k ih => exact ih _
  obtain ⟨s, hs⟩ : ∃ s, Log.run {} (traced n) = .ok s := hp _ n
  refine ⟨s, hs, ?_⟩
  rw [C127_log_unshown hs]
  · have h1 : shown 1 (traced n) = false := by
      simp [shown, traced, traceLine]
    have h2 : volume 1 (traced n) ≤ unshown (traced n) := by
      unfold unshown
      have : List.range 4 = [0, 1, 2, 3] := rfl
      rw [this]
      simp only [List.filter_cons, List.filter_nil, h1]
      cases shown 0 (traced n) <;> cases shown 2 (traced n) <;> cases shown 3 (traced n) <;> simp <;> omega
    refine Nat.le_trans ?_ h2
    have : ∀ k, k ≤ ((Spec.Log.lines 1 (List.replicate k traceLine))).flatten.length := by
      intro k
      induction k with
      | zero => exact Nat.zero_le _
      | succ k ih =>
        rw [List.replicate_succ]
        have e : Spec.Log.lines 1 (traceLine :: List.replicate k traceLine) =
            ascii "[USBIP] [MESSAGE HEADER]\n" :: Spec.Log.lines 1 (List.replicate k traceLine) := rfl
        rw [e, List.flatten_cons, List.length_append]
        have : 1 ≤ (ascii "[USBIP] [MESSAGE HEADER]\n").length := by decide
        omega
    exact this n
  · have : ∀ k (o : Option Nat), (List.replicate k traceLine).foldl
        (fun out op => match op with | .setOutput o => o | _ => out) o = o := by
      intro k o
      induction k with
      | zero => rfl
      | succ k ih => exact ih
    have e := this n (some 0)
    show Spec.Log.output (traced n) ≠ none
    have : Spec.Log.output (traced n) = some 0 := e
    rw [this]
    simp

/-- The reports of a request of 7609 bytes on channel 1, after INIT. -/
def longest : List Event :=
  initRound 0 ++ (.arrive ([1, 0, 0, 0, 0x81, 0x1d, 0xb9] ++ List.replicate 57 7) :: List.replicate 3 (.turn 1 0)) ++
    (List.range 128).flatMap fun i =>
      .arrive ([1, 0, 0, 0, i.toUInt8] ++ List.replicate 59 7) :: List.replicate 3 (.turn (i + 2) 0)

/-- The hypotheses of `C127_channel_bound` hold of a history in which 7609 bytes are reached. -/
theorem C127_case : (∀ r ∈ arrivals longest, r.length ≤ 64) ∧
    (State.new.run (fun _ n => n) longest).map (fun s => s.chans.map collected) = some [0, 7609] := by
  refine ⟨by decide +kernel, by decide +kernel⟩

end VF.Props
