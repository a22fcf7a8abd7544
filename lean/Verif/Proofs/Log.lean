import Verif.Spec.Log

/-!
# Lemmas about the log
-/

namespace VF.Log

open VF.Spec.Log

/-- The lines behind the contents of the buffers and of the outputs. -/
structure Ghost where
  u : List (Nat × Bytes)
  t : List (Nat × Bytes)
  d : List (Nat × Bytes)
  e : List (Nat × Bytes)
  w : List (Nat × Bytes)

def flat (l : List (Nat × Bytes)) : Bytes := (l.map (·.2)).flatten

theorem flat_append (a b : List (Nat × Bytes)) : flat (a ++ b) = flat a ++ flat b := by
  simp [flat]

def Ok1 (s : State) (n : Nat) : Prop := n = 1 ∨ (s.unsafeOut = true ∧ n = 0)
def Ok2 (s : State) (n : Nat) : Prop := n = 2 ∨ (s.traceOut = true ∧ Ok1 s n)
def Ok3 (s : State) (n : Nat) : Prop := n = 3 ∨ (s.debugOut = true ∧ Ok2 s n)

structure Rep (s : State) (g : Ghost) : Prop where
  u : s.unsafeBuf = flat g.u
  t : s.traceBuf = flat g.t
  d : s.debugBuf = flat g.d
  e : s.enabledBuf = flat g.e
  w : written s = flat g.w
  lu : ∀ x ∈ g.u, x.1 = 0 ∧ x.2 ≠ []
  lt : ∀ x ∈ g.t, Ok1 s x.1 ∧ x.2 ≠ []
  ld : ∀ x ∈ g.d, Ok2 s x.1 ∧ x.2 ≠ []
  le : ∀ x ∈ g.e, Ok3 s x.1 ∧ x.2 ≠ []
  lw : ∀ x ∈ g.w, Ok3 s x.1 ∧ x.2 ≠ []
  ou : s.unsafeOut = true → g.u = []
  ot : s.traceOut = true → g.t = []
  od : s.debugOut = true → g.d = []
  oe : s.enabledOut.isSome → g.e = []

theorem written_append (s : State) (w : Nat) (p : Bytes) :
    written { s with writes := s.writes ++ [(w, p)] } = written s ++ p := by
  simp [written]

/-- Flags that writing does not touch. -/
def SameFlags (s s' : State) : Prop :=
  s'.unsafeOut = s.unsafeOut ∧ s'.traceOut = s.traceOut ∧ s'.debugOut = s.debugOut ∧
    s'.enabledOut = s.enabledOut

theorem writeEnabled_rep {s : State} {g : Ghost} (r : Rep s g) {P : List (Nat × Bytes)}
    (hP : ∀ x ∈ P, Ok3 s x.1 ∧ x.2 ≠ []) :
    ∃ g', Rep (writeEnabled (flat P) s) g' ∧ SameFlags s (writeEnabled (flat P) s) ∧
      g'.u = g.u ∧ g'.t = g.t ∧ g'.d = g.d ∧ g'.w ++ g'.e = g.w ++ g.e ++ P := by
  cases ho : s.enabledOut with
  | none =>
    have eq : writeEnabled (flat P) s = { s with enabledBuf := s.enabledBuf ++ flat P } := by
      simp only [writeEnabled, ho]
    rw [eq]
    refine ⟨{ g with e := g.e ++ P }, ?_, ⟨rfl, rfl, rfl, rfl⟩, rfl, rfl, rfl, by simp⟩
    exact { r with
      e := by show s.enabledBuf ++ _ = _; rw [r.e, flat_append]
      le := by
        intro x hx
        rcases List.mem_append.1 hx with h | h
        · exact r.le x h
        · exact hP x h
      oe := by intro h; rw [show _ = s.enabledOut from rfl, ho] at h; cases h }
  | some w =>
    have eq : writeEnabled (flat P) s = { s with writes := s.writes ++ [(w, flat P)] } := by
      simp only [writeEnabled, ho]
    rw [eq]
    have he : g.e = [] := r.oe (by rw [ho]; rfl)
    refine ⟨{ g with w := g.w ++ P }, ?_, ⟨rfl, rfl, rfl, rfl⟩, rfl, rfl, rfl, by simp [he]⟩
    exact { r with
      w := by rw [written_append, r.w, flat_append]
      lw := by
        intro x hx
        rcases List.mem_append.1 hx with h | h
        · exact r.lw x h
        · exact hP x h }

theorem writeDebug_rep {s : State} {g : Ghost} (r : Rep s g) {P : List (Nat × Bytes)}
    (hP : ∀ x ∈ P, Ok2 s x.1 ∧ x.2 ≠ []) :
    ∃ g', Rep (writeDebug (flat P) s) g' ∧ SameFlags s (writeDebug (flat P) s) ∧
      g'.u = g.u ∧ g'.t = g.t ∧ g'.w ++ g'.e ++ g'.d = g.w ++ g.e ++ g.d ++ P := by
  cases ho : s.debugOut with
  | true =>
    have eq : writeDebug (flat P) s = writeEnabled (flat P) s := by simp [writeDebug, ho]
    rw [eq]
    obtain ⟨g', h1, h2, h3, h4, h5, h6⟩ := writeEnabled_rep r (P := P)
      (fun x hx => ⟨.inr ⟨ho, (hP x hx).1⟩, (hP x hx).2⟩)
    exact ⟨g', h1, h2, h3, h4, by rw [h5, h6, r.od ho]; simp⟩
  | false =>
    have eq : writeDebug (flat P) s = { s with debugBuf := s.debugBuf ++ flat P } := by
      simp [writeDebug, ho]
    rw [eq]
    refine ⟨{ g with d := g.d ++ P }, ?_, ⟨rfl, rfl, rfl, rfl⟩, rfl, rfl, by simp⟩
    exact { r with
      d := by show s.debugBuf ++ _ = _; rw [r.d, flat_append]
      ld := by
        intro x hx
        rcases List.mem_append.1 hx with h | h
        · exact r.ld x h
        · exact hP x h
      od := by intro h; rw [show _ = s.debugOut from rfl, ho] at h; cases h }

theorem writeTrace_rep {s : State} {g : Ghost} (r : Rep s g) {P : List (Nat × Bytes)}
    (hP : ∀ x ∈ P, Ok1 s x.1 ∧ x.2 ≠ []) :
    ∃ g', Rep (writeTrace (flat P) s) g' ∧ SameFlags s (writeTrace (flat P) s) ∧
      g'.u = g.u ∧ g'.w ++ g'.e ++ g'.d ++ g'.t = g.w ++ g.e ++ g.d ++ g.t ++ P := by
  cases ho : s.traceOut with
  | true =>
    have eq : writeTrace (flat P) s = writeDebug (flat P) s := by simp [writeTrace, ho]
    rw [eq]
    obtain ⟨g', h1, h2, h3, h4, h5⟩ := writeDebug_rep r (P := P)
      (fun x hx => ⟨.inr ⟨ho, (hP x hx).1⟩, (hP x hx).2⟩)
    exact ⟨g', h1, h2, h3, by rw [h4, h5, r.ot ho]; simp⟩
  | false =>
    have eq : writeTrace (flat P) s = { s with traceBuf := s.traceBuf ++ flat P } := by
      simp [writeTrace, ho]
    rw [eq]
    refine ⟨{ g with t := g.t ++ P }, ?_, ⟨rfl, rfl, rfl, rfl⟩, rfl, by simp⟩
    exact { r with
      t := by show s.traceBuf ++ _ = _; rw [r.t, flat_append]
      lt := by
        intro x hx
        rcases List.mem_append.1 hx with h | h
        · exact r.lt x h
        · exact hP x h
      ot := by intro h; rw [show _ = s.traceOut from rfl, ho] at h; cases h }

def Ghost.all (g : Ghost) : List (Nat × Bytes) := g.w ++ g.e ++ g.d ++ g.t ++ g.u

theorem writeUnsafe_rep {s : State} {g : Ghost} (r : Rep s g) {P : List (Nat × Bytes)}
    (hP : ∀ x ∈ P, x.1 = 0 ∧ x.2 ≠ []) :
    ∃ g', Rep (writeUnsafe (flat P) s) g' ∧ SameFlags s (writeUnsafe (flat P) s) ∧
      g'.all = g.all ++ P := by
  cases ho : s.unsafeOut with
  | true =>
    have eq : writeUnsafe (flat P) s = writeTrace (flat P) s := by simp [writeUnsafe, ho]
    rw [eq]
    obtain ⟨g', h1, h2, h3, h4⟩ := writeTrace_rep r (P := P)
      (fun x hx => ⟨.inr ⟨ho, (hP x hx).1⟩, (hP x hx).2⟩)
    exact ⟨g', h1, h2, by rw [Ghost.all, Ghost.all, h3, h4, r.ou ho]; simp⟩
  | false =>
    have eq : writeUnsafe (flat P) s = { s with unsafeBuf := s.unsafeBuf ++ flat P } := by
      simp [writeUnsafe, ho]
    rw [eq]
    refine ⟨{ g with u := g.u ++ P }, ?_, ⟨rfl, rfl, rfl, rfl⟩, by simp [Ghost.all]⟩
    exact { r with
      u := by show s.unsafeBuf ++ _ = _; rw [r.u, flat_append]
      lu := by
        intro x hx
        rcases List.mem_append.1 hx with h | h
        · exact r.lu x h
        · exact hP x h
      ou := by intro h; rw [show _ = s.unsafeOut from rfl, ho] at h; cases h }

/-- Opening flags keeps what is known. -/
theorem Rep.openU {s : State} {g : Ghost} (r : Rep s g) :
    Rep { s with unsafeBuf := [], unsafeOut := true } { g with u := [] } :=
  have h1 : ∀ n, Ok1 s n → Ok1 { s with unsafeBuf := [], unsafeOut := true } n :=
    fun n h => h.elim .inl (fun h => .inr ⟨rfl, h.2⟩)
  have h2 : ∀ n, Ok2 s n → Ok2 { s with unsafeBuf := [], unsafeOut := true } n :=
    fun n h => h.elim .inl (fun h => .inr ⟨h.1, h1 n h.2⟩)
  have h3 : ∀ n, Ok3 s n → Ok3 { s with unsafeBuf := [], unsafeOut := true } n :=
    fun n h => h.elim .inl (fun h => .inr ⟨h.1, h2 n h.2⟩)
  { r with
    u := rfl
    lu := by simp
    lt := fun x hx => ⟨h1 _ (r.lt x hx).1, (r.lt x hx).2⟩
    ld := fun x hx => ⟨h2 _ (r.ld x hx).1, (r.ld x hx).2⟩
    le := fun x hx => ⟨h3 _ (r.le x hx).1, (r.le x hx).2⟩
    lw := fun x hx => ⟨h3 _ (r.lw x hx).1, (r.lw x hx).2⟩
    ou := fun _ => rfl }

theorem Rep.openT {s : State} {g : Ghost} (r : Rep s g) :
    Rep { s with traceBuf := [], traceOut := true } { g with t := [] } :=
  have h2 : ∀ n, Ok2 s n → Ok2 { s with traceBuf := [], traceOut := true } n :=
    fun n h => h.elim .inl (fun h => .inr ⟨rfl, h.2⟩)
  have h3 : ∀ n, Ok3 s n → Ok3 { s with traceBuf := [], traceOut := true } n :=
    fun n h => h.elim .inl (fun h => .inr ⟨h.1, h2 n h.2⟩)
  { r with
    t := rfl
    lt := by simp
    ld := fun x hx => ⟨h2 _ (r.ld x hx).1, (r.ld x hx).2⟩
    le := fun x hx => ⟨h3 _ (r.le x hx).1, (r.le x hx).2⟩
    lw := fun x hx => ⟨h3 _ (r.lw x hx).1, (r.lw x hx).2⟩
    ot := fun _ => rfl }

theorem Rep.openD {s : State} {g : Ghost} (r : Rep s g) :
    Rep { s with debugBuf := [], debugOut := true } { g with d := [] } :=
  have h3 : ∀ n, Ok3 s n → Ok3 { s with debugBuf := [], debugOut := true } n :=
    fun n h => h.elim .inl (fun h => .inr ⟨rfl, h.2⟩)
  { r with
    d := rfl
    ld := by simp
    le := fun x hx => ⟨h3 _ (r.le x hx).1, (r.le x hx).2⟩
    lw := fun x hx => ⟨h3 _ (r.lw x hx).1, (r.lw x hx).2⟩
    od := fun _ => rfl }

theorem openUnsafe_eq (s : State) :
    openUnsafe s = if s.unsafeBuf = [] then { s with unsafeBuf := [], unsafeOut := true }
      else writeTrace s.unsafeBuf { s with unsafeBuf := [], unsafeOut := true } := by
  unfold openUnsafe
  by_cases h : s.unsafeBuf = []
  · simp [h]
  · simp only [h, if_false, writeTrace, writeDebug, writeEnabled]
    cases s.traceOut <;> cases s.debugOut <;> cases s.enabledOut <;> rfl

theorem openTrace_eq (s : State) :
    openTrace s = if s.traceBuf = [] then { s with traceBuf := [], traceOut := true }
      else writeDebug s.traceBuf { s with traceBuf := [], traceOut := true } := by
  unfold openTrace
  by_cases h : s.traceBuf = []
  · simp [h]
  · simp only [h, if_false, writeDebug, writeEnabled]
    cases s.debugOut <;> cases s.enabledOut <;> rfl

theorem openDebug_eq (s : State) :
    openDebug s = if s.debugBuf = [] then { s with debugBuf := [], debugOut := true }
      else writeEnabled s.debugBuf { s with debugBuf := [], debugOut := true } := by
  unfold openDebug
  by_cases h : s.debugBuf = []
  · simp [h]
  · simp only [h, if_false, writeEnabled]
    cases s.enabledOut <;> rfl

theorem flat_nil {l : List (Nat × Bytes)} (hn : ∀ x ∈ l, x.2 ≠ []) (h : flat l = []) : l = [] := by
  cases l with
  | nil => rfl
  | cons x l =>
    simp only [flat, List.map_cons, List.flatten_cons, List.append_eq_nil_iff] at h
    exact absurd h.1 (hn x (by simp))

theorem openUnsafe_rep {s : State} {g : Ghost} (r : Rep s g) :
    ∃ g', Rep (openUnsafe s) g' ∧
      SameFlags { s with unsafeOut := true } (openUnsafe s) ∧ g'.all = g.all := by
  rw [openUnsafe_eq]
  split
  · rename_i h
    have hu : g.u = [] := flat_nil (fun x hx => (r.lu x hx).2) (by rw [← r.u, h])
    exact ⟨_, r.openU, ⟨rfl, rfl, rfl, rfl⟩, by simp [Ghost.all, hu]⟩
  · rw [r.u]
    obtain ⟨g', h1, h2, h3, h4⟩ := writeTrace_rep r.openU (P := g.u)
      (fun x hx => ⟨.inr ⟨rfl, (r.lu x hx).1⟩, (r.lu x hx).2⟩)
    exact ⟨g', h1, h2, by rw [Ghost.all, h3, h4]; simp [Ghost.all]⟩

theorem openTrace_rep {s : State} {g : Ghost} (r : Rep s g) :
    ∃ g', Rep (openTrace s) g' ∧
      SameFlags { s with traceOut := true } (openTrace s) ∧ g'.all = g.all := by
  rw [openTrace_eq]
  split
  · rename_i h
    have ht : g.t = [] := flat_nil (fun x hx => (r.lt x hx).2) (by rw [← r.t, h])
    exact ⟨_, r.openT, ⟨rfl, rfl, rfl, rfl⟩, by simp [Ghost.all, ht]⟩
  · rw [r.t]
    obtain ⟨g', h1, h2, h3, h4, h5⟩ := writeDebug_rep r.openT (P := g.t)
      (fun x hx => ⟨.inr ⟨rfl, (r.lt x hx).1⟩, (r.lt x hx).2⟩)
    exact ⟨g', h1, h2, by rw [Ghost.all, h3, h4, h5]; simp [Ghost.all]⟩

theorem openDebug_rep {s : State} {g : Ghost} (r : Rep s g) :
    ∃ g', Rep (openDebug s) g' ∧
      SameFlags { s with debugOut := true } (openDebug s) ∧ g'.all = g.all := by
  rw [openDebug_eq]
  split
  · rename_i h
    have hd : g.d = [] := flat_nil (fun x hx => (r.ld x hx).2) (by rw [← r.d, h])
    exact ⟨_, r.openD, ⟨rfl, rfl, rfl, rfl⟩, by simp [Ghost.all, hd]⟩
  · rw [r.d]
    obtain ⟨g', h1, h2, h3, h4, h5, h6⟩ := writeEnabled_rep r.openD (P := g.d)
      (fun x hx => ⟨.inr ⟨rfl, (r.ld x hx).1⟩, (r.ld x hx).2⟩)
    exact ⟨g', h1, h2, by rw [Ghost.all, h3, h4, h5, h6]; simp [Ghost.all]⟩

/-- The lines of a level, wherever they are. -/
def Ghost.lines (g : Ghost) (lv : Nat) : List Bytes := (g.all.filter (·.1 == lv)).map (·.2)

def levelNumber : Level → Nat
  | .unsafeL => 0
  | .trace => 1
  | .debug => 2
  | .enabled => 3

theorem format_ne (pre message : Bytes) : format pre message ≠ [] := by
  unfold format
  split
  · rename_i h
    intro e
    simp only [List.append_eq_nil_iff] at e
    rw [e.1.2] at h
    cases h
  · simp

theorem flat_single (x : Nat × Bytes) : flat [x] = x.2 := by simp [flat]

theorem filter_out {l : List (Nat × Bytes)} {lv : Nat} (h : ∀ x ∈ l, x.1 ≠ lv) :
    l.filter (fun x => x.1 == lv) = [] := by
  rw [List.filter_eq_nil_iff]
  intro x hx
  simpa using h x hx

theorem print_rep {s : State} {g : Ghost} (r : Rep s g) (l : Level) (pre message : Bytes) :
    ∃ g', Rep (print l pre message s) g' ∧ SameFlags s (print l pre message s) ∧
      ∀ lv, g'.lines lv = g.lines lv ++
        (if levelNumber l = lv then [format pre message] else []) := by
  have key : ∀ (a b : List (Nat × Bytes)) (n lv : Nat), (∀ x ∈ b, x.1 ≠ n) →
      ((a ++ [(n, format pre message)] ++ b).filter (fun x => x.1 == lv)).map (·.2) =
        ((a ++ b).filter (fun x => x.1 == lv)).map (·.2) ++
          (if n = lv then [format pre message] else []) := by
    intro a b n lv hb
    by_cases h : n = lv
    · subst h
      rw [List.filter_append, List.filter_append, filter_out hb, List.filter_append, filter_out hb]
      simp
    · have hne : (n == lv) = false := by simpa using h
      rw [if_neg h, List.filter_append, List.filter_append]
      simp [hne]
  have hn := format_ne pre message
  cases l with
  | unsafeL =>
    obtain ⟨g', h1, h2, h3⟩ := writeUnsafe_rep r (P := [(0, format pre message)])
      (by intro x hx; obtain rfl := List.mem_singleton.1 hx; exact ⟨rfl, hn⟩)
    rw [flat_single] at h1 h2
    refine ⟨g', h1, h2, fun lv => ?_⟩
    have := key g.all [] 0 lv (by simp)
    simp only [List.append_nil] at this
    rw [Ghost.lines, h3, this]; rfl
  | trace =>
    obtain ⟨g', h1, h2, h3, h4⟩ := writeTrace_rep r (P := [(1, format pre message)])
      (by intro x hx; obtain rfl := List.mem_singleton.1 hx; exact ⟨.inl rfl, hn⟩)
    rw [flat_single] at h1 h2
    refine ⟨g', h1, h2, fun lv => ?_⟩
    rw [Ghost.lines, Ghost.all, h3, h4, key _ g.u 1 lv (fun x hx => by rw [(r.lu x hx).1]; decide)]
    rfl
  | debug =>
    obtain ⟨g', h1, h2, h3, h4, h5⟩ := writeDebug_rep r (P := [(2, format pre message)])
      (by intro x hx; obtain rfl := List.mem_singleton.1 hx; exact ⟨.inl rfl, hn⟩)
    rw [flat_single] at h1 h2
    refine ⟨g', h1, h2, fun lv => ?_⟩
    rw [Ghost.lines, Ghost.all, h3, h4, h5, List.append_assoc _ g.t, key _ (g.t ++ g.u) 2 lv]
    · simp [Ghost.lines, Ghost.all, levelNumber]
      rfl
    · intro x hx
      rcases List.mem_append.1 hx with h | h
      · rcases (r.lt x h).1 with e | e <;> omega
      · rw [(r.lu x h).1]; decide
  | enabled =>
    obtain ⟨g', h1, h2, h3, h4, h5, h6⟩ := writeEnabled_rep r (P := [(3, format pre message)])
      (by intro x hx; obtain rfl := List.mem_singleton.1 hx; exact ⟨.inl rfl, hn⟩)
    rw [flat_single] at h1 h2
    refine ⟨g', h1, h2, fun lv => ?_⟩
    rw [Ghost.lines, Ghost.all, h3, h4, h5, h6, List.append_assoc _ g.d, List.append_assoc _ _ g.u,
      key _ (g.d ++ g.t ++ g.u) 3 lv]
    · simp [Ghost.lines, Ghost.all, levelNumber]
      rfl
    · intro x hx
      rcases List.mem_append.1 hx with h | h
      · rcases List.mem_append.1 h with h | h
        · rcases (r.ld x h).1 with e | ⟨-, e | e⟩ <;> omega
        · rcases (r.lt x h).1 with e | e <;> omega
      · rw [(r.lu x h).1]; decide

theorem setLogLevel_rep {s : State} {g : Ghost} (r : Rep s g) (level : UInt8) :
    ∃ g', Rep (setLogLevel level s) g' ∧
      SameFlags { s with
        unsafeOut := s.unsafeOut || decide (level.toNat ≤ 0)
        traceOut := s.traceOut || decide (level.toNat ≤ 1)
        debugOut := s.debugOut || decide (level.toNat ≤ 2) } (setLogLevel level s) ∧
      ∀ lv, g'.lines lv = g.lines lv ++
        (if 3 = lv then [format levelPrefix (levelMessage level)] else []) := by
  unfold setLogLevel
  have c0 : (level ≤ 0) = (level.toNat ≤ 0) := rfl
  have c1 : (level ≤ 1) = (level.toNat ≤ 1) := rfl
  have c2 : (level ≤ 2) = (level.toNat ≤ 2) := rfl
  simp only [c0, c1, c2]
  have a0 : ∃ g0, Rep (if level.toNat ≤ 0 then openUnsafe s else s) g0 ∧
      SameFlags { s with unsafeOut := s.unsafeOut || decide (level.toNat ≤ 0) }
        (if level.toNat ≤ 0 then openUnsafe s else s) ∧ g0.all = g.all := by
    split
    · rename_i h
      simpa [h] using openUnsafe_rep r
    · rename_i h
      exact ⟨g, r, by simp [SameFlags, h], rfl⟩
  obtain ⟨g0, r0, f0, e0⟩ := a0
  generalize (if level.toNat ≤ 0 then openUnsafe s else s) = s0 at *
  have a1 : ∃ g1, Rep (if level.toNat ≤ 1 then openTrace s0 else s0) g1 ∧
      SameFlags { s0 with traceOut := s0.traceOut || decide (level.toNat ≤ 1) }
        (if level.toNat ≤ 1 then openTrace s0 else s0) ∧ g1.all = g0.all := by
    split
    · rename_i h
      simpa [h] using openTrace_rep r0
    · rename_i h
      exact ⟨g0, r0, by simp [SameFlags, h], rfl⟩
  obtain ⟨g1, r1, f1, e1⟩ := a1
  generalize (if level.toNat ≤ 1 then openTrace s0 else s0) = s1 at *
  have a2 : ∃ g2, Rep (if level.toNat ≤ 2 then openDebug s1 else s1) g2 ∧
      SameFlags { s1 with debugOut := s1.debugOut || decide (level.toNat ≤ 2) }
        (if level.toNat ≤ 2 then openDebug s1 else s1) ∧ g2.all = g1.all := by
    split
    · rename_i h
      simpa [h] using openDebug_rep r1
    · rename_i h
      exact ⟨g1, r1, by simp [SameFlags, h], rfl⟩
  obtain ⟨g2, r2, f2, e2⟩ := a2
  generalize (if level.toNat ≤ 2 then openDebug s1 else s1) = s2 at *
  obtain ⟨g3, r3, f3, e3⟩ := print_rep r2 .enabled levelPrefix (levelMessage level)
  refine ⟨g3, r3, ?_, fun lv => ?_⟩
  · simp only [SameFlags] at *
    obtain ⟨x1, x2, x3, x4⟩ := f0
    obtain ⟨y1, y2, y3, y4⟩ := f1
    obtain ⟨z1, z2, z3, z4⟩ := f2
    obtain ⟨t1, t2, t3, t4⟩ := f3
    refine ⟨?_, ?_, ?_, ?_⟩
    · rw [t1, z1, y1, x1]
    · rw [t2, z2, y2, x2]
    · rw [t3, z3, y3, x3]
    · rw [t4, z4, y4, x4]
  · rw [e3, Ghost.lines, e2, e1, e0]; rfl

theorem setLogOutput_rep {s s' : State} {g : Ghost} (r : Rep s g) {out : Option Nat}
    (h : setLogOutput out s = .ok s') :
    ∃ g', Rep s' g' ∧ SameFlags { s with enabledOut := out } s' ∧ g'.all = g.all := by
  unfold setLogOutput at h
  split at h
  · rename_i hb
    obtain rfl := Res.ok.inj h
    have he : g.e = [] := flat_nil (fun x hx => (r.le x hx).2) (by rw [← r.e, hb])
    exact ⟨g, { r with oe := fun _ => he }, ⟨rfl, rfl, rfl, rfl⟩, rfl⟩
  · cases out with
    | none => cases h
    | some w =>
      obtain rfl := Res.ok.inj h
      refine ⟨{ g with w := g.w ++ g.e, e := [] }, ?_, ⟨rfl, rfl, rfl, rfl⟩, by simp [Ghost.all]⟩
      exact { r with
        e := rfl
        w := by
          rw [flat_append, ← r.w, ← r.e]
          simp [written]
        le := by simp
        lw := by
          intro x hx
          rcases List.mem_append.1 hx with h | h
          · exact r.lw x h
          · exact r.le x h
        oe := fun _ => rfl }

end VF.Log
