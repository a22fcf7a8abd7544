import Verif.Proofs.Log

/-!
# The log (C69)
-/

namespace VF.Props

open VF.Log VF.Spec.Log

theorem log_line (pre message : Bytes) : format pre message = line pre message := by
  unfold format line
  split <;> simp

theorem log_number (level : UInt8) : levelNumber (ofByte level) = number level := by
  unfold ofByte number
  have e : ∀ n : UInt8, level = n ↔ level.toNat = n.toNat := fun n => UInt8.toNat_inj.symm
  simp only [e, UInt8.reduceToNat]
  split
  · rename_i h; simp [levelNumber, h]
  · split
    · rename_i h; simp [levelNumber, h]
    · split
      · rename_i h; simp [levelNumber, h]
      · show 0 = _
        split <;> omega

theorem run_snoc (s : State) (ops : List Op) (op : Op) :
    run s (ops ++ [op]) = (run s ops).bind (fun s' => step s' op) := by
  induction ops generalizing s with
  | nil =>
    show (step s op).bind (fun s' => .ok s') = step s op
    cases step s op <;> rfl
  | cons o ops ih =>
    show (step s o).bind (fun s' => run s' (ops ++ [op])) = ((step s o).bind _).bind _
    cases step s o with
    | ok s' => exact ih s'
    | panic c => rfl

theorem output_snoc (ops : List Op) (op : Op) :
    output (ops ++ [op]) = match op with | .setOutput o => o | _ => output ops := by
  simp only [output, List.foldl_append, List.foldl_cons, List.foldl_nil]
  cases op <;> rfl

theorem snoc_induction {α : Type} {P : List α → Prop} (h0 : P [])
    (h1 : ∀ l a, P l → P (l ++ [a])) (l : List α) : P l := by
  have : ∀ l : List α, P l.reverse := by
    intro l
    induction l with
    | nil => exact h0
    | cons a l ih => rw [List.reverse_cons]; exact h1 _ a ih
  have := this l.reverse
  rwa [List.reverse_reverse] at this

theorem ascii_append (a b : String) : ascii (a ++ b) = ascii a ++ ascii b := by
  simp [ascii]

theorem format_level (level : UInt8) : format levelPrefix (levelMessage level) =
    ascii s!"[LOG] Log Level Set: {level.toNat}\n" := by
  unfold format levelMessage levelPrefix
  generalize level.toNat = n
  have e : ascii s!"Log Level Set: {n}\n" =
      ascii "Log Level Set: " ++ ascii (toString n) ++ [10] := by
    show ascii ((("" ++ "Log Level Set: ") ++ toString n) ++ "\n") = _
    rw [ascii_append, ascii_append]
    rfl
  rw [e]
  have e' : ascii s!"[LOG] Log Level Set: {n}\n" =
      ascii "[LOG] Log Level Set: " ++ ascii (toString n) ++ [10] := by
    show ascii ((("" ++ "[LOG] Log Level Set: ") ++ toString n) ++ "\n") = _
    rw [ascii_append, ascii_append]
    rfl
  rw [e']
  simp
  rfl

theorem lines_snoc (lv : Nat) (ops : List Op) (op : Op) :
    lines lv (ops ++ [op]) = lines lv ops ++
      (match logged op with
        | some x => if x.1 = lv then [x.2] else []
        | none => []) := by
  simp only [lines, List.filterMap_append, List.filter_append, List.map_append]
  congr 1
  cases h : logged op with
  | none => simp [h]
  | some x =>
    by_cases hx : x.1 = lv
    · simp [h, hx]
    · simp [h, hx]

/-- What a history leads to. -/
theorem log_history (ops : List Op) : ∀ {s : State}, run {} ops = .ok s →
    ∃ g, Rep s g ∧ (∀ lv, g.lines lv = lines lv ops) ∧
      (s.unsafeOut = true ↔ ∃ l, Op.setLevel l ∈ ops ∧ l.toNat ≤ 0) ∧
      (s.traceOut = true ↔ ∃ l, Op.setLevel l ∈ ops ∧ l.toNat ≤ 1) ∧
      (s.debugOut = true ↔ ∃ l, Op.setLevel l ∈ ops ∧ l.toNat ≤ 2) ∧
      s.enabledOut = output ops := by
  induction ops using snoc_induction with
  | h0 =>
    intro s h
    obtain rfl := Res.ok.inj h
    refine ⟨⟨[], [], [], [], []⟩, ?_, ?_, ?_, ?_, ?_, rfl⟩
    · constructor <;> first | rfl | simp
    · intro lv; rfl
    all_goals simp
  | h1 ops op ih =>
    intro s h
    rw [run_snoc] at h
    cases hr : run {} ops with
    | panic c => rw [hr] at h; cases h
    | ok s0 =>
      rw [hr] at h
      have h : step s0 op = .ok s := h
      obtain ⟨g, r, hl, f0, f1, f2, f3⟩ := ih hr
      cases op with
      | print level pre message =>
        obtain rfl := Res.ok.inj h
        obtain ⟨g', r', ⟨e0, e1, e2, e3⟩, e⟩ := print_rep r (ofByte level) pre message
        refine ⟨g', r', ?_, ?_, ?_, ?_, ?_⟩
        · intro lv
          rw [e, hl, lines_snoc, log_number, log_line]
          rfl
        · rw [e0, f0]; simp
        · rw [e1, f1]; simp
        · rw [e2, f2]; simp
        · rw [e3, f3, output_snoc]
      | setLevel level =>
        obtain rfl := Res.ok.inj h
        obtain ⟨g', r', ⟨e0, e1, e2, e3⟩, e⟩ := setLogLevel_rep r level
        dsimp only at e0 e1 e2 e3
        have aux : ∀ (b : Bool) (n : Nat), (b = true ↔ ∃ l, Op.setLevel l ∈ ops ∧ l.toNat ≤ n) →
            ((b || decide (level.toNat ≤ n)) = true ↔
              ∃ l, Op.setLevel l ∈ ops ++ [Op.setLevel level] ∧ l.toNat ≤ n) := by
          intro b n hb
          rw [Bool.or_eq_true, hb, decide_eq_true_eq]
          constructor
          · rintro (⟨l, h1, h2⟩ | h)
            · exact ⟨l, by simp [h1], h2⟩
            · exact ⟨level, by simp, h⟩
          · rintro ⟨l, h1, h2⟩
            rcases List.mem_append.1 h1 with h | h
            · exact .inl ⟨l, h, h2⟩
            · simp only [List.mem_singleton, Op.setLevel.injEq] at h
              subst h; exact .inr h2
        refine ⟨g', r', ?_, ?_, ?_, ?_, ?_⟩
        · intro lv
          rw [e, hl, lines_snoc]
          rw [format_level]
          rfl
        · rw [e0]; exact aux _ _ f0
        · rw [e1]; exact aux _ _ f1
        · rw [e2]; exact aux _ _ f2
        · rw [e3, f3, output_snoc]
      | setOutput out =>
        obtain ⟨g', r', ⟨e0, e1, e2, e3⟩, e⟩ := setLogOutput_rep r h
        dsimp only at e0 e1 e2 e3
        refine ⟨g', r', ?_, ?_, ?_, ?_, ?_⟩
        · intro lv
          rw [Ghost.lines, e, lines_snoc]
          show g.lines lv = _
          rw [hl]; simp [logged]
        · rw [e0, f0]; simp
        · rw [e1, f1]; simp
        · rw [e2, f2]; simp
        · rw [e3, output_snoc]

/-- After any history at whose end an output is set, what has been written to outputs is a sequence
of whole lines: of each enabled level every line that was logged, once, in the order of logging; of
the other levels none. -/
theorem C69_exactly_the_enabled_lines (ops : List Op) {s : State} (h : run {} ops = .ok s)
    (ho : (output ops).isSome) :
    ∃ out : List (Nat × Bytes), written s = (out.map (·.2)).flatten ∧
      ∀ level, level ≤ 3 →
        (Enabled level ops → (out.filter (·.1 == level)).map (·.2) = lines level ops) ∧
        (¬ Enabled level ops → ∀ x ∈ out, x.1 ≠ level) := by
  obtain ⟨g, r, hl, f0, f1, f2, f3⟩ := log_history ops h
  have he : g.e = [] := r.oe (by rw [f3]; exact ho)
  refine ⟨g.w, r.w, fun lv hlv => ⟨?_, ?_⟩⟩
  · intro hen
    rw [← hl lv, Ghost.lines, Ghost.all, he]
    have aux : ∀ {m n : Nat}, m ≤ n → (∃ l, Op.setLevel l ∈ ops ∧ l.toNat ≤ m) →
        ∃ l, Op.setLevel l ∈ ops ∧ l.toNat ≤ n := by
      rintro m n hmn ⟨l, h1, h2⟩
      exact ⟨l, h1, by omega⟩
    have hu : lv ≠ 0 → ∀ x ∈ g.u, x.1 ≠ lv := by
      intro h0 x hx; rw [(r.lu x hx).1]; omega
    have ht : lv ≠ 0 → lv ≠ 1 → ∀ x ∈ g.t, x.1 ≠ lv := by
      intro h0 h1 x hx
      rcases (r.lt x hx).1 with e | e <;> omega
    have hd : lv ≠ 0 → lv ≠ 1 → lv ≠ 2 → ∀ x ∈ g.d, x.1 ≠ lv := by
      intro h0 h1 h2 x hx
      rcases (r.ld x hx).1 with e | ⟨-, e | e⟩ <;> omega
    have nu : g.u.filter (fun x => x.1 == lv) = [] := by
      by_cases h0 : lv = 0
      · subst h0
        rw [r.ou (f0.2 (hen.elim (fun e => absurd e (by decide)) id))]; rfl
      · exact filter_out (hu h0)
    have nt : g.t.filter (fun x => x.1 == lv) = [] := by
      by_cases h1 : lv ≤ 1
      · rw [r.ot (f1.2 (hen.elim (fun e => absurd e (by omega)) (aux h1)))]; rfl
      · exact filter_out (ht (by omega) (by omega))
    have nd : g.d.filter (fun x => x.1 == lv) = [] := by
      by_cases h2 : lv ≤ 2
      · rw [r.od (f2.2 (hen.elim (fun e => absurd e (by omega)) (aux h2)))]; rfl
      · exact filter_out (hd (by omega) (by omega) (by omega))
    simp only [List.filter_append, nu, nt, nd, List.filter_nil, List.append_nil]
  · intro hen x hx e
    have hne : ∀ n, lv ≤ n → ¬ (∃ l, Op.setLevel l ∈ ops ∧ l.toNat ≤ n) ∨ lv < n := by
      intro n hn
      by_cases hlt : lv < n
      · exact .inr hlt
      · refine .inl ?_
        rintro ⟨l, h1, h2⟩
        exact hen (.inr ⟨l, h1, by omega⟩)
    have h3 : lv ≠ 3 := fun e => hen (.inl e)
    rcases (r.lw x hx).1 with q | ⟨q2, q | ⟨q1, q | ⟨q0, q⟩⟩⟩
    · omega
    · rcases hne 2 (by omega) with n | n
      · exact n (f2.1 q2)
      · omega
    · rcases hne 1 (by omega) with n | n
      · exact n (f1.1 q1)
      · omega
    · rcases hne 0 (by omega) with n | n
      · exact n (f0.1 q0)
      · omega

theorem writeEnabled_writes (p : Bytes) (s : State) :
    (writeEnabled p s).enabledOut = s.enabledOut ∧ ∃ new, (writeEnabled p s).writes = s.writes ++ new ∧
      ∀ x ∈ new, s.enabledOut = some x.1 := by
  cases ho : s.enabledOut with
  | none => simp [writeEnabled, ho]
  | some w => simp [writeEnabled, ho]

theorem writeDebug_writes (p : Bytes) (s : State) :
    (writeDebug p s).enabledOut = s.enabledOut ∧ ∃ new, (writeDebug p s).writes = s.writes ++ new ∧
      ∀ x ∈ new, s.enabledOut = some x.1 := by
  cases ho : s.debugOut with
  | true => simpa [writeDebug, ho] using writeEnabled_writes p s
  | false => exact ⟨by simp [writeDebug, ho], [], by simp [writeDebug, ho], by simp⟩

theorem writeTrace_writes (p : Bytes) (s : State) :
    (writeTrace p s).enabledOut = s.enabledOut ∧ ∃ new, (writeTrace p s).writes = s.writes ++ new ∧
      ∀ x ∈ new, s.enabledOut = some x.1 := by
  cases ho : s.traceOut with
  | true => simpa [writeTrace, ho] using writeDebug_writes p s
  | false => exact ⟨by simp [writeTrace, ho], [], by simp [writeTrace, ho], by simp⟩

theorem writeUnsafe_writes (p : Bytes) (s : State) :
    (writeUnsafe p s).enabledOut = s.enabledOut ∧ ∃ new, (writeUnsafe p s).writes = s.writes ++ new ∧
      ∀ x ∈ new, s.enabledOut = some x.1 := by
  cases ho : s.unsafeOut with
  | true => simpa [writeUnsafe, ho] using writeTrace_writes p s
  | false => exact ⟨by simp [writeUnsafe, ho], [], by simp [writeUnsafe, ho], by simp⟩

/-- Whatever a call writes goes to the output in use after the call. -/
theorem step_writes {s s' : State} {op : Op} (h : step s op = .ok s') :
    ∃ new, s'.writes = s.writes ++ new ∧ ∀ x ∈ new, s'.enabledOut = some x.1 := by
  have fin : ∀ {f : State → State} {s : State},
      ((f s).enabledOut = s.enabledOut ∧ ∃ new, (f s).writes = s.writes ++ new ∧
        ∀ x ∈ new, s.enabledOut = some x.1) →
      ∃ new, (f s).writes = s.writes ++ new ∧ ∀ x ∈ new, (f s).enabledOut = some x.1 := by
    rintro f s ⟨h1, new, h2, h3⟩
    exact ⟨new, h2, by rw [h1]; exact h3⟩
  cases op with
  | print level pre message =>
    obtain rfl := Res.ok.inj h
    unfold print
    split
    · exact fin (writeUnsafe_writes _ _)
    · exact fin (writeTrace_writes _ _)
    · exact fin (writeDebug_writes _ _)
    · exact fin (writeEnabled_writes _ _)
  | setOutput out =>
    have h : setLogOutput out s = .ok s' := h
    unfold setLogOutput at h
    split at h
    · obtain rfl := Res.ok.inj h; exact ⟨[], by simp, by simp⟩
    · cases out with
      | none => cases h
      | some w => obtain rfl := Res.ok.inj h; exact ⟨[_], rfl, by simp⟩
  | setLevel level =>
    obtain rfl := Res.ok.inj h
    let Q : State → State → Prop := fun s s' => s'.enabledOut = s.enabledOut ∧
      ∃ new, s'.writes = s.writes ++ new ∧ ∀ x ∈ new, s.enabledOut = some x.1
    have trans : ∀ {a b c : State}, Q a b → Q b c → Q a c := by
      rintro a b c ⟨h1, n1, h2, h3⟩ ⟨k1, n2, k2, k3⟩
      refine ⟨k1.trans h1, n1 ++ n2, by rw [k2, h2, List.append_assoc], ?_⟩
      intro x hx
      rcases List.mem_append.1 hx with h | h
      · exact h3 x h
      · rw [← h1]; exact k3 x h
    have refl : ∀ a, Q a a := fun a => ⟨rfl, [], by simp, by simp⟩
    have q0 : Q s (if level ≤ 0 then openUnsafe s else s) := by
      split
      · rw [openUnsafe_eq]
        split
        · exact refl s
        · exact writeTrace_writes _ { s with unsafeBuf := [], unsafeOut := true }
      · exact refl s
    unfold setLogLevel
    dsimp only
    generalize (if level ≤ 0 then openUnsafe s else s) = s0 at *
    have q1 : Q s0 (if level ≤ 1 then openTrace s0 else s0) := by
      split
      · rw [openTrace_eq]
        split
        · exact refl s0
        · exact writeDebug_writes _ { s0 with traceBuf := [], traceOut := true }
      · exact refl s0
    generalize (if level ≤ 1 then openTrace s0 else s0) = s1 at *
    have q2 : Q s1 (if level ≤ 2 then openDebug s1 else s1) := by
      split
      · rw [openDebug_eq]
        split
        · exact refl s1
        · exact writeEnabled_writes _ { s1 with debugBuf := [], debugOut := true }
      · exact refl s1
    generalize (if level ≤ 2 then openDebug s1 else s1) = s2 at *
    have q3 : Q s2 (print .enabled levelPrefix (levelMessage level) s2) := writeEnabled_writes _ _
    obtain ⟨h1, new, h2, h3⟩ := trans (trans (trans q0 q1) q2) q3
    exact ⟨new, h2, by rw [h1]; exact h3⟩

/-- Each call writes only to the output set last (its own, if it sets one), and nothing that was
written is taken back; in particular nothing is written while no output is set. -/
theorem C69_current_output (ops : List Op) (op : Op) {s s' : State} (h : run {} ops = .ok s)
    (h' : run {} (ops ++ [op]) = .ok s') :
    ∃ new, s'.writes = s.writes ++ new ∧ ∀ x ∈ new, output (ops ++ [op]) = some x.1 := by
  obtain ⟨_, -, -, -, -, -, e⟩ := log_history _ h'
  rw [run_snoc, h] at h'
  obtain ⟨new, h1, h2⟩ := step_writes (s := s) (op := op) h'
  exact ⟨new, h1, by rw [← e]; exact h2⟩

/-- The log panics only if the nil writer is set as output. -/
theorem C69_no_panic (ops : List Op) (h : Op.setOutput none ∉ ops) : ∃ s, run {} ops = .ok s := by
  induction ops using snoc_induction with
  | h0 => exact ⟨{}, rfl⟩
  | h1 ops op ih =>
    obtain ⟨s, hs⟩ := ih (by intro hm; exact h (by simp [hm]))
    rw [run_snoc, hs]
    cases op with
    | print level pre message => exact ⟨_, rfl⟩
    | setLevel level => exact ⟨_, rfl⟩
    | setOutput out =>
      cases out with
      | none => simp at h
      | some w =>
        show ∃ s', setLogOutput (some w) s = .ok s'
        unfold setLogOutput
        split <;> exact ⟨_, rfl⟩

/-- The hypotheses can be met: trace lines logged before anything is configured, an unsafe line that
stays out. -/
example : ∃ (ops : List Op) (s : State), run {} ops = .ok s ∧ (output ops).isSome ∧
    Enabled 1 ops ∧ ¬ Enabled 0 ops ∧ lines 1 ops = [ascii "[T] a\n", ascii "[T] b\n"] ∧
    lines 0 ops = [ascii "[U] secret\n"] := by
  refine ⟨[.print 1 (ascii "[T] ") (ascii "a"), .print 0 (ascii "[U] ") (ascii "secret"),
    .setLevel 1, .setOutput (some 7), .print 1 (ascii "[T] ") (ascii "b\n")], _, rfl, rfl, ?_, ?_,
    by decide +kernel, by decide +kernel⟩
  · exact .inr ⟨1, by simp, by decide⟩
  · rintro (h | ⟨l, h1, h2⟩)
    · cases h
    · simp at h1
      subst h1
      exact absurd h2 (by decide)

end VF.Props
