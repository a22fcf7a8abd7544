import Verif.Proofs.ExclusiveBuild
import Verif.Proofs.OverlapToy
import Verif.Spec.History

/-!
# A sequential history beside goroutines that are stopped
-/

namespace VF.Fido.Overlap

open Prog VF.Spec.Overlap VF.Spec.History

variable {E : Env} {cfg : Client.Config}

/-- An operation begins and is done without interruption. -/
theorem do_op {s : Process} {op : Op} {r : Reply} {w' : World} (ha : s.alive = true) (hm : Sound s.mem) (hop : op ≠ .restart)
    (h : Device.perform E op (view s.mem) = (.ok r, w')) :
    ∃ n m', s.run E cfg (.begin op :: List.replicate n (.turn s.threads.length)) =
      { mem := m', threads := s.threads ++ [.ready op r], alive := true } ∧ view m' = w' ∧ Sound m' := by
  obtain ⟨m', h1, h2, h3⟩ := perform_run hm h
  cases hp : perform E op with
  | ret r' =>
    rw [hp] at h1
    obtain ⟨e1, rfl⟩ := Prod.mk.inj h1
    obtain rfl := Res.ok.inj e1
    refine ⟨0, s.mem, ?_, h2, h3⟩
    show s.step E cfg (.begin op) = _
    unfold Process.step
    dsimp only
    rw [if_pos ⟨ha, hop⟩, hp]
    show ({ s with mem := s.mem, threads := (s.threads ++ [Thread.gone op]).set s.threads.length (.ready op r') } : Process) = _
    rw [List.set_append_right _ _ (Nat.le_refl _), ha]
    simp
  | fail c =>
    rw [hp] at h1
    cases (Prod.mk.inj h1).1
  | act upd next =>
    have e1 := begin_working (E := E) (cfg := cfg) ha hop ⟨upd, next, hp⟩
    obtain ⟨n, e2⟩ := complete (E := E) (cfg := cfg) (s := { s with threads := s.threads ++ [.working op (perform E op)] })
      (i := s.threads.length) (op := op) (p := perform E op) ha (by simp) ⟨upd, next, hp⟩ h1
    refine ⟨n, m', ?_, h2, h3⟩
    show (s.step E cfg (.begin op)).run E cfg _ = _
    rw [e1, e2]
    show ({ s with mem := m', threads := (s.threads ++ [Thread.working op (perform E op)]).set s.threads.length (.ready op r) } : Process) = _
    rw [List.set_append_right _ _ (Nat.le_refl _), ha]
    simp

/-- A device whose operation does not panic. -/
theorem step_of_perform {w w' : World} {op : Op} {r : Reply} (hop : op ≠ .restart) (h : Device.perform E op w = (.ok r, w')) :
    Device.step E cfg ⟨w, true⟩ op = (r, ⟨w', true⟩) := by
  cases op <;> first | exact absurd rfl hop | simp [Device.step, h]

/-- The goroutines of a history done one operation after the other. -/
def done (l : List (Op × Reply)) : List Thread := l.map (fun e => .ready e.1 e.2)

theorem play : ∀ (ops : List Op) (evs0 : List Event) (d : Device), ((boot E cfg).run E cfg evs0).alive = true → d.alive = true →
    Sound ((boot E cfg).run E cfg evs0).mem → view ((boot E cfg).run E cfg evs0).mem = d.world →
    (∀ op ∈ ops, op ≠ .restart) → (∀ e ∈ events E cfg d ops, e.2 ≠ .panicked) →
    ∃ evs m', (∀ e ∈ evs, (∃ op ∈ ops, e = .begin op) ∨ ∃ i, e = .turn i) ∧
      (boot E cfg).run E cfg (evs0 ++ evs) = { mem := m', threads := ((boot E cfg).run E cfg evs0).threads ++ done (events E cfg d ops), alive := true } ∧
      view m' = (Device.after E cfg d ops).world ∧ Sound m' ∧
      ∀ kind : Op → Bool, (∀ op p, Thread.working op p ∈ ((boot E cfg).run E cfg evs0).threads → kind op = false) →
        Exclusive kind E cfg evs0 evs := by
  intro ops
  induction ops with
  | nil =>
    intro evs0 d ha hd hm hw _ _
    refine ⟨[], ((boot E cfg).run E cfg evs0).mem, by simp, ?_, hw, hm, fun kind hq => exclusive_of_one (by simp) hq (by simp)⟩
    rw [List.append_nil]
    simp [done, events, Device.run, ← ha]
  | cons op ops ih =>
    intro evs0 d ha hd hm hw hop hev
    have hop1 := hop op (by simp)
    cases hp : Device.perform E op d.world with
    | mk r w =>
      cases r with
      | panic c =>
        have hs : Device.step E cfg d op = (.panicked, ⟨w, false⟩) := by
          cases op <;> first | exact absurd rfl hop1 | simp [Device.step, hd, hp]
        refine absurd rfl (hev (op, .panicked) ?_)
        simp [events, Device.run, hs]
      | ok r =>
        have hs : Device.step E cfg d op = (r, ⟨w, true⟩) := by
          cases op <;> first | exact absurd rfl hop1 | simp [Device.step, hd, hp]
        have he : events E cfg d (op :: ops) = (op, r) :: events E cfg ⟨w, true⟩ ops := by
          simp [events, Device.run, hs]
        have hafter : Device.after E cfg d (op :: ops) = Device.after E cfg ⟨w, true⟩ ops := by
          simp [Device.after, Device.run, hs]
        rw [he] at hev ⊢
        rw [hafter]
        obtain ⟨n, m', h1, h2, h3⟩ := do_op (E := E) (cfg := cfg) ha hm hop1 (by rw [hw]; exact hp)
        rw [← run_append] at h1
        obtain ⟨evs, m'', k1, k2, k3, k4, k5⟩ := ih (evs0 ++ .begin op :: List.replicate n (.turn ((boot E cfg).run E cfg evs0).threads.length))
          ⟨w, true⟩ (by rw [h1]) rfl (by rw [h1]; exact h3) (by rw [h1]; exact h2) (fun o ho => hop o (by simp [ho]))
          (fun e h => hev e (by simp [h]))
        refine ⟨(.begin op :: List.replicate n (.turn ((boot E cfg).run E cfg evs0).threads.length)) ++ evs, m'', ?_, ?_, k3, k4, ?_⟩
        · intro e h
          rcases List.mem_append.1 h with h | h
          · rcases List.mem_cons.1 h with rfl | h
            · exact .inl ⟨op, by simp, rfl⟩
            · exact .inr ⟨_, (List.mem_replicate.1 h).2⟩
          · rcases k1 e h with ⟨o, ho, rfl⟩ | h
            · exact .inl ⟨o, by simp [ho], rfl⟩
            · exact .inr h
        · rw [← List.append_assoc, k2, h1]
          simp [done]
        · intro kind hq
          refine Exclusive.append (exclusive_of_one ?_ hq ?_) (k5 kind ?_)
          · simp [List.mem_replicate]
          · rw [List.countP_cons, List.countP_replicate]
            cases hk : kind op <;> simp [isBegin, hk]
          · rw [h1]
            intro o p hmem
            rcases List.mem_append.1 hmem with hmem | hmem
            · exact hq o p hmem
            · simp at hmem

/-- After the history `pre` the embedding program begins `call`, which gets no further, and the history goes on with `ops`. -/
theorem beside {call : Op} (hcall : call ≠ .restart) (hact : ∃ upd next, perform E call = .act upd next) {pre ops : List Op}
    (h1 : ∀ op ∈ pre, op ≠ .restart) (h2 : ∀ op ∈ ops, op ≠ .restart)
    (h3 : ∀ e ∈ events E cfg (Device.boot E cfg) pre, e.2 ≠ .panicked) (ha : (Device.after E cfg (Device.boot E cfg) pre).alive = true)
    (h4 : ∀ e ∈ events E cfg (Device.after E cfg (Device.boot E cfg) pre) ops, e.2 ≠ .panicked) :
    ∃ evs evs', .restart ∉ evs ∧ .restart ∉ evs' ∧
      (∀ op, .begin op ∈ evs → op ∈ pre ∨ op = call) ∧ (∀ op, .begin op ∈ evs' → op ∈ ops) ∧
      ((boot E cfg).run E cfg evs).threads =
        done (events E cfg (Device.boot E cfg) pre) ++ [.working call (perform E call)] ∧
      view ((boot E cfg).run E cfg evs).mem = (Device.after E cfg (Device.boot E cfg) pre).world ∧
      ((boot E cfg).run E cfg (evs ++ evs')).threads =
        (done (events E cfg (Device.boot E cfg) pre) ++ [.working call (perform E call)]) ++
          done (events E cfg (Device.after E cfg (Device.boot E cfg) pre) ops) ∧
      view ((boot E cfg).run E cfg (evs ++ evs')).mem =
        (Device.after E cfg (Device.after E cfg (Device.boot E cfg) pre) ops).world ∧
      Sound ((boot E cfg).run E cfg (evs ++ evs')).mem ∧
      ((boot E cfg).run E cfg (evs ++ evs')).alive = true ∧
      ∀ kind : Op → Bool, kind call = false → Exclusive kind E cfg evs evs' := by
  obtain ⟨evs, m, a1, a2, a3, a4, -⟩ := play (E := E) (cfg := cfg) pre [] (Device.boot E cfg) rfl rfl (sound_load _) (view_load _) h1 h3
  rw [List.nil_append] at a2
  have e : (boot E cfg).run E cfg (evs ++ [.begin call]) =
      { mem := m, threads := done (events E cfg (Device.boot E cfg) pre) ++ [.working call (perform E call)], alive := true } := by
    rw [run_snoc, a2, begin_working rfl hcall hact]
    rfl
  obtain ⟨evs', m', b1, b2, b3, b4, b5⟩ := play (E := E) (cfg := cfg) ops (evs ++ [.begin call]) (Device.after E cfg (Device.boot E cfg) pre)
    (by rw [e]) ha (by rw [e]; exact a4) (by rw [e]; exact a3) h2 h4
  refine ⟨evs ++ [.begin call], evs', ?_, ?_, ?_, ?_, by rw [e], by rw [e]; exact a3, by rw [b2, e], by rw [b2]; exact b3,
    by rw [b2]; exact b4, by rw [b2], ?_⟩
  · intro h
    rcases List.mem_append.1 h with h | h
    · rcases a1 _ h with ⟨_, -, h⟩ | ⟨_, h⟩ <;> cases h
    · simp at h
  · intro h
    rcases b1 _ h with ⟨_, -, h⟩ | ⟨_, h⟩ <;> cases h
  · intro op h
    rcases List.mem_append.1 h with h | h
    · rcases a1 _ h with ⟨o, ho, h⟩ | ⟨_, h⟩
      · injection h with h
        exact .inl (h ▸ ho)
      · cases h
    · exact .inr (by simpa using h)
  · intro op h
    rcases b1 _ h with ⟨o, ho, h⟩ | ⟨_, h⟩
    · injection h with h
      exact h ▸ ho
    · cases h
  · intro kind hk
    refine b5 kind ?_
    rw [e]
    intro op p h
    rcases List.mem_append.1 h with h | h
    · obtain ⟨x, -, hx⟩ := List.mem_map.1 h
      cases hx
    · obtain ⟨rfl, -⟩ : op = call ∧ p = perform E call := by simpa using h
      exact hk

end VF.Fido.Overlap
