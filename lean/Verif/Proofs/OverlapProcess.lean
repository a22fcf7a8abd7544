import Verif.Proofs.OverlapHandlers
import Verif.Proofs.History
import Verif.Spec.Overlap

/-!
# Processes in which operations do not overlap
-/

namespace VF.Fido.Overlap

open VF.Spec.Overlap VF.Spec.History Prog

variable {E : Env} {cfg : Client.Config}

theorem contents_range (v : List Source) : contents v (List.range v.length) = v := by
  have h : ∀ p ∈ List.range v.length, p < v.length := fun p hp => List.mem_range.1 hp
  rw [contents_map h]
  apply List.ext_getElem?
  intro j
  rw [List.getElem?_map]
  by_cases hj : j < v.length
  · rw [List.getElem?_range hj, Option.map_some, List.getElem?_eq_getElem hj]
    rfl
  · rw [List.getElem?_eq_none (by simpa using hj), List.getElem?_eq_none (by simpa using hj)]
    rfl

theorem view_load (w : World) : view (load w) = w := by
  show { w with client := { w.client with vault := contents w.client.vault _ } } = w
  rw [show (load w).slots = List.range w.client.vault.length from rfl, contents_range]

theorem sound_load (w : World) : Sound (load w) :=
  ⟨List.nodup_range, fun p hp => List.mem_range.1 hp⟩

theorem results_append {ts us : List Thread} :
    (ts ++ us).filterMap result = ts.filterMap result ++ us.filterMap result :=
  List.filterMap_append

theorem ended_idle {ts : List Thread} (h : ∀ t ∈ ts, busy t = false) :
    ts.map Thread.ended = ts := by
  refine (List.map_congr_left fun t ht => ?_).trans (List.map_id ts)
  cases t with
  | working op p => have := h _ ht; cases this
  | ready op r => rfl
  | gone op => rfl

/-- The process is idle and is the sequential device `d`, the operations so far having given `rs`. -/
def Idle (s : Process) (d : Device) (rs : List (Op × Reply)) : Prop :=
  (∀ t ∈ s.threads, busy t = false) ∧ (s.alive = true → Sound s.mem) ∧ view s.mem = d.world ∧
    s.alive = d.alive ∧ results s = rs

/-- The process is working at `op`, on which the sequential device `d` is about to begin. -/
def Busy (E : Env) (s : Process) (d : Device) (rs : List (Op × Reply)) (op : Op) : Prop :=
  ∃ ts upd next m0, s.threads = ts ++ [.working op (.act upd next)] ∧
    (∀ t ∈ ts, busy t = false) ∧ ts.filterMap result = rs ∧ s.alive = true ∧ d.alive = true ∧
    op ≠ .restart ∧ Sound m0 ∧ view m0 = d.world ∧
    (Prog.act upd next).run s.mem = (perform E op).run m0

/-- What a process does when its only working goroutine takes a step. -/
theorem moved_cases {ts : List Thread} {t : Thread} {mem : Mem} {s : Process} {op : Op}
    {p : Prog Reply} {d : Device} {rs : List (Op × Reply)} {m0 : Mem}
    (hs : s.threads = ts ++ [t]) (ht : ∀ t ∈ ts, busy t = false) (hrs : ts.filterMap result = rs)
    (ha : s.alive = true) (hd : d.alive = true) (hop : op ≠ .restart) (hm0 : Sound m0)
    (hv : view m0 = d.world) (hp : p.run mem = (perform E op).run m0) :
    Idle (s.moved ts.length op mem p) (Device.step E cfg d op).2
        (rs ++ [(op, (Device.step E cfg d op).1)].filter isResult) ∨
      Busy E (s.moved ts.length op mem p) d rs op := by
  have hset : ∀ u, (ts ++ [t]).set ts.length u = ts ++ [u] := by intro u; simp
  have hr : isRestart op = false := by
    cases op <;> first | rfl | exact absurd rfl hop
  have hstep := Device.step_live (E := E) (cfg := cfg) (d := d) hr hd
  have hres : ∀ r w, Device.perform E op d.world = (.ok r, w) → isResult (op, r) = true := by
    intro r w h
    cases op with
    | restart => exact absurd rfl hop
    | ctap msg =>
      unfold Device.perform at h
      dsimp only at h
      rw [Go.run_bind] at h
      split at h
      · cases h; rfl
      · cases h
    | u2f msg =>
      unfold Device.perform at h
      dsimp only at h
      rw [Go.run_bind] at h
      split at h
      · cases h; rfl
      · cases h
    | enablePIN =>
      unfold Device.perform at h
      dsimp only at h
      rw [Go.run_bind] at h
      split at h
      · cases h; rfl
      · cases h
    | disablePIN =>
      unfold Device.perform at h
      dsimp only at h
      rw [Go.run_bind] at h
      split at h
      · cases h; rfl
      · cases h
    | setPIN pin =>
      unfold Device.perform at h
      dsimp only at h
      rw [Go.run_bind] at h
      split at h
      · cases h; rfl
      · cases h
    | deleteIdentity id =>
      unfold Device.perform at h
      dsimp only at h
      rw [Go.run_bind] at h
      split at h
      · cases h; rfl
      · cases h
  cases p with
  | ret r =>
    left
    have e : (perform E op).run m0 = (.ok r, mem) := hp.symm
    rcases perform_sim E op hm0 with ⟨a, b, m', h1, h2, h3, h4⟩ | ⟨c, m', h1, h2⟩
    · rw [e] at h1
      injection h1 with h5 h6
      injection h5 with h5
      subst h6
      have h4 : a = b := h4
      rw [← h4, ← h5] at h2
      rw [hv] at h2
      rw [hstep, h2]
      refine ⟨?_, fun _ => h3, rfl, ha, ?_⟩
      · show ∀ t ∈ s.threads.set ts.length (.ready op r), busy t = false
        rw [hs, hset]
        intro t ht'
        rcases List.mem_append.1 ht' with h | h
        · exact ht t h
        · rw [List.mem_singleton.1 h]; rfl
      · show (s.threads.set ts.length (.ready op r)).filterMap result = _
        rw [hs, hset, List.filterMap_append, hrs]
        rw [List.filter_cons_of_pos (hres r _ h2)]
        rfl
    · rw [e] at h1
      cases (Prod.mk.inj h1).1
  | fail c =>
    left
    have e : (perform E op).run m0 = (.panic c, mem) := hp.symm
    rcases perform_sim E op hm0 with ⟨a, b, m', h1, h2, h3, h4⟩ | ⟨c', m', h1, h2⟩
    · rw [e] at h1
      cases (Prod.mk.inj h1).1
    · rw [e] at h1
      injection h1 with h5 h6
      subst h6
      rw [hv] at h2
      rw [hstep, h2]
      have hidle : ∀ t ∈ ts ++ [Thread.gone op], busy t = false := by
        intro t ht'
        rcases List.mem_append.1 ht' with h | h
        · exact ht t h
        · rw [List.mem_singleton.1 h]; rfl
      have eth : (s.threads.set ts.length (.gone op)).map Thread.ended = ts ++ [Thread.gone op] := by
        rw [hs, hset, ended_idle hidle]
      refine ⟨?_, fun h => (by cases h), rfl, rfl, ?_⟩
      · show ∀ t ∈ (s.threads.set ts.length (.gone op)).map Thread.ended, busy t = false
        rw [eth]
        exact hidle
      · show ((s.threads.set ts.length (.gone op)).map Thread.ended).filterMap result = _
        rw [eth, List.filterMap_append, hrs]
        rfl
  | act upd next =>
    right
    refine ⟨ts, upd, next, m0, ?_, ht, hrs, ha, hd, hop, hm0, hv, hp⟩
    show s.threads.set ts.length (.working op (.act upd next)) = _
    rw [hs, hset]

theorem step_idle_turn {s : Process} {d : Device} {rs : List (Op × Reply)} (h : Idle s d rs) (i : Nat) :
    s.step E cfg (.turn i) = s := by
  unfold Process.step
  dsimp only
  cases hi : s.threads[i]? with
  | none => rfl
  | some t =>
    cases t with
    | working op p =>
      have := h.1 _ (List.mem_of_getElem? hi)
      cases this
    | ready op r => rfl
    | gone op => rfl

theorem step_idle_begin {s : Process} {d : Device} {rs : List (Op × Reply)} (h : Idle s d rs) (op : Op)
    (hop : op ≠ .restart) :
    Idle (s.step E cfg (.begin op)) (Device.step E cfg d op).2
        (rs ++ [(op, (Device.step E cfg d op).1)].filter isResult) ∨
      Busy E (s.step E cfg (.begin op)) d rs op := by
  obtain ⟨h1, h2, h3, h4, h5⟩ := h
  unfold Process.step
  rcases Bool.eq_false_or_eq_true s.alive with ha | ha
  rotate_left
  · left
    have hr : isRestart op = false := by
      cases op <;> first | rfl | exact absurd rfl hop
    have hd : d.alive = false := by rw [← h4, ha]
    rw [Device.step_dead hr hd]
    dsimp only
    rw [if_neg (by simp [ha])]
    have : [(op, Reply.nothing)].filter isResult = [] := rfl
    rw [this, List.append_nil]
    exact ⟨h1, h2, h3, h4, h5⟩
  · dsimp only
    rw [if_pos ⟨ha, hop⟩]
    exact moved_cases (s := { s with threads := s.threads ++ [Thread.gone op] }) rfl h1 h5 ha
      (by rw [← h4, ha]) hop (h2 ha) h3 rfl

theorem step_busy_turn {s : Process} {d : Device} {rs : List (Op × Reply)} {op : Op}
    (h : Busy E s d rs op) (i : Nat) :
    Idle (s.step E cfg (.turn i)) (Device.step E cfg d op).2
        (rs ++ [(op, (Device.step E cfg d op).1)].filter isResult) ∨
      Busy E (s.step E cfg (.turn i)) d rs op := by
  obtain ⟨ts, upd, next, m0, h1, h2, h3, h4, h5, h6, h7, h8, h9⟩ := h
  unfold Process.step
  dsimp only
  by_cases hi : i = ts.length
  · subst hi
    have : s.threads[ts.length]? = some (.working op (.act upd next)) := by rw [h1]; simp
    rw [this]
    dsimp only
    rw [if_pos h4]
    exact moved_cases h1 h2 h3 h4 h5 h6 h7 h8 h9
  · right
    have hb : Busy E s d rs op := ⟨ts, upd, next, m0, h1, h2, h3, h4, h5, h6, h7, h8, h9⟩
    have e : s.threads[i]? = none ∨ ∃ t, s.threads[i]? = some t ∧ busy t = false := by
      rw [h1]
      by_cases hl : i < ts.length
      · right
        rw [List.getElem?_append_left hl, List.getElem?_eq_getElem hl]
        exact ⟨_, rfl, h2 _ (List.getElem_mem hl)⟩
      · left
        exact List.getElem?_eq_none (by simp; omega)
    rcases e with e | ⟨t, e, hbt⟩
    · rw [e]; exact hb
    · rw [e]
      cases t with
      | working op' p => cases hbt
      | ready _ _ => exact hb
      | gone _ => exact hb

theorem step_idle_restart {s : Process} {d : Device} {rs : List (Op × Reply)} (h : Idle s d rs) :
    Idle (s.step E cfg .restart) (Device.step E cfg d .restart).2 rs := by
  obtain ⟨h1, h2, h3, h4, h5⟩ := h
  have e1 : s.mem.world.store = d.world.store := by rw [← h3]; rfl
  have e2 : s.mem.world.rnd = d.world.rnd := by rw [← h3]; rfl
  have e3 : s.mem.world.asks = d.world.asks := by rw [← h3]; rfl
  unfold Process.step Device.step
  dsimp only
  rw [e1, e2]
  cases Client.start E cfg d.world.store d.world.rnd with
  | ok c =>
    dsimp only
    refine ⟨?_, fun _ => sound_load _, ?_, rfl, ?_⟩
    · rw [ended_idle h1]; exact h1
    · rw [view_load]
      dsimp only
      rw [e3]
    · show (s.threads.map Thread.ended).filterMap result = rs
      rw [ended_idle h1]; exact h5
  | panic c =>
    dsimp only
    refine ⟨?_, fun h => (by cases h), ?_, rfl, ?_⟩
    · rw [ended_idle h1]; exact h1
    · rw [← h3]; rfl
    · show (s.threads.map Thread.ended).filterMap result = rs
      rw [ended_idle h1]; exact h5

theorem idle_not_busy {s : Process} {d : Device} {rs : List (Op × Reply)} {op : Op}
    (h : Busy E s d rs op) (hi : ∀ t ∈ s.threads, busy t = false) : False := by
  obtain ⟨ts, upd, next, m0, h1, -⟩ := h
  have := hi (.working op (.act upd next)) (by rw [h1]; simp)
  cases this

theorem events_append (d : Device) (xs : List Op) (op : Op) :
    events E cfg d (xs ++ [op]) =
      events E cfg d xs ++ [(op, (Device.step E cfg (Device.after E cfg d xs) op).1)] := by
  induction xs generalizing d with
  | nil => rfl
  | cons x xs ih =>
    show (x, (Device.step E cfg d x).1) :: events E cfg (Device.step E cfg d x).2 (xs ++ [op]) = _
    rw [ih]
    rfl

theorem one_at_a_time : ∀ (evs : List Event) (s : Process) (done : List Op) (d0 : Device),
    ((Idle s (Device.after E cfg d0 done) ((events E cfg d0 done).filter isResult) ∧
        OneAtATime E cfg s evs →
      (∀ t ∈ (s.run E cfg evs).threads, busy t = false) →
      Idle (s.run E cfg evs) (Device.after E cfg d0 (done ++ operations evs))
        ((events E cfg d0 (done ++ operations evs)).filter isResult)) ∧
     (∀ op, Busy E s (Device.after E cfg d0 done) ((events E cfg d0 done).filter isResult) op ∧
        OneAtATime E cfg s evs →
      (∀ t ∈ (s.run E cfg evs).threads, busy t = false) →
      Idle (s.run E cfg evs) (Device.after E cfg d0 (done ++ op :: operations evs))
        ((events E cfg d0 (done ++ op :: operations evs)).filter isResult)))
  | [], s, done, d0 => by
    constructor
    · rintro ⟨h, -⟩ -
      rw [show operations [] = [] from rfl, List.append_nil]
      exact h
    · rintro op ⟨h, -⟩ hi
      exact (idle_not_busy h hi).elim
  | e :: evs, s, done, d0 => by
    have ih := fun s done => one_at_a_time evs s done d0
    have hafter : ∀ op, (Device.step E cfg (Device.after E cfg d0 done) op).2 =
        Device.after E cfg d0 (done ++ [op]) := by
      intro op
      rw [Device.after_append]
      rfl
    have hev : ∀ op, (events E cfg d0 done).filter isResult ++
        [(op, (Device.step E cfg (Device.after E cfg d0 done) op).1)].filter isResult =
        (events E cfg d0 (done ++ [op])).filter isResult := by
      intro op
      rw [events_append, List.filter_append]
    constructor
    · rintro ⟨h, ho⟩ hi
      cases e with
      | turn i =>
        have hs := step_idle_turn (E := E) (cfg := cfg) h i
        have ho' : OneAtATime E cfg s evs := by
          have : OneAtATime E cfg (s.step E cfg (.turn i)) evs := ho
          rw [hs] at this
          exact this
        have hr : s.run E cfg (.turn i :: evs) = s.run E cfg evs := by
          show (s.step E cfg (.turn i)).run E cfg evs = _
          rw [hs]
        rw [hr] at hi ⊢
        exact (ih s done).1 ⟨h, ho'⟩ hi
      | begin op =>
        by_cases hop : op = .restart
        · have hs : s.step E cfg (.begin op) = s := by
            unfold Process.step
            dsimp only
            rw [if_neg (fun h => h.2 hop)]
          have hr : s.run E cfg (.begin op :: evs) = s.run E cfg evs := by
            show (s.step E cfg (.begin op)).run E cfg evs = _
            rw [hs]
          have ho' : OneAtATime E cfg s evs := by
            have : OneAtATime E cfg (s.step E cfg (.begin op)) evs := ho.2
            rw [hs] at this
            exact this
          rw [hr] at hi ⊢
          rw [show operations (.begin op :: evs) = operations evs from if_pos hop]
          exact (ih s done).1 ⟨h, ho'⟩ hi
        · rw [show operations (.begin op :: evs) = op :: operations evs from if_neg hop]
          rcases step_idle_begin (E := E) (cfg := cfg) h op hop with hn | hn
          · rw [hafter, hev] at hn
            have := (ih _ _).1 ⟨hn, ho.2⟩ hi
            rw [List.append_assoc] at this
            exact this
          · exact (ih _ done).2 op ⟨hn, ho.2⟩ hi
      | restart =>
        have hn := step_idle_restart (E := E) (cfg := cfg) h
        rw [hafter] at hn
        have e : (events E cfg d0 done).filter isResult =
            (events E cfg d0 (done ++ [.restart])).filter isResult := by
          rw [← hev]
          have : [(Op.restart, (Device.step E cfg (Device.after E cfg d0 done) .restart).1)].filter
              isResult = [] := by
            have hst : (Device.step E cfg (Device.after E cfg d0 done) .restart).1 = .started ∨
                (Device.step E cfg (Device.after E cfg d0 done) .restart).1 = .panicked := by
              unfold Device.step
              dsimp only
              split
              · exact .inl rfl
              · exact .inr rfl
            rcases hst with h | h <;> rw [h] <;> rfl
          rw [this, List.append_nil]
        rw [e] at hn
        have := (ih _ _).1 ⟨hn, ho.2⟩ hi
        rw [List.append_assoc] at this
        exact this
    · rintro op ⟨h, ho⟩ hi
      cases e with
      | turn i =>
        rcases step_busy_turn (E := E) (cfg := cfg) h i with hn | hn
        · rw [hafter, hev] at hn
          have := (ih _ _).1 ⟨hn, ho⟩ hi
          rw [List.append_assoc] at this
          exact this
        · exact (ih _ done).2 op ⟨hn, ho⟩ hi
      | begin op' => exact (idle_not_busy h ho.1).elim
      | restart => exact (idle_not_busy h ho.1).elim

theorem idle_boot : Idle (boot E cfg) (Device.boot E cfg) [] := by
  refine ⟨?_, fun _ => sound_load _, view_load _, rfl, rfl⟩
  intro t ht
  cases ht

/-- An operation is completed when its goroutine takes turns. -/
theorem finishes (op : Op) (i : Nat) : ∀ (p : Prog Reply) (s : Process) (mem : Mem), s.alive = true →
    i < s.threads.length → ∃ n, (s.moved i op mem p).run E cfg (List.replicate n (.turn i)) =
      match p.run mem with
      | (.ok r, m') => { s with mem := m', threads := s.threads.set i (.ready op r) }
      | (.panic _, m') =>
        { mem := m', threads := (s.threads.set i (.gone op)).map Thread.ended, alive := false }
  | .ret r, s, mem, _, _ => ⟨0, rfl⟩
  | .fail c, s, mem, _, _ => ⟨0, rfl⟩
  | .act upd next, s, mem, ha, hi => by
    let s1 : Process := { s with mem := mem, threads := s.threads.set i (.working op (.act upd next)) }
    obtain ⟨n, hn⟩ := finishes op i (next mem) s1 (upd mem) ha (by simpa [s1] using hi)
    refine ⟨n + 1, ?_⟩
    rw [List.replicate_succ]
    show ((s1.step E cfg (.turn i)).run E cfg (List.replicate n (.turn i))) = _
    have hs : s1.step E cfg (.turn i) = s1.moved i op (upd mem) (next mem) := by
      unfold Process.step
      have : s1.threads[i]? = some (.working op (.act upd next)) := by simp [s1, hi]
      dsimp only
      rw [this]
      dsimp only
      rw [if_pos (show s1.alive = true from ha)]
    rw [hs, hn]
    show _ = match (next mem).run (upd mem) with
      | (.ok r, m') => _
      | (.panic _, m') => _
    cases (next mem).run (upd mem) with
    | mk r m' =>
      cases r with
      | ok r => simp [s1, List.set_set]
      | panic c => simp [s1, List.set_set]

end VF.Fido.Overlap
