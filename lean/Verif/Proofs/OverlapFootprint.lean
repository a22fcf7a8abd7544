import Verif.Proofs.OverlapTraced

/-!
# What overlapping requests change together
-/

namespace VF.Fido.Overlap

open Prog VF.Spec.Overlap

variable {E : Env} {cfg : Client.Config} {t t' : Touches} {m m' m'' : Mem}

theorem keeps_mono (h : t.Within t') (k : Keeps t m m') : Keeps t' m m' := by
  have off : ∀ {a b : Bool}, (a = true → b = true) → b = false → a = false := by
    intro a b h hb
    cases a with
    | false => rfl
    | true => rw [h rfl] at hb; cases hb
  obtain ⟨h1, h2, h3, h4, h5, h6, h7, h8, h9, h10⟩ := h
  exact {
    deviceKey := k.deviceKey
    cert := k.cert
    certKey := k.certKey
    pinToken := k.pinToken
    keyAgreement := k.keyAgreement
    vault := k.vault
    credentials := fun h => k.credentials (off h1 h)
    creates := fun h => k.creates (off h2 h)
    counters := fun h => k.counters (off h3 h)
    fresh := fun h => k.fresh (off h3 h)
    entries := k.entries
    pinHash := fun h => k.pinHash (off h4 h)
    pinRetries := fun h => k.pinRetries (off h5 h)
    pinEnabled := fun h => k.pinEnabled (off h6 h)
    authCounter := fun h => k.authCounter (off h7 h)
    asks := fun h => k.asks (off h8 h)
    rnd := fun h => k.rnd (off h9 h)
    store := fun h => k.store (off h10 h) }

theorem keeps_trans (h : Keeps t m m') (k : Keeps t m' m'') : Keeps t m m'' where
  deviceKey := k.deviceKey.trans h.deviceKey
  cert := k.cert.trans h.cert
  certKey := k.certKey.trans h.certKey
  pinToken := k.pinToken.trans h.pinToken
  keyAgreement := k.keyAgreement.trans h.keyAgreement
  vault := k.vault.trans h.vault
  credentials := fun e => (k.credentials e).trans (h.credentials e)
  creates := fun e => (k.creates e).trans (h.creates e)
  counters := fun e p s hp => k.counters e p s (h.counters e p s hp)
  fresh := fun e p s h1 h2 => by
    by_cases hp : p < m'.heap.length
    · have h3 := k.counters e p _ (List.getElem?_eq_getElem hp)
      rw [h2] at h3
      obtain rfl := Option.some.inj h3
      exact h.fresh e p _ h1 (List.getElem?_eq_getElem hp)
    · exact k.fresh e p s (by omega) h2
  entries := fun p s hp => by
    obtain ⟨n, hn⟩ := h.entries p s hp
    obtain ⟨n', hn'⟩ := k.entries p _ hn
    exact ⟨n', hn'⟩
  pinHash := fun e => (k.pinHash e).trans (h.pinHash e)
  pinRetries := fun e => (k.pinRetries e).trans (h.pinRetries e)
  pinEnabled := fun e => (k.pinEnabled e).trans (h.pinEnabled e)
  authCounter := fun e => (k.authCounter e).trans (h.authCounter e)
  asks := fun e => (k.asks e).trans (h.asks e)
  rnd := fun e => (k.rnd e).trans (h.rnd e)
  store := fun e => (k.store e).trans (h.store e)

/-- Nothing may change: the memory is the same. -/
theorem keeps_nothing (k : Keeps {} m m') : m' = m := by
  obtain ⟨w, heap, slots⟩ := m
  obtain ⟨w', heap', slots'⟩ := m'
  obtain ⟨c, store, asks, rnd⟩ := w
  obtain ⟨c', store', asks', rnd'⟩ := w'
  have e1 := k.deviceKey
  have e2 := k.cert
  have e3 := k.certKey
  have e4 := k.pinToken
  have e5 := k.keyAgreement
  have e6 := k.vault
  have e7 := k.credentials rfl
  have e8 := k.creates rfl
  have e9 := k.counters rfl
  have e10 := k.pinHash rfl
  have e11 := k.pinRetries rfl
  have e12 := k.pinEnabled rfl
  have e13 := k.authCounter rfl
  have e14 := k.asks rfl
  have e15 := k.rnd rfl
  have e16 := k.store rfl
  have hh : heap' = heap := by
    refine List.ext_getElem? (fun p => ?_)
    dsimp only at e8 e9
    by_cases hp : p < heap.length
    · rw [List.getElem?_eq_getElem hp, e9 p heap[p] (List.getElem?_eq_getElem hp)]
    · rw [List.getElem?_eq_none (by omega), List.getElem?_eq_none (by omega)]
  have hc : c' = c := by
    cases c
    cases c'
    simp_all
  simp_all

/-- The memory after an event: as before, or a goroutine has done a step. -/
theorem step_mem (s : Process) (e : Event) (he : e ≠ .restart) : (s.step E cfg e).mem = s.mem ∨
    ∃ i op upd next, e = .turn i ∧ s.threads[i]? = some (.working op (.act upd next)) ∧ s.alive = true ∧
      (s.step E cfg e).mem = upd s.mem := by
  have hmoved : ∀ (s : Process) i op m (p : Prog Reply), (s.moved i op m p).mem = m := by
    intro s i op m p
    cases p <;> rfl
  cases e with
  | restart => exact absurd rfl he
  | begin op =>
    left
    unfold Process.step
    dsimp only
    split
    · exact hmoved _ _ _ _ _
    · rfl
  | turn i =>
    unfold Process.step
    dsimp only
    split
    · rename_i op upd next hi
      split
      · rename_i ha
        exact .inr ⟨i, op, upd, next, rfl, hi, ha, hmoved _ _ _ _ _⟩
      · exact .inl rfl
    · exact .inl rfl

theorem begin_mem (s : Process) (op : Op) : (s.step E cfg (.begin op)).mem = s.mem := by
  rcases step_mem (E := E) (cfg := cfg) s (.begin op) (by simp) with h | ⟨i, _, _, _, h, -⟩
  · exact h
  · cases h

/-- A step of a goroutine changes what its operation may change. -/
theorem turn_keeps (evs : List Event) (i : Nat) (op : Op) (p : Prog Reply)
    (h : ((boot E cfg).run E cfg evs).threads[i]? = some (.working op p)) :
    Keeps (touches E op) ((boot E cfg).run E cfg evs).mem
      (((boot E cfg).run E cfg evs).step E cfg (.turn i)).mem := by
  rcases step_mem (E := E) (cfg := cfg) ((boot E cfg).run E cfg evs) (.turn i) (by simp) with
    h1 | ⟨j, op', upd, next, hj, h1, -, h2⟩
  · rw [h1]
    exact keeps_refl _ _
  · obtain rfl : i = j := by injection hj
    rw [h] at h1
    injection h1 with h1
    injection h1 with h3 h4
    subst h3 h4
    rw [h2]
    rcases working_traced (boot E cfg) (fun i op p h => by cases h) evs i op _ h
      ((boot E cfg).run E cfg evs).mem trivial with h | h
    · exact absurd h id
    · exact h.1

/-- Only operations within `t` are at work or begin. -/
theorem history_keeps (evs evs' : List Event) (hr : .restart ∉ evs')
    (hw : ∀ op p, Thread.working op p ∈ ((boot E cfg).run E cfg evs).threads → (touches E op).Within t)
    (hb : ∀ op, .begin op ∈ evs' → (touches E op).Within t) :
    Keeps t ((boot E cfg).run E cfg evs).mem ((boot E cfg).run E cfg (evs ++ evs')).mem := by
  induction evs' generalizing evs with
  | nil => rw [List.append_nil]; exact keeps_refl _ _
  | cons e evs' ih =>
    have he : e ≠ .restart := fun h => hr (h ▸ .head _)
    have h1 : Keeps t ((boot E cfg).run E cfg evs).mem ((boot E cfg).run E cfg (evs ++ [e])).mem := by
      rw [run_snoc]
      rcases step_mem (E := E) (cfg := cfg) ((boot E cfg).run E cfg evs) e he with
        h1 | ⟨j, op, upd, next, rfl, h1, -, -⟩
      · rw [h1]
        exact keeps_refl _ _
      · exact keeps_mono (hw op _ (List.mem_of_getElem? h1)) (turn_keeps evs j op _ h1)
    have h2 := ih (evs ++ [e]) (fun h => hr (.tail _ h)) (by
      intro op p hp
      obtain ⟨i, hi⟩ := List.mem_iff_getElem?.1 hp
      rw [run_snoc] at hi
      rcases thread_step hi with ⟨u, hu, ⟨-, rfl⟩ | h⟩ | ⟨op', rfl, -, -, -, h⟩ |
          ⟨op', upd, next, -, -, hu, h⟩
      · exact hw op p (List.mem_of_getElem? hu)
      · exact absurd h.symm (ended_not_working u op p)
      · obtain ⟨rfl, rfl⟩ := settle_working h.symm
        exact hb _ (.head _)
      · obtain ⟨rfl, rfl⟩ := settle_working h.symm
        exact hw _ _ (List.mem_of_getElem? hu)) (fun op h => hb op (.tail _ h))
    rw [List.append_assoc] at h2
    exact keeps_trans h1 h2

end VF.Fido.Overlap
