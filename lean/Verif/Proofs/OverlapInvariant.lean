import Verif.Proofs.OverlapSafePerform

/-!
# What holds of a process at all times, however the requests overlap
-/

namespace VF.Fido.Overlap

open VF.Spec.Client VF.Spec.Vault VF.Spec.Cose VF.Spec.Overlap VF.Spec.Approval VF.Spec.History Prog

variable {E : Env} {cfg : Client.Config} {keep : Bool}

/-- `bs` has the question that was asked for each goroutine, `Q` is what results have to satisfy, in
the memory when the goroutine ended, `H`. -/
structure Inv (E : Env) (cfg : Client.Config) (keep : Bool)
    (Q : Nat → Op → Option Ask → Reply → Mem → Prop) (H : Nat → Mem → Prop) (s : Process)
    (bs : List (Option Ask)) : Prop where
  good : Good E cfg s.mem
  keys : s.mem.world.client.deviceKey = cfg.deviceKey ∧ s.mem.world.client.cert = cfg.cert ∧
    SamePrivate s.mem.world.client.certKey cfg.certKey
  length : bs.length = s.threads.length
  asks : (bs.filterMap id).Perm s.mem.world.asks
  working : ∀ (i : Nat) op p, s.threads[i]? = some (.working op p) → ∃ b upd next,
    bs[i]? = some b ∧ p = .act upd next ∧ (keep = true → keepsPIN op = true) ∧
      Safe E cfg keep (keepsPIN op) (isRequest op) (Q i op) b p s.mem
  ready : ∀ (i : Nat) op r, s.threads[i]? = some (.ready op r) →
    ∃ b m, bs[i]? = some b ∧ H i m ∧ Q i op b r m
  quiet : ∀ (i : Nat) t b, s.threads[i]? = some t → bs[i]? = some b → isRequest (opOf t) = false → b = none

theorem filterMap_set_none : ∀ (bs : List (Option Ask)) (i : Nat) (a : Ask), bs[i]? = some none →
    ((bs.set i (some a)).filterMap id).Perm (bs.filterMap id ++ [a])
  | [], i, a, h => by simp at h
  | b :: bs, 0, a, h => by
    obtain rfl : b = none := by simpa using h
    simp only [List.set_cons_zero, List.filterMap_cons, id]
    exact (List.perm_append_comm (l₁ := [a]) (l₂ := bs.filterMap id))
  | b :: bs, i + 1, a, h => by
    have ih := filterMap_set_none bs i a (by simpa using h)
    simp only [List.set_cons_succ, List.filterMap_cons, id]
    cases b with
    | none => exact ih
    | some b => exact ih.cons b

theorem set_same {bs : List (Option Ask)} {i : Nat} {b : Option Ask} (h : bs[i]? = some b) :
    bs.set i b = bs := by
  apply List.ext_getElem?
  intro j
  rw [List.getElem?_set]
  by_cases hj : i = j
  · subst hj
    rw [if_pos rfl, if_pos (List.getElem?_eq_some_iff.1 h).1, h]
  · rw [if_neg hj]

theorem ended_getElem {ts : List Thread} {i : Nat} {t : Thread} (h : (ts.map Thread.ended)[i]? = some t) :
    ∃ u, ts[i]? = some u ∧ opOf u = opOf t ∧ (∀ op p, t ≠ .working op p) ∧
      (∀ op r, t = .ready op r → u = .ready op r) := by
  rw [List.getElem?_map] at h
  cases hu : ts[i]? with
  | none => rw [hu] at h; cases h
  | some u =>
    rw [hu] at h
    obtain rfl := Option.some.inj h
    refine ⟨u, rfl, ?_, ?_, ?_⟩ <;> cases u <;> intros <;> simp_all [Thread.ended, opOf]

section
variable {Q : Nat → Op → Option Ask → Reply → Mem → Prop} {H H' : Nat → Mem → Prop} {s : Process}
  {bs : List (Option Ask)}

/-- The process ends: nobody works on. -/
theorem Inv.ended (h : Inv E cfg keep Q H s bs) (hH : ∀ i m, H i m → H' i m) {mem : Mem} {alive : Bool}
    (hg : Good E cfg mem) (hk : mem.world.client.deviceKey = s.mem.world.client.deviceKey ∧
      mem.world.client.cert = s.mem.world.client.cert ∧
      SamePrivate mem.world.client.certKey s.mem.world.client.certKey)
    (ha : mem.world.asks = s.mem.world.asks) :
    Inv E cfg keep Q H' { mem := mem, threads := s.threads.map Thread.ended, alive := alive } bs where
  good := hg
  keys := ⟨hk.1.trans h.keys.1, hk.2.1.trans h.keys.2.1, SamePrivate.trans hk.2.2 h.keys.2.2⟩
  length := by rw [h.length, List.length_map]
  asks := by
    show (bs.filterMap id).Perm mem.world.asks
    rw [ha]
    exact h.asks
  working := by
    intro i op p hi
    obtain ⟨u, -, -, h3, -⟩ := ended_getElem hi
    exact absurd rfl (h3 op p)
  ready := by
    intro i op r hi
    obtain ⟨u, h1, -, -, h4⟩ := ended_getElem hi
    obtain ⟨b, m, q1, q2, q3⟩ := h.ready i op r (by rw [h1, h4 op r rfl])
    exact ⟨b, m, q1, hH _ m q2, q3⟩
  quiet := by
    intro i t b hi hb hr
    obtain ⟨u, h1, h2, -, -⟩ := ended_getElem hi
    exact h.quiet i u b h1 hb (by rw [h2]; exact hr)

/-- Goroutine `i` takes a step, all working ones being safe. -/
theorem Inv.moved (h : Inv E cfg keep Q H s bs) (hH : ∀ i m, H i m → H' i m) {i : Nat} {t : Thread}
    {op : Op} {b b' : Option Ask} {mem : Mem} {p : Prog Reply} (ht : s.threads[i]? = some t)
    (hop : opOf t = op) (hb : bs[i]? = some b) (hg : Good E cfg mem)
    (hr : Rel (keepsPIN op) s.mem mem) (hko : keep = true → keepsPIN op = true)
    (ha : Asked (isRequest op) b s.mem mem b')
    (hs : Safe E cfg keep (keepsPIN op) (isRequest op) (Q i op) b' p mem)
    (hm : ∀ r, p = .ret r → H' i mem) :
    Inv E cfg keep Q H' (s.moved i op mem p) (bs.set i b') := by
  have hil := (List.getElem?_eq_some_iff.1 ht).1
  have hbl := (List.getElem?_eq_some_iff.1 hb).1
  have hasks : ((bs.set i b').filterMap id).Perm mem.world.asks := by
    rcases ha with ⟨a1, rfl⟩ | ⟨-, rfl, a, a1, rfl⟩
    · rw [set_same hb, a1]
      exact h.asks
    · rw [a1]
      exact (filterMap_set_none bs i a hb).trans (h.asks.append_right [a])
  have hquiet : ∀ b'', (bs.set i b')[i]? = some b'' → isRequest op = false → b'' = none := by
    intro b'' h1 h2
    rw [List.getElem?_set, if_pos rfl, if_pos hbl] at h1
    obtain rfl := Option.some.inj h1
    rcases ha with ⟨-, rfl⟩ | ⟨a1, -⟩
    · exact h.quiet i t _ ht hb (by rw [hop]; exact h2)
    · rw [h2] at a1
      cases a1
  -- the process with the goroutine's new state
  have key : ∀ t', opOf t' = op → (∀ op' p', t' = .working op' p' → op' = op ∧ p' = p ∧ ∃ upd next, p = .act upd next) →
      (∀ op' r, t' = .ready op' r → op' = op ∧ p = .ret r) →
      Inv E cfg keep Q H' { s with mem := mem, threads := s.threads.set i t' } (bs.set i b') := by
    intro t' ho hw hrd
    refine ⟨hg, ?_, by simp [h.length], hasks, ?_, ?_, ?_⟩
    · show mem.world.client.deviceKey = cfg.deviceKey ∧ mem.world.client.cert = cfg.cert ∧
        SamePrivate mem.world.client.certKey cfg.certKey
      rw [hr.deviceKey, hr.cert, hr.certKey]
      exact h.keys
    · intro j op' p' hj
      dsimp only at hj
      rw [List.getElem?_set] at hj
      by_cases hij : i = j
      · subst hij
        rw [if_pos rfl, if_pos hil] at hj
        obtain ⟨rfl, rfl, upd, next, e⟩ := hw op' p' (Option.some.inj hj)
        exact ⟨b', upd, next, by simp [hbl], e, hko, hs⟩
      · rw [if_neg hij] at hj
        obtain ⟨c, upd, next, k1, k2, k3, k4⟩ := h.working j op' p' hj
        refine ⟨c, upd, next, by rw [List.getElem?_set, if_neg hij]; exact k1, k2, k3, ?_⟩
        subst k2
        exact k4.later (hr.weaken hko)
    · intro j op' r hj
      dsimp only at hj
      rw [List.getElem?_set] at hj
      by_cases hij : i = j
      · subst hij
        rw [if_pos rfl, if_pos hil] at hj
        obtain ⟨rfl, e⟩ := hrd op' r (Option.some.inj hj)
        have hm' := hm r e
        rw [e] at hs
        exact ⟨b', mem, by simp [hbl], hm', hs⟩
      · rw [if_neg hij] at hj
        obtain ⟨c, m, k1, k2, k3⟩ := h.ready j op' r hj
        exact ⟨c, m, by rw [List.getElem?_set, if_neg hij]; exact k1, hH _ m k2, k3⟩
    · intro j u c hj hc hreq
      dsimp only at hj
      rw [List.getElem?_set] at hj
      by_cases hij : i = j
      · subst hij
        rw [if_pos rfl, if_pos hil] at hj
        obtain rfl := Option.some.inj hj
        rw [ho] at hreq
        exact hquiet c hc hreq
      · rw [if_neg hij] at hj
        rw [List.getElem?_set, if_neg hij] at hc
        exact h.quiet j u c hj hc hreq
  cases p with
  | ret r =>
    exact key (.ready op r) rfl (fun _ _ e => by cases e) (fun _ _ e => by cases e; exact ⟨rfl, rfl⟩)
  | act upd next =>
    exact key (.working op (.act upd next)) rfl
      (fun _ _ e => by cases e; exact ⟨rfl, rfl, upd, next, rfl⟩) (fun _ _ e => by cases e)
  | fail c =>
    have h1 := key (.gone op) rfl (fun _ _ e => by cases e) (fun _ _ e => by cases e)
    exact h1.ended (fun _ _ h => h) hg ⟨rfl, rfl, SamePrivate.refl _⟩ rfl

theorem ecdsa_only {a b : PrivKey} {k : ECPriv} (h : SamePrivate a b)
    (ha : a = { ecdsa := some k }) : b = { ecdsa := some k } := by
  subst ha
  obtain ⟨h1, h2, h3⟩ := h
  cases b with
  | mk x y z =>
    dsimp only at h1 h2 h3
    subst h1 h2
    cases z with
    | none => rfl
    | some z => cases h3

theorem good_restart {m : Mem} (hg : Good E cfg m) (n : Nat) : ∃ c, Client.start E cfg m.world.store n = .ok c ∧
    (c.deviceKey = m.world.client.deviceKey ∧ c.cert = m.world.client.cert ∧
      SamePrivate c.certKey m.world.client.certKey) ∧
    (∀ s ∈ c.vault, ∃ t ∈ m.heap, s.id = t.id ∧ s.key = t.key) ∧
    ∀ rnd, m.world.rnd ≤ rnd → Good E cfg (load { m.world with client := c, rnd := rnd }) := by
  obtain ⟨c0, h1, h2, h3, h4, h5, h6⟩ := hg.saved
  obtain ⟨c, k1, ⟨e1, e2, e3, e4, e5, e6, e7⟩, ⟨q1, q2, q3, q4, q5⟩, -⟩ := h2 n
  refine ⟨c, k1, ⟨e1 ▸ h3, e2 ▸ h4, SamePrivate.trans (SamePrivate.symm e3) h5⟩, ?_, ?_⟩
  · intro t ht
    obtain ⟨j, hj⟩ := List.mem_iff_getElem?.1 ht
    have hl : j < c0.vault.length := by rw [e6]; exact (List.getElem?_eq_some_iff.1 hj).1
    have hsame := e7 j _ t (List.getElem?_eq_getElem hl) hj
    obtain ⟨hm, u, hu, f1, f2⟩ := h6 _ (List.getElem_mem hl)
    obtain ⟨i', j', -, -, -, i4⟩ := hm
    refine ⟨u, hu, hsame.1 ▸ f1, ?_⟩
    rw [← f2, i4]
    exact ecdsa_only hsame.2.2.2 i4
  intro rnd hrnd
  -- the same credentials in both
  have fwd : ∀ t ∈ c.vault, ∃ s ∈ c0.vault, s.id = t.id ∧ SamePrivate s.key t.key := by
    intro t ht
    obtain ⟨j, hj⟩ := List.mem_iff_getElem?.1 ht
    have hl : j < c0.vault.length := by rw [e6]; exact (List.getElem?_eq_some_iff.1 hj).1
    have := e7 j _ t (List.getElem?_eq_getElem hl) hj
    exact ⟨_, List.getElem_mem hl, this.1, this.2.2.2⟩
  have bwd : ∀ s ∈ c0.vault, ∃ t ∈ c.vault, s.id = t.id ∧ SamePrivate s.key t.key := by
    intro t ht
    obtain ⟨j, hj⟩ := List.mem_iff_getElem?.1 ht
    have hl : j < c.vault.length := by rw [← e6]; exact (List.getElem?_eq_some_iff.1 hj).1
    have := e7 j t _ hj (List.getElem?_eq_getElem hl)
    exact ⟨_, List.getElem_mem hl, this.1, this.2.2.2⟩
  refine ⟨q1, q2, q3, q4, ?_, fun p hp => List.mem_range.1 hp, ?_⟩
  · intro t ht
    obtain ⟨s, hs, f1, f2⟩ := fwd t ht
    obtain ⟨i, j, i1, i2, i3, i4⟩ := (h6 s hs).1
    obtain ⟨t1, t2, t3, ⟨rp, t4, t5⟩, ⟨u, t6, t7⟩⟩ := q5 t ht
    refine ⟨⟨i, j, Nat.lt_of_lt_of_le i1 hrnd, Nat.lt_of_lt_of_le i2 hrnd, f1 ▸ i3, ecdsa_only f2 i4⟩,
      t3, ?_, ?_⟩
    · intro rp' h
      rw [t4] at h
      obtain rfl := Option.some.inj h
      exact t5
    · intro u' h
      rw [t6] at h
      obtain rfl := Option.some.inj h
      exact t7
  · refine ⟨c0, h1, h2, e1, e2, e3, ?_⟩
    intro s hs
    obtain ⟨t, ht, f1, f2⟩ := bwd s hs
    refine ⟨(h6 s hs).1.mono hrnd, t, ht, f1, ?_⟩
    obtain ⟨i, j, -, -, -, i4⟩ := (h6 s hs).1
    rw [i4, ecdsa_only f2 i4]

/-- One event. -/
theorem Inv.step (h : Inv E cfg keep Q H s bs) (hH : ∀ i m, H i m → H' i m) (e : Event)
    (hm : ∀ (i : Nat) op r, (s.step E cfg e).threads[i]? = some (.ready op r) →
      (∀ op' r', s.threads[i]? ≠ some (.ready op' r')) → H' i (s.step E cfg e).mem)
    (hbegin : ∀ op, e = .begin op → s.alive = true → op ≠ .restart → (keep = true → keepsPIN op = true) ∧
      Safe E cfg keep (keepsPIN op) (isRequest op) (Q s.threads.length op) none (perform E op) s.mem) :
    ∃ bs', Inv E cfg keep Q H' (s.step E cfg e) bs' := by
  have same : Inv E cfg keep Q H' s bs :=
    { h with
      ready := fun i op r hi => by
        obtain ⟨b, m, q1, q2, q3⟩ := h.ready i op r hi
        exact ⟨b, m, q1, hH _ m q2, q3⟩ }
  cases e with
  | begin op =>
    by_cases hc : s.alive = true ∧ op ≠ .restart
    · obtain ⟨hko, hs⟩ := hbegin op rfl hc.1 hc.2
      have e : s.step E cfg (.begin op) =
          ({ s with threads := s.threads ++ [Thread.gone op] } : Process).moved s.threads.length op s.mem
            (perform E op) := if_pos hc
      have hmem : ∀ (s : Process) i p, (s.moved i op s.mem p).mem = s.mem := by
        intro s i p
        cases p <;> rfl
      rw [e] at hm ⊢
      rw [hmem { s with threads := s.threads ++ [Thread.gone op] }] at hm
      have hm' : ∀ r, perform E op = .ret r → H' s.threads.length s.mem := by
        intro r hr
        refine hm s.threads.length op r ?_ (by simp)
        rw [hr]
        show ((s.threads ++ [Thread.gone op]).set s.threads.length (.ready op r))[s.threads.length]? = _
        simp
      have h1 : Inv E cfg keep Q H' { s with threads := s.threads ++ [Thread.gone op] } (bs ++ [none]) := by
        have hlast : ∀ {j : Nat} {t : Thread}, (s.threads ++ [Thread.gone op])[j]? = some t →
            s.threads[j]? = some t ∨ (j = s.threads.length ∧ t = .gone op) := by
          intro j t hj
          by_cases hl : j < s.threads.length
          · rw [List.getElem?_append_left hl] at hj
            exact .inl hj
          · rw [List.getElem?_append_right (by omega)] at hj
            right
            have hz : j - s.threads.length = 0 := by
              have := (List.getElem?_eq_some_iff.1 hj).1
              simp at this
              omega
            rw [hz] at hj
            exact ⟨by omega, (Option.some.inj hj).symm⟩
        have hleft : ∀ {j : Nat} {b : Option Ask}, bs[j]? = some b → (bs ++ [none])[j]? = some b := by
          intro j b hj
          rw [List.getElem?_append_left (List.getElem?_eq_some_iff.1 hj).1]
          exact hj
        refine ⟨h.good, h.keys, by simp [h.length], by simpa using h.asks, ?_, ?_, ?_⟩
        · intro j op' p' hj
          rcases hlast hj with hj | ⟨-, hj⟩
          · obtain ⟨b, upd, next, q1, q2⟩ := h.working j op' p' hj
            exact ⟨b, upd, next, hleft q1, q2⟩
          · cases hj
        · intro j op' r hj
          rcases hlast hj with hj | ⟨-, hj⟩
          · obtain ⟨b, m, q1, q2, q3⟩ := h.ready j op' r hj
            exact ⟨b, m, hleft q1, hH _ m q2, q3⟩
          · cases hj
        · intro j t b hj hb hreq
          rcases hlast hj with hj | ⟨hj, -⟩
          · have hl : j < bs.length := by rw [h.length]; exact (List.getElem?_eq_some_iff.1 hj).1
            rw [List.getElem?_append_left hl] at hb
            exact h.quiet j t b hj hb hreq
          · rw [hj, ← h.length] at hb
            simp at hb
            exact hb.symm
      exact ⟨_, h1.moved (fun _ _ h => h) (i := s.threads.length) (t := .gone op) (b := none) (b' := none)
        (by simp) rfl (by simp [← h.length]) h.good (Rel.refl _ _) hko (.inl ⟨rfl, rfl⟩) hs hm'⟩
    · rw [show s.step E cfg (.begin op) = s from if_neg hc]
      exact ⟨bs, same⟩
  | turn i =>
    cases ht : s.threads[i]? with
    | none =>
      refine ⟨bs, ?_⟩
      show Inv E cfg keep Q H' (match s.threads[i]? with
        | some (.working op (.act upd next)) =>
          if s.alive then s.moved i op (upd s.mem) (next s.mem) else s
        | _ => s) bs
      rw [ht]
      exact same
    | some t =>
      cases t with
      | working op p =>
        obtain ⟨b, upd, next, q1, rfl, hko, hs⟩ := h.working i op p ht
        have e : s.step E cfg (.turn i) =
            if s.alive then s.moved i op (upd s.mem) (next s.mem) else s := by
          show (match s.threads[i]? with
            | some (.working op (.act upd next)) =>
              if s.alive then s.moved i op (upd s.mem) (next s.mem) else s
            | _ => s) = _
          rw [ht]
        rw [e] at hm ⊢
        split
        · rename_i hal
          rw [if_pos hal] at hm
          obtain ⟨b', k1, k2, k3, k4⟩ := hs s.mem (Rel.refl _ _) h.good
          have hmem : (s.moved i op (upd s.mem) (next s.mem)).mem = upd s.mem := by
            generalize next s.mem = p
            cases p <;> rfl
          rw [hmem] at hm
          refine ⟨_, h.moved hH ht rfl q1 k1 k2 hko k3 k4 ?_⟩
          intro r hr
          refine hm i op r ?_ (fun op' r' hh => by rw [ht] at hh; cases hh)
          rw [hr]
          show (s.threads.set i (.ready op r))[i]? = _
          rw [List.getElem?_set, if_pos rfl, if_pos (List.getElem?_eq_some_iff.1 ht).1]
        · exact ⟨bs, same⟩
      | ready op r =>
        refine ⟨bs, ?_⟩
        show Inv E cfg keep Q H' (match s.threads[i]? with
          | some (.working op (.act upd next)) =>
            if s.alive then s.moved i op (upd s.mem) (next s.mem) else s
          | _ => s) bs
        rw [ht]
        exact same
      | gone op =>
        refine ⟨bs, ?_⟩
        show Inv E cfg keep Q H' (match s.threads[i]? with
          | some (.working op (.act upd next)) =>
            if s.alive then s.moved i op (upd s.mem) (next s.mem) else s
          | _ => s) bs
        rw [ht]
        exact same
  | restart =>
    obtain ⟨c, h1, hk, -, h2⟩ := good_restart h.good s.mem.world.rnd
    refine ⟨bs, ?_⟩
    have e : s.step E cfg .restart =
        { mem := load { s.mem.world with client := c, rnd := s.mem.world.rnd + 2 }
          threads := s.threads.map Thread.ended, alive := true } := by
      show (match Client.start E cfg s.mem.world.store s.mem.world.rnd with
        | .ok c => _
        | .panic _ => _) = _
      rw [h1]
    rw [e]
    exact h.ended hH (h2 _ (by omega)) hk rfl

end

theorem good_boot (hu : Usable E cfg) : Good E cfg (boot E cfg).mem := by
  obtain ⟨c, h1, h2, -, h4⟩ := Device.inv_boot (E := E) (cfg := cfg) hu (P := fun _ v => v = []) rfl
  obtain rfl := h4 rfl
  obtain ⟨q1, q2, q3, q4, q5⟩ := h1
  refine ⟨q1, q2, q3, q4, fun s hs => (by cases hs), fun p hp => (by cases hp), ?_⟩
  exact ⟨_, ⟨q1, q2, q3, q4, q5⟩, h2, rfl, rfl, SamePrivate.refl _, fun s hs => (by cases hs)⟩

theorem run_snoc (s : Process) (evs : List Event) (e : Event) :
    s.run E cfg (evs ++ [e]) = (s.run E cfg evs).step E cfg e := by
  simp [Process.run]

theorem run_append (s : Process) (evs evs' : List Event) :
    s.run E cfg (evs ++ evs') = (s.run E cfg evs).run E cfg evs' := by
  simp [Process.run]

theorem finished_mono {evs : List Event} {e : Event} {i : Nat} {m : Mem} (h : Finished E cfg evs i m) :
    Finished E cfg (evs ++ [e]) i m := by
  obtain ⟨k, hk, hm⟩ := h
  refine ⟨k, by simp; omega, ?_⟩
  rw [List.take_append_of_le_length (by omega), List.take_append_of_le_length (by omega)]
  exact hm

theorem finished_now {evs : List Event} {e : Event} {i : Nat} {op : Op} {r : Reply}
    (h1 : (((boot E cfg).run E cfg evs).step E cfg e).threads[i]? = some (.ready op r))
    (h2 : ∀ op' r', ((boot E cfg).run E cfg evs).threads[i]? ≠ some (.ready op' r')) :
    Finished E cfg (evs ++ [e]) i (((boot E cfg).run E cfg evs).step E cfg e).mem := by
  refine ⟨evs.length, by simp, ?_⟩
  rw [List.take_of_length_le (by simp : (evs ++ [e]).length ≤ evs.length + 1), List.take_left, run_snoc]
  exact ⟨rfl, ⟨op, r, h1⟩, h2⟩

theorem Inv.boot {Q : Nat → Op → Option Ask → Reply → Mem → Prop} {H : Nat → Mem → Prop}
    (hu : Usable E cfg) : Inv E cfg keep Q H (boot E cfg) [] := by
  refine ⟨good_boot hu, ⟨rfl, rfl, SamePrivate.refl _⟩, rfl, List.Perm.refl _, ?_, ?_, ?_⟩
  · intro i op p hi
    simp [Overlap.boot] at hi
  · intro i op p hi
    simp [Overlap.boot] at hi
  · intro i op p hi
    simp [Overlap.boot] at hi

/-- What results have to satisfy in general. -/
def General (E : Env) (_ : Nat) (op : Op) (q : Option Ask) (r : Reply) (m : Mem) : Prop :=
  Faithful E op r q m

theorem inv_overlap (L : Laws E) (hu : Usable E cfg) (evs : List Event) :
    ∃ bs, Inv E cfg false (General E) (Finished E cfg evs) ((boot E cfg).run E cfg evs) bs := by
  have h : ∀ n (evs : List Event), evs.length = n →
      ∃ bs, Inv E cfg false (General E) (Finished E cfg evs) ((boot E cfg).run E cfg evs) bs := by
    intro n
    induction n with
    | zero =>
      intro evs hl
      obtain rfl := List.length_eq_zero_iff.1 hl
      exact ⟨[], Inv.boot hu⟩
    | succ n ih =>
      intro evs hl
      have hne : evs ≠ [] := by
        intro h
        rw [h] at hl
        cases hl
      obtain ⟨bs, h⟩ := ih evs.dropLast (by simp [hl])
      have e := List.dropLast_concat_getLast hne
      generalize evs.getLast hne = ev at e
      generalize evs.dropLast = evs0 at h e
      subst e
      rw [run_snoc]
      refine h.step (fun i m hm => finished_mono hm) ev (fun i op r => finished_now) ?_
      intro op _ _ _
      refine ⟨by simp, (perform_safe L op (by simp) h.good).mono ?_⟩
      intro q a m hp
      exact hp.1
  exact h _ evs rfl

end VF.Fido.Overlap
