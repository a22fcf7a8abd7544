import Verif.Proofs.Mac
import Verif.Proofs.OverlapFixed

/-! # The device on macOS: the authenticator is given one request at a time -/

namespace VF.Fido.Overlap

open Spec.Overlap

variable {E : Env} {cfg : Client.Config}

theorem busy_ended (t : Thread) : busy t.ended = false := by cases t <;> rfl

/-- A goroutine at work after an event was at work before or has just begun. -/
theorem busy_from (s : Process) {e : Event} (he : e ≠ .restart) {k : Nat} {t : Thread}
    (h : (s.step E cfg e).threads[k]? = some t) (hb : busy t = true) :
    (∃ u, s.threads[k]? = some u ∧ busy u = true) ∨ (k = s.threads.length ∧ ∃ op, e = .begin op) := by
  have key : ∀ (ts : List Thread) (i : Nat) (op : Op) (mem : Mem) (p : Prog Reply),
      (({ s with threads := ts } : Process).moved i op mem p).threads[k]? = some t → k = i ∨ ts[k]? = some t := by
    intro ts i op mem p hk
    unfold Process.moved at hk
    split at hk
    · dsimp only at hk
      rw [List.getElem?_map] at hk
      obtain ⟨u, -, rfl⟩ := Option.map_eq_some_iff.mp hk
      rw [busy_ended] at hb; cases hb
    · dsimp only at hk
      rw [List.getElem?_set] at hk
      split at hk
      · rename_i h1
        exact .inl h1.symm
      · exact .inr hk
  cases e with
  | restart => exact absurd rfl he
  | turn i =>
    unfold Process.step at h
    dsimp only at h
    split at h
    · rename_i op upd next hw
      split at h
      · rcases key s.threads _ _ _ _ h with h1 | h1
        · subst h1
          exact .inl ⟨_, hw, rfl⟩
        · exact .inl ⟨t, h1, hb⟩
      · exact .inl ⟨t, h, hb⟩
    · exact .inl ⟨t, h, hb⟩
  | begin op =>
    unfold Process.step at h
    dsimp only at h
    split at h
    · rcases key _ _ _ _ _ h with h1 | h1
      · exact .inr ⟨h1, op, rfl⟩
      · by_cases hk : k < s.threads.length
        · rw [List.getElem?_append_left hk] at h1
          exact .inl ⟨t, h1, hb⟩
        · have hl := (List.getElem?_eq_some_iff.mp h1).1
          simp at hl
          exact .inr ⟨by omega, op, rfl⟩
    · exact .inl ⟨t, h, hb⟩

theorem map_opOf {l l' : List Thread} (hl : l.length ≤ l'.length)
    (h : ∀ (k : Nat) (t : Thread), l[k]? = some t → ∃ t', l'[k]? = some t' ∧ opOf t' = opOf t) :
    (l'.take l.length).map opOf = l.map opOf := by
  apply List.ext_getElem?
  intro k
  rw [List.getElem?_map, List.getElem?_map, List.getElem?_take]
  split
  · rename_i hk
    obtain ⟨t', h1, h2⟩ := h k _ (List.getElem?_eq_getElem hk)
    rw [h1, List.getElem?_eq_getElem hk]
    simp [h2]
  · rename_i hk
    rw [List.getElem?_eq_none (by omega)]

theorem turn_ops (s : Process) (i : Nat) : (s.step E cfg (.turn i)).threads.map opOf = s.threads.map opOf := by
  have hl : (s.step E cfg (.turn i)).threads.length = s.threads.length := by
    unfold Process.step
    dsimp only
    split
    · split
      · rw [moved_length]
      · rfl
    · rfl
  have := map_opOf (l := s.threads) (l' := (s.step E cfg (.turn i)).threads) (by omega) (fun k t h => by
    obtain ⟨t', h1, h2, -⟩ := step_keeps (E := E) (cfg := cfg) (e := .turn i) s (by simp) h
    exact ⟨t', h1, h2⟩)
  rw [← hl, List.take_length] at this
  exact this

theorem begin_ops (s : Process) {op : Op} (ha : s.alive = true) (ho : op ≠ .restart) :
    (s.step E cfg (.begin op)).threads.map opOf = s.threads.map opOf ++ [op] := by
  have hl : (s.step E cfg (.begin op)).threads.length = s.threads.length + 1 := by
    unfold Process.step
    dsimp only
    rw [if_pos ⟨ha, ho⟩, moved_length]
    simp
  have h0 := map_opOf (l := s.threads) (l' := (s.step E cfg (.begin op)).threads) (by omega) (fun k t h => by
    obtain ⟨t', h1, h2, -⟩ := step_keeps (E := E) (cfg := cfg) (e := .begin op) s (by simp) h
    exact ⟨t', h1, h2⟩)
  obtain ⟨t, h1, h2⟩ := begin_adds (E := E) (cfg := cfg) s ha ho
  rw [← h0]
  generalize (s.step E cfg (.begin op)).threads = l at hl h1
  subst h2
  apply List.ext_getElem?
  intro k
  by_cases hk : k < s.threads.length
  · rw [List.getElem?_append_left (by simp; omega), List.getElem?_map, List.getElem?_map, List.getElem?_take, if_pos hk]
  · by_cases hk2 : k = s.threads.length
    · subst hk2
      rw [List.getElem?_append_right (by simp; omega), List.getElem?_map, h1]
      simp [hl]
    · rw [List.getElem?_eq_none (by simp; omega), List.getElem?_eq_none (by simp; omega)]

theorem one_snoc_turn {i : Nat} : ∀ (evs : List Event) (s : Process), OneAtATime E cfg s evs →
    OneAtATime E cfg s (evs ++ [.turn i])
  | [], _, _ => trivial
  | .turn _ :: evs, _, h => one_snoc_turn evs _ h
  | .begin _ :: evs, _, h => ⟨h.1, one_snoc_turn evs _ h.2⟩
  | .restart :: evs, _, h => ⟨h.1, one_snoc_turn evs _ h.2⟩

theorem one_snoc_begin {op : Op} : ∀ (evs : List Event) (s : Process), OneAtATime E cfg s evs →
    (∀ t ∈ (s.run E cfg evs).threads, busy t = false) → OneAtATime E cfg s (evs ++ [.begin op])
  | [], _, _, h => ⟨h, trivial⟩
  | .turn _ :: evs, _, h, h' => one_snoc_begin evs _ h h'
  | .begin _ :: evs, _, h, h' => ⟨h.1, one_snoc_begin evs _ h.2 h'⟩
  | .restart :: evs, _, h, h' => ⟨h.1, one_snoc_begin evs _ h.2 h'⟩

theorem one_append : ∀ (evs evs' : List Event) (s : Process), OneAtATime E cfg s evs →
    OneAtATime E cfg (s.run E cfg evs) evs' → OneAtATime E cfg s (evs ++ evs')
  | [], _, _, _, h => h
  | .turn _ :: evs, evs', _, h, h' => one_append evs evs' _ h h'
  | .begin _ :: evs, evs', _, h, h' => ⟨h.1, one_append evs evs' _ h.2 h'⟩
  | .restart :: evs, evs', _, h, h' => ⟨h.1, one_append evs evs' _ h.2 h'⟩

theorem operations_append : ∀ (evs evs' : List Event), operations (evs ++ evs') = operations evs ++ operations evs'
  | [], _ => rfl
  | .turn _ :: evs, evs' => operations_append evs evs'
  | .restart :: evs, evs' => congrArg (Op.restart :: ·) (operations_append evs evs')
  | .begin op :: evs, evs' => by
    show (if op = .restart then operations (evs ++ evs') else op :: operations (evs ++ evs')) =
      (if op = .restart then operations evs else op :: operations evs) ++ _
    rw [operations_append evs evs']
    split <;> rfl

theorem restart_operations : ∀ evs : List Event, .restart ∈ evs → .restart ∈ operations evs
  | .turn _ :: evs, h => restart_operations evs (by simpa using h)
  | .restart :: _, _ => by simp [operations]
  | .begin op :: evs, h => by
    have := restart_operations evs (by simpa using h)
    unfold operations
    split
    · exact this
    · exact List.mem_cons_of_mem _ this

end VF.Fido.Overlap

namespace VF.Live

open Hid

/-- A goroutine that is in a call has the number given when it called. -/
def Numbered (ticket : Nat) (r : Reports.Routine) : Prop :=
  ∀ p k cid cmd payload, r.phase = .calling p k cid cmd payload → k = ticket

theorem numbered_goes {s s0 : Reports.State} {i : Nat} {r : Reports.Routine} (h0 : s0.routines = s.routines)
    (hr : s.routines[i]? = some r) {ph : Reports.Phase} {ticket : Nat}
    (hph : ∀ p k cid cmd payload, ph = .calling p k cid cmd payload → k = ticket) :
    ∀ r', (s0.goes i ph).routines[i]? = some r' → Numbered ticket r' := by
  intro r' h
  rw [Reports.goes_get h0 hr ph] at h
  cases h
  exact hph

theorem numbered_same {s s0 : Reports.State} {i : Nat} {r : Reports.Routine} (h0 : s0.routines = s.routines)
    (hr : s.routines[i]? = some r) {ticket : Nat} (hn : Numbered ticket r) :
    ∀ r', s0.routines[i]? = some r' → Numbered ticket r' := by
  intro r' h
  rw [h0, hr] at h
  cases h
  exact hn

theorem handle_numbered (grow : Nat → Nat → Nat) {s : Reports.State} {i p ticket : Nat} {r : Reports.Routine}
    {c : Reports.Chan} (hr : s.routines[i]? = some r) (hn : Numbered ticket r) :
    ∀ r', (s.handle grow i p ticket c r.report).routines[i]? = some r' → Numbered ticket r' := by
  unfold Reports.State.handle
  split
  · exact numbered_same rfl hr hn
  · rename_i t _
    split
    · split
      · exact numbered_goes (s0 := s.setTx p (some t)) rfl hr (fun _ _ _ _ _ h => by cases h)
      · split
        · exact numbered_goes (s0 := ((s.setTx p (some t)).setTx p none).setHolder p none) rfl hr
            (fun _ _ _ _ _ h => by cases h)
        · split
          · exact numbered_same rfl hr hn
          · split
            · unfold Reports.State.broadcast
              split
              · split
                · exact numbered_same (s0 := (s.setTx p (some t)).alloc) rfl hr hn
                · exact numbered_goes (s0 := (s.setTx p (some t)).alloc) rfl hr (fun _ _ _ _ _ h => by cases h)
              · split
                · exact numbered_goes (s0 := s.setTx p (some t)) rfl hr (fun _ _ _ _ _ h => by cases h)
                · exact numbered_same (s0 := s.setTx p (some t)) rfl hr hn
            · unfold Reports.State.data
              split
              · exact numbered_goes (s0 := s.setTx p (some t)) rfl hr (fun _ _ _ _ _ h => by cases h; rfl)
              · split
                · have hk : ((s.setTx p (some t)).keeping i c.channelId).routines[i]? =
                      some { r with keepalive := some c.channelId } := by
                    show (s.routines.modify i _)[i]? = _
                    rw [List.getElem?_modify, hr]
                    simp
                  exact numbered_goes (s0 := (s.setTx p (some t)).keeping i c.channelId) rfl hk
                    (fun _ _ _ _ _ h => by cases h; rfl)
                · split
                  · exact numbered_goes (s0 := s.setTx p (some t)) rfl hr (fun _ _ _ _ _ h => by cases h)
                  · exact numbered_same (s0 := s.setTx p (some t)) rfl hr hn
    · exact numbered_goes (s0 := (s.setTx p (some t)).setHolder p none) rfl hr (fun _ _ _ _ _ h => by cases h)

theorem turn_ticket {grow : Nat → Nat → Nat} {s h : Reports.State} {i ticket : Nat} {r : Reports.Routine}
    (hr : s.routines[i]? = some r) (hst : s.turn grow i ticket r = some h)
    (hnc : ∀ p k cid cmd payload, r.phase ≠ .calling p k cid cmd payload) :
    ∀ r', h.routines[i]? = some r' → Numbered ticket r' := by
  have hn : Numbered ticket r := fun p k cid cmd payload h => absurd h (hnc p k cid cmd payload)
  unfold Reports.State.turn at hst
  split at hst
  · split at hst
    · cases hst
      exact numbered_same rfl hr hn
    · split at hst
      · cases hst
        exact numbered_goes rfl hr (fun _ _ _ _ _ h => by cases h)
      · cases hst
        exact numbered_goes rfl hr (fun _ _ _ _ _ h => by cases h)
  · split at hst
    · cases hst
    · split at hst
      · rename_i p c _ _
        cases hst
        exact numbered_goes (s0 := s.setHolder _ (some i)) rfl hr (fun _ _ _ _ _ h => by cases h)
      · cases hst
  · split at hst
    · cases hst
    · cases hst
      exact handle_numbered grow hr hn
  · cases hst
  · split at hst
    · cases hst
      exact numbered_goes rfl hr (fun _ _ _ _ _ h => by cases h)
    · cases hst
  · cases hst
    exact numbered_goes rfl hr (fun _ _ _ _ _ h => by cases h)
  · rename_i q _
    cases hst
    cases q with
    | none => exact numbered_goes rfl hr (fun _ _ _ _ _ h => by cases h)
    | some q =>
      exact numbered_goes (s0 := (({ s with responses := none } : Reports.State).setTx q none).setHolder q none) rfl hr
        (fun _ _ _ _ _ h => by cases h)
  · cases hst

end VF.Live

namespace VF.Mac

open Fido Hid Spec.Mac
open Spec.Overlap (opOf busy OneAtATime operations)

variable {E : Env} {cfg : Client.Config} {grow : Nat → Nat → Nat} {p0 : Overlap.Process}

/-- One report at a time is dealt with, and the authenticator has at most one operation at work, for it. -/
structure Lone (E : Env) (cfg : Client.Config) (p0 : Overlap.Process) (s : Live.State) (oevs : List Overlap.Event) :
    Prop where
  run : s.proc = p0.run E cfg oevs
  one : OneAtATime E cfg p0 oevs
  ops : s.proc.threads.map opOf = p0.threads.map opOf ++ operations oevs
  working : ∀ (k : Nat) (t : Overlap.Thread), s.proc.threads[k]? = some t → busy t = true →
    ∃ (i : Nat) (r : Reports.Routine) (p : Nat) (cid : UInt32) (cmd : UInt8) (payload : Bytes),
      s.hid.routines[i]? = some r ∧ r.phase = .calling p k cid cmd payload
  single : ∀ (i j : Nat) (r r2 : Reports.Routine), s.hid.routines[i]? = some r → s.hid.routines[j]? = some r2 →
    r.phase ≠ .done → r2.phase ≠ .done → i = j
  requests : ∀ op ∈ operations oevs, Live.isApi op = false ∧ op ≠ .restart

theorem operation_request (cmd : UInt8) (payload : Bytes) : Live.isApi (Live.operation cmd payload) = false := by
  unfold Live.operation; split <;> rfl

/-- No operation is at work unless a call is. -/
theorem Lone.free {s : Live.State} {oevs : List Overlap.Event} (l : Lone E cfg p0 s oevs) {i : Nat} {r : Reports.Routine}
    (hr : s.hid.routines[i]? = some r) (hd : r.phase ≠ .done)
    (hc : ∀ p k cid cmd payload t, r.phase = .calling p k cid cmd payload → s.proc.threads[k]? = some t → busy t = false) :
    ∀ t ∈ s.proc.threads, busy t = false := by
  intro t ht
  obtain ⟨k, hk⟩ := List.mem_iff_getElem?.mp ht
  rcases hb : busy t with _ | _
  · rfl
  · obtain ⟨j, r2, p, cid, cmd, payload, h1, h2⟩ := l.working k t hk hb
    have : i = j := l.single i j r r2 hr h1 hd (by rw [h2]; simp)
    subst this
    rw [hr] at h1
    cases h1
    rw [hc p k cid cmd payload t h2 hk] at hb
    cases hb

theorem single_set {l : List Reports.Routine} {i : Nat} {r r' : Reports.Routine} (hr : l[i]? = some r) (hd : r.phase ≠ .done)
    (h : ∀ (i j : Nat) (r r2 : Reports.Routine), l[i]? = some r → l[j]? = some r2 →
      r.phase ≠ .done → r2.phase ≠ .done → i = j) :
    ∀ (i' j : Nat) (x y : Reports.Routine), (l.set i r')[i']? = some x → (l.set i r')[j]? = some y →
      x.phase ≠ .done → y.phase ≠ .done → i' = j := by
  have key : ∀ (j : Nat) (y : Reports.Routine), (l.set i r')[j]? = some y → y.phase ≠ .done → i = j := by
    intro j y hj hy
    rw [List.getElem?_set] at hj
    split at hj
    · rename_i h1; exact h1
    · exact h i j r y hr hj hd hy
  intro i' j x y hi hj hx hy
  rw [← key i' x hi hx, ← key j y hj hy]

theorem lone_step {s s' : Live.State} {e : Live.Event} {oevs : List Overlap.Event} (l : Lone E cfg p0 s oevs)
    (hs : s.step E cfg grow e = some s') (hcr : s'.hid.crashed = false) (hq : ∀ m, e = .report m → Quiet s)
    (hapi : ∀ op, e ≠ .api op) : ∃ oevs', Lone E cfg p0 s' oevs' := by
  obtain ⟨hc0, ha0⟩ := Live.step_crashed hs
  unfold Live.State.step at hs
  rw [if_pos ha0] at hs
  cases e with
  | api op => exact absurd rfl (hapi op)
  | report m =>
    obtain ⟨h, hst, rfl⟩ := Option.map_eq_some_iff.mp hs
    unfold Reports.State.step at hst
    rw [if_neg (by rw [hc0]; decide)] at hst
    cases hst
    have hq := hq m rfl
    refine ⟨oevs, l.run, l.one, l.ops, ?_, ?_, l.requests⟩
    · intro k t hk hb
      obtain ⟨i, r, p, cid, cmd, payload, h1, h2⟩ := l.working k t hk hb
      have := hq r (List.mem_of_getElem? h1)
      rw [h2] at this; cases this
    · have key : ∀ (j : Nat) (y : Reports.Routine), (s.hid.routines ++ [⟨m, .arrived, none⟩])[j]? = some y →
          y.phase ≠ .done → j = s.hid.routines.length := by
        intro j y hj hy
        by_cases h : j < s.hid.routines.length
        · rw [List.getElem?_append_left h] at hj
          exact absurd (hq y (List.mem_of_getElem? hj)) hy
        · have := (List.getElem?_eq_some_iff.mp hj).1
          simp at this
          omega
      intro i j x y hi hj hx hy
      rw [key i x hi hx, key j y hj hy]
  | keepalive i =>
    obtain ⟨h, hst, rfl⟩ := Option.map_eq_some_iff.mp hs
    have hrt : h.routines = s.hid.routines := by
      unfold Reports.State.step at hst
      rw [if_neg (by rw [hc0]; decide)] at hst
      dsimp only at hst
      split at hst
      · split at hst
        · cases hst; rfl
        · cases hst
      · cases hst
    refine ⟨oevs, l.run, l.one, l.ops, ?_, ?_, l.requests⟩
    · show ∀ (k : Nat) (t : Overlap.Thread), s.proc.threads[k]? = some t → busy t = true → _
      dsimp only
      rw [hrt]
      exact l.working
    · dsimp only
      rw [hrt]
      exact l.single
  | work k =>
    dsimp only at hs
    split at hs
    · split at hs
      · cases hs
      · cases hs
        refine ⟨oevs ++ [.turn k], ?_, Overlap.one_snoc_turn oevs p0 l.one, ?_, ?_, l.single, ?_⟩
        · rw [Overlap.run_append, ← l.run]; rfl
        · rw [Overlap.operations_append]
          show (s.proc.step E cfg (.turn k)).threads.map opOf = _
          rw [Overlap.turn_ops, l.ops]
          simp [operations]
        · intro k' t hk hb
          rcases Overlap.busy_from s.proc (by simp) hk hb with ⟨u, h1, h2⟩ | ⟨-, op, h⟩
          · exact l.working k' u h1 h2
          · cases h
        · rw [Overlap.operations_append]
          simpa [operations] using l.requests
    · cases hs
  | «return» i =>
    dsimp only at hs
    split at hs
    · rename_i rep p k cid cmd payload ka hr
      split at hs
      · rename_i op bytes hk
        obtain ⟨h, hst, rfl⟩ := Option.map_eq_some_iff.mp hs
        unfold Reports.State.step at hst
        rw [if_neg (by rw [hc0]; decide)] at hst
        dsimp only at hst
        rw [hr] at hst
        cases hst
        have hfree := l.free hr (by simp) (fun p' k' cid' cmd' payload' t h1 h2 => by
          cases h1
          rw [hk] at h2
          cases h2
          rfl)
        refine ⟨oevs, l.run, l.one, l.ops, ?_, ?_, l.requests⟩
        · intro k' t h1 h2
          rw [hfree t (List.mem_of_getElem? h1)] at h2; cases h2
        · dsimp only
          rw [Reports.goes_eq hr]
          exact single_set hr (by simp) l.single
      · cases hs
    · cases hs
  | step i =>
    obtain ⟨h, hst, rfl⟩ := Option.map_eq_some_iff.mp hs
    have hhid : (({ s with hid := h } : Live.State).enter E cfg i).hid = h := by
      unfold Live.State.enter; split <;> rfl
    rw [hhid] at hcr
    unfold Reports.State.step at hst
    rw [if_neg (by rw [hc0]; decide)] at hst
    dsimp only at hst
    rcases hr : s.hid.routines[i]? with _ | r
    · rw [hr] at hst; cases hst
    · rw [hr] at hst
      dsimp only at hst
      have hd : r.phase ≠ .done := by
        intro hp
        unfold Reports.State.turn at hst
        rw [hp] at hst; cases hst
      have hnc : ∀ p k cid cmd payload, r.phase ≠ .calling p k cid cmd payload := by
        intro p k cid cmd payload hp
        unfold Reports.State.turn at hst
        rw [hp] at hst; cases hst
      have hfree := l.free hr hd (fun p k cid cmd payload t h1 _ => absurd h1 (hnc p k cid cmd payload))
      rcases Live.turn_nearer hr hst with hc | ⟨r', hset, -⟩
      · rw [hc] at hcr; cases hcr
      · have hsingle := single_set (r' := r') hr hd l.single
        rw [← hset] at hsingle
        unfold Live.State.enter
        dsimp only
        split
        · rename_i rep p ticket cid cmd payload ka hri
          refine ⟨oevs ++ [.begin (Live.operation cmd payload)], ?_, ?_, ?_, ?_, hsingle, ?_⟩
          · rw [Overlap.run_append, ← l.run]; rfl
          · refine Overlap.one_snoc_begin oevs p0 l.one ?_
            rw [← l.run]
            exact hfree
          · rw [Overlap.operations_append]
            show (s.proc.step E cfg (.begin (Live.operation cmd payload))).threads.map opOf = _
            rw [Overlap.begin_ops s.proc ha0 (Live.operation_ne cmd payload), l.ops]
            simp [operations, Live.operation_ne]
          · intro k t hk hb
            rcases Overlap.busy_from s.proc (by simp) hk hb with ⟨u, h1, h2⟩ | ⟨h1, -⟩
            · rw [hfree u (List.mem_of_getElem? h1)] at h2; cases h2
            · subst h1
              have htick : ticket = s.proc.threads.length := Live.turn_ticket hr hst hnc _ hri _ _ _ _ _ rfl
              subst htick
              exact ⟨i, _, p, cid, cmd, payload, hri, rfl⟩
          · rw [Overlap.operations_append]
            intro op hop
            rw [List.mem_append] at hop
            rcases hop with hop | hop
            · exact l.requests op hop
            · simp [operations, Live.operation_ne] at hop
              rw [hop]
              exact ⟨operation_request cmd payload, Live.operation_ne cmd payload⟩
        · refine ⟨oevs, l.run, l.one, l.ops, ?_, hsingle, l.requests⟩
          intro k t h1 h2
          rw [hfree t (List.mem_of_getElem? h1)] at h2; cases h2

theorem lone_run (levs : List Live.Event) : ∀ {s s' : Live.State} {oevs : List Overlap.Event}, Lone E cfg p0 s oevs →
    s.run E cfg grow levs = some s' → s'.hid.crashed = false → Serial E cfg grow s levs →
    (∀ op, Live.Event.api op ∉ levs) → ∃ oevs', Lone E cfg p0 s' oevs' := by
  induction levs with
  | nil => intro s s' oevs l h _ _ _; cases h; exact ⟨oevs, l⟩
  | cons e levs ih =>
    intro s s' oevs l h hcr hser hapi
    obtain ⟨s1, h1, h2⟩ := Option.bind_eq_some_iff.mp h
    have hc1 : s1.hid.crashed = false := by
      cases levs with
      | nil => cases h2; exact hcr
      | cons e2 levs =>
        obtain ⟨s2, h3, -⟩ := Option.bind_eq_some_iff.mp h2
        exact (Live.step_crashed h3).1
    obtain ⟨oevs1, l1⟩ := lone_step l h1 hc1 hser.1 (fun op he => hapi op (by rw [he]; simp))
    exact ih l1 h2 hcr (hser.2 s1 h1) (fun op hm => hapi op (by simp [hm]))

theorem lone_start (hfree : ∀ t ∈ p0.threads, busy t = false) : Lone E cfg p0 (.start p0) [] := by
  refine ⟨rfl, trivial, by simp [operations]; rfl, ?_, ?_, by simp [operations]⟩
  · intro k t hk hb
    rw [hfree t (List.mem_of_getElem? hk)] at hb; cases hb
  · intro i j r r2 hi; cases hi

/-- Two lists of numbers that increase and have the same elements are the same. -/
theorem eq_of_increasing {l l' : List Nat} (h : l.Pairwise (· < ·)) (h' : l'.Pairwise (· < ·)) (hm : ∀ n, n ∈ l ↔ n ∈ l') :
    l = l' := by
  have hp : l.Perm l' := (List.perm_ext_iff_of_nodup (h.imp fun hab => Nat.ne_of_lt hab)
    (h'.imp fun hab => Nat.ne_of_lt hab)).mpr (fun n => hm n)
  exact hp.eq_of_pairwise (fun a b _ _ h1 h2 => by omega) h h'

/-- Only the last report given may not be done with. -/
def LastBusy (s : Live.State) : Prop :=
  ∀ (i : Nat) (r : Reports.Routine), s.hid.routines[i]? = some r → r.phase ≠ .done → i + 1 = s.hid.routines.length

theorem lastBusy_set {l : List Reports.Routine} {i : Nat} {r r' : Reports.Routine} (hr : l[i]? = some r) (hd : r.phase ≠ .done)
    (h : ∀ (i : Nat) (r : Reports.Routine), l[i]? = some r → r.phase ≠ .done → i + 1 = l.length) :
    ∀ (j : Nat) (x : Reports.Routine), (l.set i r')[j]? = some x → x.phase ≠ .done → j + 1 = (l.set i r').length := by
  intro j x hj hx
  rw [List.length_set]
  rw [List.getElem?_set] at hj
  split at hj
  · rename_i h1
    subst h1
    exact h i r hr hd
  · exact h j x hj hx

theorem lastBusy_step {s s' : Live.State} {e : Live.Event} (l : LastBusy s) (hs : s.step E cfg grow e = some s')
    (hcr : s'.hid.crashed = false) (hq : ∀ m, e = .report m → Quiet s) : LastBusy s' := by
  obtain ⟨hc0, ha0⟩ := Live.step_crashed hs
  unfold Live.State.step at hs
  rw [if_pos ha0] at hs
  cases e with
  | api op =>
    dsimp only at hs
    split at hs
    · cases hs; exact l
    · cases hs
  | report m =>
    obtain ⟨h, hst, rfl⟩ := Option.map_eq_some_iff.mp hs
    unfold Reports.State.step at hst
    rw [if_neg (by rw [hc0]; decide)] at hst
    cases hst
    intro j y hj hy
    have hj : (s.hid.routines ++ [(⟨m, .arrived, none⟩ : Reports.Routine)])[j]? = some y := hj
    show j + 1 = (s.hid.routines ++ [(⟨m, .arrived, none⟩ : Reports.Routine)]).length
    by_cases h : j < s.hid.routines.length
    · rw [List.getElem?_append_left h] at hj
      exact absurd (hq m rfl y (List.mem_of_getElem? hj)) hy
    · have := (List.getElem?_eq_some_iff.mp hj).1
      simp at this ⊢
      omega
  | keepalive i =>
    obtain ⟨h, hst, rfl⟩ := Option.map_eq_some_iff.mp hs
    unfold Reports.State.step at hst
    rw [if_neg (by rw [hc0]; decide)] at hst
    dsimp only at hst
    split at hst
    · split at hst
      · cases hst; exact l
      · cases hst
    · cases hst
  | work k =>
    dsimp only at hs
    split at hs
    · split at hs
      · cases hs
      · cases hs; exact l
    · cases hs
  | «return» i =>
    dsimp only at hs
    split at hs
    · rename_i rep p k cid cmd payload ka hr
      split at hs
      · obtain ⟨h, hst, rfl⟩ := Option.map_eq_some_iff.mp hs
        unfold Reports.State.step at hst
        rw [if_neg (by rw [hc0]; decide)] at hst
        dsimp only at hst
        rw [hr] at hst
        cases hst
        unfold LastBusy
        dsimp only
        rw [Reports.goes_eq hr]
        exact lastBusy_set hr (by simp) l
      · cases hs
    · cases hs
  | step i =>
    obtain ⟨h, hst, rfl⟩ := Option.map_eq_some_iff.mp hs
    have hhid : (({ s with hid := h } : Live.State).enter E cfg i).hid = h := by
      unfold Live.State.enter; split <;> rfl
    rw [hhid] at hcr
    unfold LastBusy
    rw [hhid]
    unfold Reports.State.step at hst
    rw [if_neg (by rw [hc0]; decide)] at hst
    dsimp only at hst
    rcases hr : s.hid.routines[i]? with _ | r
    · rw [hr] at hst; cases hst
    · rw [hr] at hst
      dsimp only at hst
      have hd : r.phase ≠ .done := by
        intro hp
        unfold Reports.State.turn at hst
        rw [hp] at hst; cases hst
      rcases Live.turn_nearer hr hst with hc | ⟨r', hset, -⟩
      · rw [hc] at hcr; cases hcr
      · rw [hset]
        exact lastBusy_set hr hd l

theorem lastBusy_run (levs : List Live.Event) : ∀ {s s' : Live.State}, LastBusy s →
    s.run E cfg grow levs = some s' → s'.hid.crashed = false → Serial E cfg grow s levs → LastBusy s' := by
  induction levs with
  | nil => intro s s' l h _ _; cases h; exact l
  | cons e levs ih =>
    intro s s' l h hcr hser
    obtain ⟨s1, h1, h2⟩ := Option.bind_eq_some_iff.mp h
    have hc1 : s1.hid.crashed = false := by
      cases levs with
      | nil => cases h2; exact hcr
      | cons e2 levs =>
        obtain ⟨s2, h3, -⟩ := Option.bind_eq_some_iff.mp h2
        exact (Live.step_crashed h3).1
    exact ih (lastBusy_step l h1 hc1 hser.1) h2 hcr (hser.2 s1 h1)

end VF.Mac
